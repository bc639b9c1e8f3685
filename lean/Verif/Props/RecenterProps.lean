import Verif.Model.Recenter
import Verif.Spec.RecenterSpec
import Verif.Lemmas.Loops
import Mathlib.Algebra.BigOperators.Fin
import Mathlib.Tactic.FieldSimp
import Mathlib.Tactic.Linarith
import Mathlib.Tactic.FinCases

/-!
# C58: `to_grid`, `to_xgrid`, `to_ygrid`
-/

namespace Qbox.Props
open Qbox Scalar Spec

/-- The function of the class that moves components to a set of points. -/
noncomputable def recenter (f : Flds ℝ) : Points → Fields → V2 ℤ → M ℝ
  | .nodes => f.toGrid
  | .xgrid => f.toXgrid
  | .ygrid => f.toYgrid

/-- The samples of a component. -/
def comp (f : Flds ℝ) : Fields → Tensor ℝ
  | .Hx => f.Hx
  | .Hy => f.Hy
  | _ => f.Ez

theorem rd_some {F : Tensor ℝ} {i j : ℤ} {v : ℝ} (h : F.rd i j = .ok v) : F.In i j ∧ v = F.val i j := by
  unfold Tensor.rd at h
  split at h
  · next hi => exact ⟨hi, (Except.ok.inj h).symm⟩
  · cases h

theorem value_one {dx : ℝ} (hd : 0 < dx) {C : Fields} {F : Tensor ℝ} {q : V2 ℝ} {i j : ℤ} (hi : F.In i j)
    (hq : samplePos dx C i j = q) : ValueAt dx C F q (F.val i j) := by
  refine ⟨⟨fun k => if k = 0 then 1 else 0, fun _ => (i, j), ?_, ?_, fun _ => hi, ?_, ?_⟩, ?_⟩
  · intro k; dsimp only; split <;> norm_num
  · simp [Fin.sum_univ_four]
  · intro k; rw [hq]; simp [hd]
  · simp [Fin.sum_univ_four]
  · intro α β γ h
    rw [h i j hi, hq]

theorem value_two {dx : ℝ} {C : Fields} {F : Tensor ℝ} {q : V2 ℝ} {i j i' j' : ℤ} (hi : F.In i j) (hi' : F.In i' j')
    (n : |(samplePos dx C i j).x - q.x| < dx ∧ |(samplePos dx C i j).y - q.y| < dx)
    (n' : |(samplePos dx C i' j').x - q.x| < dx ∧ |(samplePos dx C i' j').y - q.y| < dx)
    (mx : (samplePos dx C i j).x + (samplePos dx C i' j').x = 2 * q.x)
    (my : (samplePos dx C i j).y + (samplePos dx C i' j').y = 2 * q.y) :
    ValueAt dx C F q ((F.val i j + F.val i' j') / 2) := by
  refine ⟨⟨fun k => if k = 0 ∨ k = 1 then 1 / 2 else 0, fun k => if k = 0 then (i, j) else (i', j'), ?_, ?_, ?_, ?_, ?_⟩, ?_⟩
  · intro k; dsimp only; split <;> norm_num
  · simp [Fin.sum_univ_four]; norm_num
  · intro k; dsimp only; split
    · exact hi
    · exact hi'
  · intro k; dsimp only; split
    · exact n
    · exact n'
  · simp [Fin.sum_univ_four]; ring
  · intro α β γ h
    rw [h i j hi, h i' j' hi']
    linear_combination (β / 2) * mx + (γ / 2) * my

theorem value_four {dx : ℝ} {C : Fields} {F : Tensor ℝ} {q : V2 ℝ} (n : Fin 4 → ℤ × ℤ) (hi : ∀ k, F.In (n k).1 (n k).2)
    (near : ∀ k, |(samplePos dx C (n k).1 (n k).2).x - q.x| < dx ∧ |(samplePos dx C (n k).1 (n k).2).y - q.y| < dx)
    (mx : ∑ k, (samplePos dx C (n k).1 (n k).2).x = 4 * q.x)
    (my : ∑ k, (samplePos dx C (n k).1 (n k).2).y = 4 * q.y) :
    ValueAt dx C F q ((∑ k, F.val (n k).1 (n k).2) / 4) := by
  refine ⟨⟨fun _ => 1 / 4, n, fun _ => by norm_num, ?_, hi, near, ?_⟩, ?_⟩
  · simp
  · rw [← Finset.mul_sum]; ring
  · intro α β γ h
    rw [Finset.sum_congr rfl (fun k _ => h _ _ (hi k))]
    simp only [Fin.sum_univ_four] at mx my ⊢
    linear_combination (β / 4) * mx + (γ / 4) * my

theorem abs_half {dx x : ℝ} (hd : 0 < dx) (h : x = dx / 2 ∨ x = -(dx / 2) ∨ x = 0) : |x| < dx := by
  rw [abs_lt]
  rcases h with h | h | h <;> rw [h] <;> constructor <;> linarith

/-- **C58** in full: the three functions give the value of every component at the point they are named after. -/
def Recentred (dx : ℝ) (f : Flds ℝ) (G : Points) (C : Fields) : Prop :=
  ∀ p v, recenter f G C p = .ok v → ValueAt dx C (comp f C) (G.pos dx p) v

/-- What is missing from C58: `to_xgrid` of `Hx`, for which it is false (`C58_xgrid_Hx_false`). -/
theorem C58_recentred_partial (dx : ℝ) (hd : 0 < dx) (f : Flds ℝ) (G : Points) (C : Fields) (hC : ¬ (G = .xgrid ∧ C = .Hx)) :
    Recentred dx f G C := by
  intro p v h
  have near : ∀ {a b : ℝ}, (a - b = dx / 2 ∨ a - b = -(dx / 2) ∨ a - b = 0) → |a - b| < dx := fun {a b} h => abs_half hd h
  have four : ∀ (F : Tensor ℝ) (i j i1 j1 i2 j2 i3 j3 : ℤ),
      (F.val i j + F.val i1 j1 + F.val i2 j2 + F.val i3 j3) / 4
      = (∑ k, F.val ((![(i, j), (i1, j1), (i2, j2), (i3, j3)] : Fin 4 → ℤ × ℤ) k).1
          ((![(i, j), (i1, j1), (i2, j2), (i3, j3)] : Fin 4 → ℤ × ℤ) k).2) / 4 := by
    intros; simp [Fin.sum_univ_four]
  cases G <;> cases C <;> simp only [recenter, Flds.toGrid, Flds.toXgrid, Flds.toYgrid, notComponent, reduceCtorEq] at h
  all_goals try (exact absurd ⟨rfl, rfl⟩ hC)
  all_goals try simp only [Except.bind_ok, Except.pure_eq, Except.ok.injEq, ofInt_real] at h
  all_goals show ValueAt dx _ (comp f _) _ v; simp only [comp]
  case nodes.Ez =>
    obtain ⟨hi, rfl⟩ := rd_some h
    exact value_one hd hi rfl
  case xgrid.Hy =>
    obtain ⟨hi, rfl⟩ := rd_some h
    exact value_one hd hi rfl
  case ygrid.Hx =>
    obtain ⟨hi, rfl⟩ := rd_some h
    exact value_one hd hi rfl
  case ygrid.Hy =>
    obtain ⟨a, h1, b, h2, c, h3, d, h4, rfl⟩ := h
    obtain ⟨k1, rfl⟩ := rd_some h1
    obtain ⟨k2, rfl⟩ := rd_some h2
    obtain ⟨k3, rfl⟩ := rd_some h3
    obtain ⟨k4, rfl⟩ := rd_some h4
    push_cast
    rw [four]
    refine value_four _ ?_ ?_ ?_ ?_
    · intro k; fin_cases k <;> assumption
    · intro k
      fin_cases k <;> refine ⟨near ?_, near ?_⟩ <;> simp [samplePos, Points.pos] <;>
        first
        | (left; ring1)
        | (right; left; ring1)
        | (right; right; ring1)
    · simp [Fin.sum_univ_four, samplePos, Points.pos]; ring
    · simp [Fin.sum_univ_four, samplePos, Points.pos]; ring
  all_goals
    obtain ⟨a, h1, b, h2, rfl⟩ := h
    obtain ⟨k1, rfl⟩ := rd_some h1
    obtain ⟨k2, rfl⟩ := rd_some h2
    push_cast
    refine value_two k1 k2 ⟨near ?_, near ?_⟩ ⟨near ?_, near ?_⟩ ?_ ?_ <;> simp only [samplePos, Points.pos] <;> push_cast
  all_goals
    first
    | ring1
    | (left; ring1)
    | (right; left; ring1)
    | (right; right; ring1)

/-- `to_xgrid` of `Hx` gives the value one cell to the left of and one cell above the point it is named after. -/
theorem xgrid_Hx {dx : ℝ} {f : Flds ℝ} {p : V2 ℤ} {v α β γ : ℝ} (ha : Affine dx .Hx f.Hx α β γ)
    (h : recenter f .xgrid .Hx p = .ok v) :
    v = α + β * ((Points.xgrid.pos dx p).x - dx) + γ * ((Points.xgrid.pos dx p).y + dx) := by
  simp only [recenter, Flds.toXgrid, Except.bind_ok, Except.pure_eq, Except.ok.injEq, ofInt_real] at h
  obtain ⟨a, h1, b, h2, c, h3, d, h4, rfl⟩ := h
  obtain ⟨k1, rfl⟩ := rd_some h1
  obtain ⟨k2, rfl⟩ := rd_some h2
  obtain ⟨k3, rfl⟩ := rd_some h3
  obtain ⟨k4, rfl⟩ := rd_some h4
  rw [ha _ _ k1, ha _ _ k2, ha _ _ k3, ha _ _ k4]
  simp only [samplePos, Points.pos]
  push_cast
  ring

/-- The fields of a 3 by 3 grid whose `Hx` is the coordinate `y`. -/
noncomputable def rampY (dx : ℝ) : Flds ℝ where
  Ez := .const 3 3 0
  Hx := ⟨3, 3, fun _ j => (j + 1 / 2) * dx⟩
  Hy := .const 3 3 0
  Ca := .const 3 3 1
  Cb := .const 3 3 0
  Da := .const 3 3 1
  Db := .const 3 3 0

/-- Against C58: at every resolution `to_xgrid` of `Hx` differs from the value at the point by a whole cell. -/
theorem C58_xgrid_Hx_false (dx : ℝ) (hd : 0 < dx) : ¬ ∀ f : Flds ℝ, Recentred dx f .xgrid .Hx := by
  intro h
  have ha : Affine dx .Hx (rampY dx).Hx 0 0 1 := by
    intro i j _; simp [rampY, samplePos]
  have hv : recenter (rampY dx) .xgrid .Hx ⟨1, 1⟩ = .ok (2 * dx) := by
    simp [recenter, Flds.toXgrid, Tensor.rd, Tensor.In, rampY]
    ring
  have := (h (rampY dx) ⟨1, 1⟩ _ hv).2 0 0 1 ha
  simp [Points.pos] at this
  linarith

/-- The functions are defined at every node that is not on the border. -/
theorem C58_defined (f : Flds ℝ) (Nx Ny : ℤ) (hE : f.Ez.nx = Nx ∧ f.Ez.ny = Ny) (hx : f.Hx.nx = Nx ∧ f.Hx.ny = Ny)
    (hy : f.Hy.nx = Nx ∧ f.Hy.ny = Ny) (G : Points) (C : Fields) (hC : C = .Ez ∨ C = .Hx ∨ C = .Hy) (p : V2 ℤ)
    (hp : 1 ≤ p.x ∧ p.x + 1 < Nx ∧ 1 ≤ p.y ∧ p.y + 1 < Ny) : ∃ v, recenter f G C p = .ok v := by
  obtain ⟨e1, e2⟩ := hE
  obtain ⟨e3, e4⟩ := hx
  obtain ⟨e5, e6⟩ := hy
  cases G <;> rcases hC with rfl | rfl | rfl <;>
    simp only [recenter, Flds.toGrid, Flds.toXgrid, Flds.toYgrid] <;>
    simp (disch := omega) only [Tensor.rd_in, Except.ok_bind, Except.pure_eq] <;> exact ⟨_, rfl⟩

/-- On the lower and left borders the neighbour that is read does not exist. -/
theorem C58_border_undefined (f : Flds ℝ) (p : V2 ℤ) :
    (p.y = 0 → recenter f .nodes .Hx p = .error (.ub .oob)) ∧ (p.x = 0 → recenter f .nodes .Hy p = .error (.ub .oob)) := by
  have out : ∀ (F : Tensor ℝ) (i j : ℤ), F.rd i j = .ok (F.val i j) ∨ F.rd i j = .error (.ub .oob) := by
    intro F i j; unfold Tensor.rd; split <;> simp
  constructor
  · intro h
    simp only [recenter, Flds.toGrid, h]
    rw [Tensor.rd_out (a := f.Hx) (i := p.x) (j := 0 - 1) (by simp [Tensor.In])]
    rcases out f.Hx p.x 0 with e | e <;> rw [e] <;> rfl
  · intro h
    simp only [recenter, Flds.toGrid, h]
    rw [Tensor.rd_out (a := f.Hy) (i := 0 - 1) (j := p.y) (by simp [Tensor.In])]
    rcases out f.Hy 0 p.y with e | e <;> rw [e] <;> rfl

/-- The hypotheses are met: in the ramp of height `y` the value of `Hx` at the node (1, 1) is its height. -/
example (dx : ℝ) (hd : 0 < dx) : recenter (rampY dx) .nodes .Hx ⟨1, 1⟩ = .ok dx := by
  obtain ⟨v, hv⟩ := C58_defined (rampY dx) 3 3 ⟨rfl, rfl⟩ ⟨rfl, rfl⟩ ⟨rfl, rfl⟩ .nodes .Hx (by simp) ⟨1, 1⟩ (by norm_num)
  have := (C58_recentred_partial dx hd (rampY dx) .nodes .Hx (by simp) ⟨1, 1⟩ v hv).2 0 0 1
    (by intro i j _; simp [rampY, comp, samplePos])
  rw [hv, this]
  simp [Points.pos]

end Qbox.Props
