import Verif.Lemmas.CoreOps
import Verif.Spec.MaterialSpec
import Verif.Lemmas.Round
import Mathlib.Tactic.FieldSimp

/-! # Material grid: pointwise effect of painting objects, and coverage of the scanned box -/

namespace Qbox
open Scalar Qbox.Spec

set_option linter.unusedSectionVars false

theorem forList_cons {σ ι : Type} (a : ι) (l : List ι) (s : σ) (body : ι → σ → M σ) :
    forList (a :: l) s body = (body a s >>= fun s => forList l s body) := by
  unfold forList
  rw [List.foldlM_cons]

section
variable {K : Type} [Scalar K]

/-- Every existing node inside the object is scanned. -/
def Object.Covered (g : Grid K) (o : Object K) : Prop :=
  ∀ i j : ℤ, 0 ≤ i → i < g.Nx → 0 ≤ j → j < g.Ny → o.inside (g.toReal ⟨i, j⟩) = true → (i, j) ∈ scan g o

theorem Flds.paint_hit {f : Flds K} {k : MatKind K} {dt : K} {q : ℤ → ℤ → Bool} {D : Finset (ℤ × ℤ)} {i j : ℤ}
    (h : (i, j) ∈ D) (hq : q i j = true) : HasMedium (f.paint k dt q D) k dt i j := by
  constructor <;> simp [Flds.paint, h, hq]

theorem Flds.paint_miss {f : Flds K} {k : MatKind K} {dt : K} {q : ℤ → ℤ → Bool} {D : Finset (ℤ × ℤ)} {i j : ℤ}
    (hq : q i j = false) : (f.paint k dt q D).Ca.val i j = f.Ca.val i j ∧ (f.paint k dt q D).Cb.val i j = f.Cb.val i j ∧
      (f.paint k dt q D).Da.val i j = f.Da.val i j ∧ (f.paint k dt q D).Db.val i j = f.Db.val i j := by
  refine ⟨?_, ?_, ?_, ?_⟩ <;> simp [Flds.paint, hq]

theorem HasMedium.paint_miss {f : Flds K} {k k' : MatKind K} {dt : K} {q : ℤ → ℤ → Bool} {D : Finset (ℤ × ℤ)} {i j : ℤ}
    (hq : q i j = false) (h : HasMedium f k' dt i j) : HasMedium (f.paint k dt q D) k' dt i j := by
  obtain ⟨h1, h2, h3, h4⟩ := Flds.paint_miss (f := f) (k := k) (dt := dt) (D := D) hq
  exact ⟨h1.trans h.Ca, h2.trans h.Cb, h3.trans h.Da, h4.trans h.Db⟩

/-- Fields after painting the objects one after the other. -/
def paintAll (g : Grid K) : List (Object K) → Flds K → Flds K
  | [], f => f
  | o :: l, f => paintAll g l (f.paint o.mat.kind g.dt (fun x y => o.inside (g.toReal ⟨x, y⟩)) (scan g o))

theorem paintAll_append (g : Grid K) : ∀ (l l' : List (Object K)) (f : Flds K),
    paintAll g (l ++ l') f = paintAll g l' (paintAll g l f)
  | [], _, _ => rfl
  | o :: l, l', f => paintAll_append g l l' _

theorem paintAll_miss (g : Grid K) {i j : ℤ} : ∀ (l : List (Object K)) (f : Flds K),
    (∀ o ∈ l, o.inside (g.toReal ⟨i, j⟩) = false) →
    (paintAll g l f).Ca.val i j = f.Ca.val i j ∧ (paintAll g l f).Cb.val i j = f.Cb.val i j ∧
      (paintAll g l f).Da.val i j = f.Da.val i j ∧ (paintAll g l f).Db.val i j = f.Db.val i j
  | [], _, _ => ⟨rfl, rfl, rfl, rfl⟩
  | o :: l, f, h => by
    obtain ⟨a1, a2, a3, a4⟩ := paintAll_miss g l
      (f.paint o.mat.kind g.dt (fun x y => o.inside (g.toReal ⟨x, y⟩)) (scan g o)) (fun o' ho => h o' (by simp [ho]))
    obtain ⟨b1, b2, b3, b4⟩ := Flds.paint_miss (f := f) (k := o.mat.kind) (dt := g.dt)
      (q := fun x y => o.inside (g.toReal ⟨x, y⟩)) (D := scan g o) (i := i) (j := j) (h o (by simp))
    exact ⟨a1.trans b1, a2.trans b2, a3.trans b3, a4.trans b4⟩

/-- The topmost object determines the medium. -/
theorem paintAll_top {g : Grid K} {i j : ℤ} {objs : List (Object K)} {f : Flds K} {o : Object K}
    (h1 : 0 ≤ i) (h2 : i < g.Nx) (h3 : 0 ≤ j) (h4 : j < g.Ny) (hc : ∀ o ∈ objs, o.Covered g)
    (ht : TopAt objs (g.toReal ⟨i, j⟩) o) : HasMedium (paintAll g objs f) o.mat.kind g.dt i j := by
  obtain ⟨l1, l2, rfl, hi, hl⟩ := ht
  rw [paintAll_append]
  obtain ⟨a1, a2, a3, a4⟩ := paintAll_miss g (i := i) (j := j) l2
    ((paintAll g l1 f).paint o.mat.kind g.dt (fun x y => o.inside (g.toReal ⟨x, y⟩)) (scan g o)) hl
  have hp := Flds.paint_hit (f := paintAll g l1 f) (k := o.mat.kind) (dt := g.dt) (D := scan g o)
    (q := fun x y => o.inside (g.toReal ⟨x, y⟩)) (hc o (by simp) i j h1 h2 h3 h4 hi) hi
  exact ⟨a1.trans hp.Ca, a2.trans hp.Cb, a3.trans hp.Da, a4.trans hp.Db⟩

theorem insertObject_f {c c' : Core K} {o : Object K} (hc : c.f.Dims c.g.Nx c.g.Ny) (ho : o.Safe c.g)
    (h : c.insertObject o = .ok c') :
    c'.f = c.f.paint o.mat.kind c.g.dt (fun x y => o.inside (c.g.toReal ⟨x, y⟩)) (scan c.g o) ∧ c'.g = c.g := by
  unfold Core.insertObject at h
  rw [paintObject_closed hc ho] at h
  simp only [Except.ok_bind] at h
  cases hk : o.mat.kind with
  | simple m => rw [hk] at h; cases h; exact ⟨rfl, rfl⟩
  | debye m =>
    rw [hk] at h; simp only [Except.bind_ok] at h
    obtain ⟨l, -, h⟩ := h; cases h; exact ⟨rfl, rfl⟩
  | drude m =>
    rw [hk] at h; simp only [Except.bind_ok] at h
    obtain ⟨l, -, h⟩ := h; cases h; exact ⟨rfl, rfl⟩
  | lorentz m =>
    rw [hk] at h; simp only [Except.bind_ok] at h
    obtain ⟨l, -, h⟩ := h; cases h; exact ⟨rfl, rfl⟩

theorem updatePolGrid_f {c c' : Core K} {o : Object K} (h : c.updatePolGrid o = .ok c') : c'.f = c.f ∧ c'.g = c.g := by
  unfold Core.updatePolGrid at h
  cases hk : o.mat.kind with
  | simple m => rw [hk] at h; cases h; exact ⟨rfl, rfl⟩
  | debye m =>
    rw [hk] at h; simp only [Except.bind_ok] at h
    obtain ⟨l, -, h⟩ := h; cases h; exact ⟨rfl, rfl⟩
  | drude m =>
    rw [hk] at h; simp only [Except.bind_ok] at h
    obtain ⟨l, -, h⟩ := h; cases h; exact ⟨rfl, rfl⟩
  | lorentz m =>
    rw [hk] at h; simp only [Except.bind_ok] at h
    obtain ⟨l, -, h⟩ := h; cases h; exact ⟨rfl, rfl⟩

/-- One object of `update_material_grid`. -/
def Core.refreshOne (o : Object K) (c : Core K) : M (Core K) := do
  let f ← paintObject c.g o c.f
  ({ c with f := f }).updatePolGrid o

theorem refreshAll_f : ∀ (objs : List (Object K)) {c c' : Core K}, c.f.Dims c.g.Nx c.g.Ny → (∀ o ∈ objs, o.Safe c.g) →
    forList objs c Core.refreshOne = .ok c' → c'.f = paintAll c.g objs c.f ∧ c'.g = c.g
  | [], c, c', _, _, h => by cases h; exact ⟨rfl, rfl⟩
  | o :: l, c, c', hf, hs, h => by
    rw [forList_cons] at h; simp only [Except.bind_ok] at h
    obtain ⟨c1, h1, h2⟩ := h
    unfold Core.refreshOne at h1
    rw [paintObject_closed hf (hs o (by simp))] at h1
    simp only [Except.ok_bind] at h1
    obtain ⟨e1, e2⟩ := updatePolGrid_f h1
    simp only at e1 e2
    obtain ⟨e3, e4⟩ := refreshAll_f l (by rw [e1, e2]; exact Flds.paint_dims hf _ _ _ _)
      (by rw [e2]; exact fun o' ho => hs o' (by simp [ho])) h2
    refine ⟨?_, by rw [e4, e2]⟩
    rw [e3, e1, e2]
    rfl

theorem insertAll_f : ∀ (objs : List (Object K)) {c c' : Core K}, c.f.Dims c.g.Nx c.g.Ny → (∀ o ∈ objs, o.Safe c.g) →
    forList objs c (fun o c => c.insertObject o) = .ok c' → c'.f = paintAll c.g objs c.f ∧ c'.g = c.g
  | [], c, c', _, _, h => by cases h; exact ⟨rfl, rfl⟩
  | o :: l, c, c', hf, hs, h => by
    rw [forList_cons] at h; simp only [Except.bind_ok] at h
    obtain ⟨c1, h1, h2⟩ := h
    obtain ⟨e1, e2⟩ := insertObject_f hf (hs o (by simp)) h1
    obtain ⟨e3, e4⟩ := insertAll_f l (by rw [e1, e2]; exact Flds.paint_dims hf _ _ _ _)
      (by rw [e2]; exact fun o' ho => hs o' (by simp [ho])) h2
    refine ⟨?_, by rw [e4, e2]⟩
    rw [e3, e1, e2]
    rfl

theorem insertAll_ok : ∀ (objs : List (Object K)) {c : Core K}, c.WF → (∀ o ∈ objs, o.Safe c.g) →
    ∃ c', forList objs c (fun o c => c.insertObject o) = .ok c' ∧ c'.WF ∧ c'.g = c.g
  | [], c, hc, _ => ⟨c, rfl, hc, rfl⟩
  | o :: l, c, hc, hs => by
    obtain ⟨c1, h1, w1, g1, -⟩ := Core.insertObject_ok hc (hs o (by simp))
    obtain ⟨c2, h2, w2, g2⟩ := insertAll_ok l w1 (by rw [g1]; exact fun o' ho => hs o' (by simp [ho]))
    refine ⟨c2, ?_, w2, by rw [g2, g1]⟩
    rw [forList_cons, h1]; simp only [Except.ok_bind]
    exact h2

end

theorem Core.make_no_pol {K : Type} [Scalar K] {g : Grid K} {c : Core K} (h : Core.make g = .ok c) :
    c.debye = [] ∧ c.drude = [] ∧ c.lorentz = [] := by
  unfold Core.make at h
  simp only [Except.bind_ok] at h
  obtain ⟨_, -, _, -, _, -, h⟩ := h
  cases h
  exact ⟨rfl, rfl, rfl⟩

/-! ## Exact arithmetic -/

theorem toGrid_of_mem {g : Grid ℝ} (hg : Lawful g) {i : ℤ} {u : ℝ} :
    (u ≤ g.dx * (i : ℝ) → roundAway (u / g.dx) ≤ i) ∧ (g.dx * (i : ℝ) ≤ u → i ≤ roundAway (u / g.dx)) := by
  have hd := hg.dx
  constructor
  · intro h
    have : u / g.dx ≤ (i : ℝ) := by rw [div_le_iff₀ hd]; linarith
    have := roundAway_mono this
    rwa [roundAway_int] at this
  · intro h
    have : (i : ℝ) ≤ u / g.dx := by rw [le_div_iff₀ hd]; linarith
    have := roundAway_mono this
    rwa [roundAway_int] at this

theorem covered_of_sound {g : Grid ℝ} (hg : Lawful g) {o : Object ℝ} (ho : BoxSound o) : o.Covered g := by
  intro i j h1 h2 h3 h4 hi
  have key : ∀ b : Vol ℝ, (b.a.x ≤ g.dx * (i : ℝ) ∧ g.dx * (i : ℝ) ≤ b.b.x ∧ b.a.y ≤ g.dx * (j : ℝ) ∧ g.dx * (j : ℝ) ≤ b.b.y) →
      o.bbox.getD g.domain = b → (i, j) ∈ scan g o := by
    rintro b ⟨b1, b2, b3, b4⟩ hb
    have c1 := (toGrid_of_mem hg (i := i)).1 b1
    have c2 := (toGrid_of_mem hg (i := i)).2 b2
    have c3 := (toGrid_of_mem hg (i := j)).1 b3
    have c4 := (toGrid_of_mem hg (i := j)).2 b4
    unfold scan objBox
    rw [hb]
    simp only [mem_rect, Grid.clipI, Grid.toGridV, Grid.toGrid, IVol.make, roundI_real]
    split_ifs <;> omega
  cases hb : o.bbox with
  | some b => exact key b (by simpa [Grid.toReal] using ho _ b hi hb) (by simp [hb])
  | none =>
    refine key g.domain ?_ (by simp [hb])
    have hd := hg.dx
    have i0 : (0 : ℝ) ≤ (i : ℝ) := by exact_mod_cast h1
    have j0 : (0 : ℝ) ≤ (j : ℝ) := by exact_mod_cast h3
    have i1 : (i : ℝ) ≤ ((g.Nx - 1 : ℤ) : ℝ) := by exact_mod_cast (by omega : i ≤ g.Nx - 1)
    have j1 : (j : ℝ) ≤ ((g.Ny - 1 : ℤ) : ℝ) := by exact_mod_cast (by omega : j ≤ g.Ny - 1)
    simp only [Grid.domain, Vol.make, hg.Lx, hg.Ly]
    refine ⟨by positivity, mul_le_mul_of_nonneg_left i1 hd.le, by positivity, mul_le_mul_of_nonneg_left j1 hd.le⟩

theorem safe_of_clear {g : Grid ℝ} (hg : Lawful g) {o : Object ℝ} (ho : ClearOfUnguardedEdges g o) : o.Safe g := by
  intro i j h1 h2 h3 h4 hi
  have hd := hg.dx
  obtain ⟨p1, p2⟩ := ho _ hi
  simp only [Grid.toReal, ofInt_real, hg.Lx] at p1 p2
  have i1 : (i : ℝ) ≤ ((g.Nx - 1 : ℤ) : ℝ) := le_of_mul_le_mul_left p1 hd
  have j0 : (0 : ℝ) ≤ (j : ℝ) := nonneg_of_mul_nonneg_right p2 hd
  have i1' : i ≤ g.Nx - 1 := by exact_mod_cast i1
  have j0' : 0 ≤ j := by exact_mod_cast j0
  simp only [objBox, Grid.clipI, IVol.make] at h1 h4
  split_ifs at h1 h4 <;> omega

end Qbox
