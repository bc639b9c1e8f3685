import Verif.Lemmas.WF

/-!
# What sources do to the fields
-/

namespace Qbox
open Scalar

set_option linter.unusedSectionVars false

variable {K : Type} [Scalar K]

/-- `C` names one stored component. -/
def Fields.IsComp (C : Fields) : Prop := C = .Ez ∨ C = .Hx ∨ C = .Hy

instance (C : Fields) : Decidable C.IsComp := by unfold Fields.IsComp; infer_instance

/-- The tensor of a component (meaningful for `IsComp`). -/
def Flds.comp (f : Flds K) : Fields → Tensor K
  | .Hx => f.Hx
  | .Hy => f.Hy
  | _ => f.Ez

/-- Replace the tensor of a component. -/
def Flds.setComp (f : Flds K) (C : Fields) (a : Tensor K) : Flds K :=
  match C with
  | .Hx => { f with Hx := a }
  | .Hy => { f with Hy := a }
  | _ => { f with Ez := a }

theorem Flds.Dims.comp {f : Flds K} {Nx Ny : ℤ} (h : f.Dims Nx Ny) (C : Fields) : (f.comp C).Dim Nx Ny := by
  cases C <;> simp only [Flds.comp] <;> first | exact h.Ez | exact h.Hx | exact h.Hy

theorem Flds.Dims.setComp {f : Flds K} {Nx Ny : ℤ} (h : f.Dims Nx Ny) (C : Fields) {a : Tensor K} (ha : a.Dim Nx Ny) :
    (f.setComp C a).Dims Nx Ny := by
  cases C <;> simp only [Flds.setComp] <;>
    first | exact { h with Ez := ha } | exact { h with Hx := ha } | exact { h with Hy := ha }

theorem Flds.comp_setComp {f : Flds K} {C C' : Fields} (h : C.IsComp) (h' : C'.IsComp) (a : Tensor K) :
    (f.setComp C a).comp C' = if C' = C then a else f.comp C' := by
  rcases h with rfl | rfl | rfl <;> rcases h' with rfl | rfl | rfl <;> simp [Flds.setComp, Flds.comp]

theorem Flds.setComp_self {f : Flds K} {C : Fields} : f.setComp C (f.comp C) = f := by
  cases C <;> rfl

theorem Flds.setComp_setComp {f : Flds K} {C : Fields} (a b : Tensor K) :
    (f.setComp C a).setComp C b = f.setComp C b := by
  cases C <;> rfl

/-- `a` with `v` added at one node. -/
def Tensor.plusAt (a : Tensor K) (i j : ℤ) (v : K) : Tensor K :=
  a.setv fun x y => if x = i ∧ y = j then a.val i j + v else a.val x y

theorem Flds.addAt_in {f : Flds K} {Nx Ny : ℤ} (h : f.Dims Nx Ny) {C : Fields} (hC : C.IsComp) {i j : ℤ} {v : K}
    (h1 : 0 ≤ i) (h2 : i < Nx) (h3 : 0 ≤ j) (h4 : j < Ny) :
    f.addAt C i j v = .ok (f.setComp C ((f.comp C).plusAt i j v)) := by
  obtain ⟨⟨e1, e1'⟩, ⟨e2, e2'⟩, ⟨e3, e3'⟩, -⟩ := h
  rcases hC with rfl | rfl | rfl <;> unfold Flds.addAt Flds.setComp Flds.comp Tensor.plusAt <;>
  simp (disch := omega) only [Tensor.rd_in, Tensor.wr_in, Except.ok_bind, Except.pure_eq]

/-- `a` with `v` added at the nodes `p, p+d, …` (`n` of them). -/
def Tensor.plusLine (a : Tensor K) (d : V2 ℤ) (v : K) : ℕ → V2 ℤ → Tensor K
  | 0, _ => a
  | n + 1, p => (a.plusAt p.x p.y v).plusLine d v n (p + d)

theorem Tensor.plusLine_dim (d : V2 ℤ) (v : K) (n : ℕ) : ∀ (a : Tensor K) (p : V2 ℤ),
    (a.plusLine d v n p).nx = a.nx ∧ (a.plusLine d v n p).ny = a.ny := by
  induction n with
  | zero => intro a p; exact ⟨rfl, rfl⟩
  | succ n ih => intro a p; exact ih _ _

/-- The loop of a line source visits `n` nodes and stops. -/
theorem lineLoop_closed {Nx Ny : ℤ} {C : Fields} (hC : C.IsComp) (d : V2 ℤ) (hd : d.x ≠ 0 ∨ d.y ≠ 0) (v : K) (n : ℕ) :
    ∀ (a : V2 ℤ) (f : Flds K), f.Dims Nx Ny →
      (∀ k : ℕ, k < n → 0 ≤ a.x + k * d.x ∧ a.x + k * d.x < Nx ∧ 0 ≤ a.y + k * d.y ∧ a.y + k * d.y < Ny) →
      lineLoop C ⟨a.x + n * d.x, a.y + n * d.y⟩ d v (n + 1) a f = .ok (f.setComp C ((f.comp C).plusLine d v n a)) := by
  induction n with
  | zero =>
    intro a f hf hin
    have : a = (⟨a.x + ((0 : ℕ) : ℤ) * d.x, a.y + ((0 : ℕ) : ℤ) * d.y⟩ : V2 ℤ) := by ext <;> simp
    unfold lineLoop
    rw [if_pos this]
    simp only [Tensor.plusLine, Flds.setComp_self]
  | succ n ih =>
    intro a f hf hin
    have hne : a ≠ (⟨a.x + ((n + 1 : ℕ) : ℤ) * d.x, a.y + ((n + 1 : ℕ) : ℤ) * d.y⟩ : V2 ℤ) := by
      intro h
      have hx := congrArg V2.x h
      have hy := congrArg V2.y h
      simp only at hx hy
      have hx' : ((n + 1 : ℕ) : ℤ) * d.x = 0 := by omega
      have hy' : ((n + 1 : ℕ) : ℤ) * d.y = 0 := by omega
      have hn : ((n + 1 : ℕ) : ℤ) ≠ 0 := by omega
      rcases hd with hd | hd
      · exact (mul_ne_zero hn hd) hx'
      · exact (mul_ne_zero hn hd) hy'
    unfold lineLoop
    rw [if_neg hne]
    obtain ⟨b1, b2, b3, b4⟩ := hin 0 (by omega)
    simp only [Nat.cast_zero, zero_mul, add_zero] at b1 b2 b3 b4
    rw [Flds.addAt_in hf hC b1 b2 b3 b4]
    simp only [Except.ok_bind]
    have hf' : (f.setComp C ((f.comp C).plusAt a.x a.y v)).Dims Nx Ny := hf.setComp C (hf.comp C)
    have := ih (a + d) _ hf' (by
      intro k hk
      have := hin (k + 1) (by omega)
      push_cast at this
      simp only [V2.add_x, V2.add_y]
      rw [show a.x + d.x + (k : ℤ) * d.x = a.x + ((k : ℤ) + 1) * d.x by ring,
        show a.y + d.y + (k : ℤ) * d.y = a.y + ((k : ℤ) + 1) * d.y by ring]
      exact this)
    have e : (⟨a.x + ((n + 1 : ℕ) : ℤ) * d.x, a.y + ((n + 1 : ℕ) : ℤ) * d.y⟩ : V2 ℤ) =
        ⟨(a + d).x + (n : ℤ) * d.x, (a + d).y + (n : ℤ) * d.y⟩ := by
      ext <;> simp only [V2.add_x, V2.add_y] <;> push_cast <;> ring
    rw [e, this]
    congr 1
    rw [Flds.setComp_setComp, Flds.comp_setComp hC hC, if_pos rfl]
    rfl

/-- Value after adding along a line whose nodes are distinct: each node gets `v` exactly once. -/
theorem Tensor.plusLine_val (d : V2 ℤ) (hd : d.x ≠ 0 ∨ d.y ≠ 0) (v : K) (n : ℕ) : ∀ (a : Tensor K) (p : V2 ℤ) (x y : ℤ),
    ((∃ k : ℕ, k < n ∧ x = p.x + k * d.x ∧ y = p.y + k * d.y) → (a.plusLine d v n p).val x y = a.val x y + v) ∧
    ((¬ ∃ k : ℕ, k < n ∧ x = p.x + k * d.x ∧ y = p.y + k * d.y) → (a.plusLine d v n p).val x y = a.val x y) := by
  induction n with
  | zero => intro a p x y; exact ⟨fun ⟨k, hk, _⟩ => absurd hk (by omega), fun _ => rfl⟩
  | succ n ih =>
    intro a p x y
    obtain ⟨i1, i2⟩ := ih (a.plusAt p.x p.y v) (p + d) x y
    simp only [Tensor.plusLine]
    have key : ∀ k : ℕ, (x = p.x + ((k + 1 : ℕ) : ℤ) * d.x ∧ y = p.y + ((k + 1 : ℕ) : ℤ) * d.y) ↔
        (x = (p + d).x + (k : ℤ) * d.x ∧ y = (p + d).y + (k : ℤ) * d.y) := by
      intro k
      simp only [V2.add_x, V2.add_y]
      push_cast
      rw [show p.x + d.x + (k : ℤ) * d.x = p.x + ((k : ℤ) + 1) * d.x by ring,
        show p.y + d.y + (k : ℤ) * d.y = p.y + ((k : ℤ) + 1) * d.y by ring]
    by_cases h0 : x = p.x ∧ y = p.y
    · have hno : ¬ ∃ k : ℕ, k < n ∧ x = (p + d).x + k * d.x ∧ y = (p + d).y + k * d.y := by
        rintro ⟨k, -, hk⟩
        obtain ⟨kx, ky⟩ := (key k).mpr hk
        have hn : ((k + 1 : ℕ) : ℤ) ≠ 0 := by omega
        rcases hd with hd | hd
        · exact (mul_ne_zero hn hd) (by omega)
        · exact (mul_ne_zero hn hd) (by omega)
      rw [i2 hno]
      constructor
      · intro _; simp [Tensor.plusAt, h0]
      · intro h
        exact absurd ⟨0, by omega, by simp [h0.1], by simp [h0.2]⟩ h
    · have hval : (a.plusAt p.x p.y v).val x y = a.val x y := by simp [Tensor.plusAt, h0]
      have hiff : (∃ k : ℕ, k < n + 1 ∧ x = p.x + k * d.x ∧ y = p.y + k * d.y) ↔
          ∃ k : ℕ, k < n ∧ x = (p + d).x + k * d.x ∧ y = (p + d).y + k * d.y := by
        constructor
        · rintro ⟨k, hk, hk'⟩
          cases k with
          | zero => exact absurd (by simpa using hk') h0
          | succ k => exact ⟨k, by omega, (key k).mp hk'⟩
        · rintro ⟨k, hk, hk'⟩
          exact ⟨k + 1, by omega, (key k).mpr hk'⟩
      rw [hiff, ← hval]
      exact ⟨i1, i2⟩

end Qbox
