import Verif.Lemmas.Bare

/-!
# Which nodes the absorbing layer writes, in any arithmetic
-/

namespace Qbox
open Scalar Spec

section
variable {K : Type} [Scalar K]

theorem forRange_ok_rel {σ : Type} (R : σ → σ → Prop) (rf : ∀ s, R s s) (tr : ∀ a b c, R a b → R b c → R a c) (lo hi : ℤ)
    (body : ℤ → σ → M σ) (h : ∀ i, lo ≤ i → i < hi → ∀ s s', body i s = .ok s' → R s s') :
    ∀ s s', forRange lo hi s body = .ok s' → R s s' := by
  intro s s' he
  rw [forRange_eq_forList] at he
  have : ∀ (l : List ℤ), (∀ i ∈ l, lo ≤ i ∧ i < hi) → ∀ s s', forList l s body = .ok s' → R s s' := by
    intro l
    induction l with
    | nil => intro _ s s' h; cases h; exact rf s
    | cons a l ih =>
      intro hl s s' h2
      rw [forList_cons] at h2
      simp only [Except.bind_ok] at h2
      obtain ⟨s1, h3, h4⟩ := h2
      have ha := hl a (by simp)
      exact tr _ _ _ (h a ha.1 ha.2 _ _ h3) (ih (fun i hi => hl i (by simp [hi])) _ _ h4)
  exact this _ (fun i hi => mem_intRange.mp hi) s s' he

theorem Tensor.wr_other {a b : Tensor K} {i j : ℤ} {v : K} (h : a.wr i j v = .ok b) {x y : ℤ} (hn : ¬ (x = i ∧ y = j)) :
    b.val x y = a.val x y := by
  by_cases hi : a.In i j
  · obtain ⟨h1, h2, h3, h4⟩ := hi
    rw [Tensor.wr_in h1 h2 h3 h4] at h
    cases h
    simp [Tensor.setv, hn]
  · rw [Tensor.wr_out hi] at h; cases h

/-- Two writes leave every other node alone. -/
theorem two_writes {S : ℤ → ℤ → Prop} {a b d : Tensor K} {i j i' j' : ℤ} {v v' : K} (h : a.wr i j v = .ok b) (h' : b.wr i' j' v' = .ok d)
    (hs : ∀ x y, S x y → ¬ (x = i ∧ y = j) ∧ ¬ (x = i' ∧ y = j')) : AgreeOn S d a := fun x y hxy => by
  rw [Tensor.wr_other h' (hs x y hxy).2, Tensor.wr_other h (hs x y hxy).1]

theorem pmlEyBody_outside {S : ℤ → ℤ → Prop} {be ce : Arr K} {dx : K} {je : ℤ} {Hx Cb : Tensor K} {i j : ℤ} {s s' : Psi2 K}
    (h : pmlEyBody be ce dx je Hx Cb i j s = .ok s') (hs : ∀ x y, S x y → ¬ (x = i ∧ y = j) ∧ ¬ (x = i ∧ y = je - j)) :
    AgreeOn S s'.F s.F := by
  unfold pmlEyBody at h
  simp only [Except.bind_ok, Except.pure_eq] at h
  obtain ⟨_, -, _, -, _, -, _, -, _, -, _, -, _, -, _, -, _, -, _, -, _, -, _, -, _, -, _, -, _, -, F1, h1, _, -, _, -, _, -, F2, h2, he⟩ := h
  cases he
  exact two_writes h1 h2 hs

theorem pmlExBody_outside {S : ℤ → ℤ → Prop} {be ce : Arr K} {dx : K} {ie : ℤ} {Hy Cb : Tensor K} {i j : ℤ} {s s' : Psi2 K}
    (h : pmlExBody be ce dx ie Hy Cb i j s = .ok s') (hs : ∀ x y, S x y → ¬ (x = i ∧ y = j) ∧ ¬ (x = ie - i ∧ y = j)) :
    AgreeOn S s'.F s.F := by
  unfold pmlExBody at h
  simp only [Except.bind_ok, Except.pure_eq] at h
  obtain ⟨_, -, _, -, _, -, _, -, _, -, _, -, _, -, _, -, _, -, _, -, _, -, _, -, _, -, _, -, _, -, F1, h1, _, -, _, -, _, -, F2, h2, he⟩ := h
  cases he
  exact two_writes h1 h2 hs

theorem pmlHyBody_outside {S : ℤ → ℤ → Prop} {be ce : Arr K} {dx : K} {je : ℤ} {Hx Cb : Tensor K} {i j : ℤ} {s s' : Psi2 K}
    (h : pmlHyBody be ce dx je Hx Cb i j s = .ok s') (hs : ∀ x y, S x y → ¬ (x = i ∧ y = j) ∧ ¬ (x = i ∧ y = je - j - 1)) :
    AgreeOn S s'.F s.F := by
  unfold pmlHyBody at h
  simp only [Except.bind_ok, Except.pure_eq] at h
  obtain ⟨_, -, _, -, _, -, _, -, _, -, _, -, _, -, _, -, _, -, _, -, _, -, _, -, _, -, _, -, _, -, F1, h1, _, -, _, -, _, -, F2, h2, he⟩ := h
  cases he
  exact two_writes h1 h2 hs

theorem pmlHxBody_outside {S : ℤ → ℤ → Prop} {be ce : Arr K} {dx : K} {ie : ℤ} {Hy Cb : Tensor K} {i j : ℤ} {s s' : Psi2 K}
    (h : pmlHxBody be ce dx ie Hy Cb i j s = .ok s') (hs : ∀ x y, S x y → ¬ (x = i ∧ y = j) ∧ ¬ (x = ie - i - 1 ∧ y = j)) :
    AgreeOn S s'.F s.F := by
  unfold pmlHxBody at h
  simp only [Except.bind_ok, Except.pure_eq] at h
  obtain ⟨_, -, _, -, _, -, _, -, _, -, _, -, _, -, _, -, _, -, _, -, _, -, _, -, _, -, _, -, _, -, F1, h1, _, -, _, -, _, -, F2, h2, he⟩ := h
  cases he
  exact two_writes h1 h2 hs

theorem AgreeOn.trans' {S : ℤ → ℤ → Prop} {a b c : Tensor K} (h1 : AgreeOn S b a) (h2 : AgreeOn S c b) : AgreeOn S c a :=
  fun x y h => (h2 x y h).trans (h1 x y h)

theorem Pml.updateE_outside {p p' : Pml K} {Hx Hy Cb Ez Ez' : Tensor K} (h : p.updateE Hx Hy Cb Ez = .ok (p', Ez')) :
    AgreeOn (fun i j => (p.par.T < i ∧ i < p.Nx - 1 - p.par.T) ∧ (p.par.T < j ∧ j < p.Ny - 1 - p.par.T)) Ez' Ez := by
  unfold Pml.updateE at h
  simp only [Except.bind_ok, Except.pure_eq] at h
  obtain ⟨s, h1, r, h2, h3⟩ := h
  obtain ⟨-, rfl⟩ := Prod.mk.inj (Except.ok.inj h3)
  refine AgreeOn.trans' (b := s.F) ?_ ?_
  · refine forRange_ok_rel (fun a b : Psi2 K => AgreeOn _ b.F a.F) (fun _ _ _ _ => rfl) (fun _ _ _ => AgreeOn.trans') _ _ _ ?_ _ _ h1
    intro i hi hi' a b hab
    refine forRange_ok_rel (fun a b : Psi2 K => AgreeOn _ b.F a.F) (fun _ _ _ _ => rfl) (fun _ _ _ => AgreeOn.trans') _ _ _ ?_ _ _ hab
    intro j hj hj' a b hab
    exact pmlEyBody_outside hab (by intro x y hs; constructor <;> omega)
  · refine forRange_ok_rel (fun a b : Psi2 K => AgreeOn _ b.F a.F) (fun _ _ _ _ => rfl) (fun _ _ _ => AgreeOn.trans') _ _ _ ?_ ⟨p.psi.Ezx1, p.psi.Ezx2, s.F⟩ _ h2
    intro i hi hi' a b hab
    refine forRange_ok_rel (fun a b : Psi2 K => AgreeOn _ b.F a.F) (fun _ _ _ _ => rfl) (fun _ _ _ => AgreeOn.trans') _ _ _ ?_ _ _ hab
    intro j hj hj' a b hab
    exact pmlExBody_outside hab (by intro x y hs; constructor <;> omega)

theorem Pml.updateH_outside {p p' : Pml K} {Ez Db Hx Hy X Y : Tensor K} (h : p.updateH Ez Db Hx Hy = .ok (p', X, Y)) :
    AgreeOn (fun _ j => p.par.T ≤ j ∧ j < p.Ny - 1 - p.par.T) X Hx ∧ AgreeOn (fun i _ => p.par.T ≤ i ∧ i < p.Nx - 1 - p.par.T) Y Hy := by
  unfold Pml.updateH at h
  simp only [Except.bind_ok, Except.pure_eq] at h
  obtain ⟨s, h1, r, h2, h3⟩ := h
  obtain ⟨-, h4⟩ := Prod.mk.inj (Except.ok.inj h3)
  obtain ⟨rfl, rfl⟩ := Prod.mk.inj h4
  constructor
  · refine forRange_ok_rel (fun a b : Psi2 K => AgreeOn _ b.F a.F) (fun _ _ _ _ => rfl) (fun _ _ _ => AgreeOn.trans') _ _ _ ?_ _ _ h1
    intro i hi hi' a b hab
    refine forRange_ok_rel (fun a b : Psi2 K => AgreeOn _ b.F a.F) (fun _ _ _ _ => rfl) (fun _ _ _ => AgreeOn.trans') _ _ _ ?_ _ _ hab
    intro j hj hj' a b hab
    exact pmlHyBody_outside hab (by intro x y hs; constructor <;> omega)
  · refine forRange_ok_rel (fun a b : Psi2 K => AgreeOn _ b.F a.F) (fun _ _ _ _ => rfl) (fun _ _ _ => AgreeOn.trans') _ _ _ ?_ _ _ h2
    intro i hi hi' a b hab
    refine forRange_ok_rel (fun a b : Psi2 K => AgreeOn _ b.F a.F) (fun _ _ _ _ => rfl) (fun _ _ _ => AgreeOn.trans') _ _ _ ?_ _ _ hab
    intro j hj hj' a b hab
    exact pmlHxBody_outside hab (by intro x y hs; constructor <;> omega)

end

end Qbox
