import Verif.Lemmas.StepReal
import Verif.Spec.MediumSpec
import Mathlib.Algebra.BigOperators.Group.Finset.Basic
import Mathlib.Algebra.BigOperators.Group.List.Basic
import Mathlib.Algebra.BigOperators.Intervals

/-!
# One step seen from one node
-/

namespace Qbox
open Scalar Spec Props

set_option linter.unusedSectionVars false
set_option linter.unusedSimpArgs false

theorem sumL_real (l : List ℝ) : sumL l = l.sum := by
  have : ∀ (l : List ℝ) (a : ℝ), l.foldl (· + ·) a = a + l.sum := by
    intro l
    induction l with
    | nil => intro a; simp
    | cons b l ih => intro a; rw [List.foldl_cons, ih, List.sum_cons]; ring
  rw [sumL, this, zero_add]

theorem ofList_val (l : List ℝ) (N : ℕ) (h : N < l.length) : (Arr.ofList l).val N = l[N] := by
  simp only [Arr.ofList, Int.toNat_natCast]
  simp [List.getD, List.getElem?_eq_getElem h]

theorem sum_map_range {α : Type} (l : List α) (F : α → ℝ) (G : ℕ → ℝ) (h : ∀ (N : ℕ) (hN : N < l.length), G N = F l[N]) :
    (l.map F).sum = ∑ N ∈ Finset.range l.length, G N := by
  induction l generalizing G with
  | nil => simp
  | cons a l ih =>
    rw [List.map_cons, List.sum_cons, List.length_cons, Finset.sum_range_succ',
      ih (fun N => G (N + 1)) (fun N hN => h (N + 1) (by simpa using hN)), h 0 (by simp)]
    simp [add_comm]

/-! ## cells -/

theorem debye_cell_E (dt Cb : ℝ) (kap bet : ℤ → ℝ) (pE E : ℝ) (J : ℤ → ℝ) (n : ℕ) :
    (cellIter (debyeStep dt Cb kap bet pE) n (E, J)).1
      = E - Cb / 2 * ∑ M ∈ Finset.range n, (1 + kap M) * J M := by
  induction n with
  | zero => simp [cellIter]
  | succ n ih =>
    rw [cellIter_succ]
    simp only [debyeStep, half_real]
    rw [cellIter_ge _ _ _ _ (le_refl _), ih, Finset.sum_range_succ]
    ring

theorem debye_cell_J (dt Cb : ℝ) (kap bet : ℤ → ℝ) (pE E : ℝ) (J : ℤ → ℝ) (n N : ℕ) (h : N < n) :
    (cellIter (debyeStep dt Cb kap bet pE) n (E, J)).2 N
      = kap N * J N + bet N / dt * ((E - Cb / 2 * ∑ M ∈ Finset.range (N + 1), (1 + kap M) * J M) - pE) := by
  induction n with
  | zero => omega
  | succ n ih =>
    rw [cellIter_succ]
    by_cases hN : N = n
    · subst hN
      have e := debye_cell_E dt Cb kap bet pE E J (N + 1)
      rw [cellIter_succ] at e
      simp only [debyeStep] at e
      simp only [if_true, debyeStep]
      rw [e, cellIter_ge _ _ _ _ (le_refl _)]
    · have : (N : ℤ) ≠ (n : ℤ) := by exact_mod_cast hN
      simp only [this, if_false]
      exact ih (by omega)

theorem drude_cell_E (Cb : ℝ) (kap bet : ℤ → ℝ) (pE E : ℝ) (J : ℤ → ℝ) (n : ℕ) :
    (cellIter (drudeStep Cb kap bet pE) n (E, J)).1
      = E - Cb / 2 * ∑ M ∈ Finset.range n, (1 + kap M) * J M := by
  induction n with
  | zero => simp [cellIter]
  | succ n ih =>
    rw [cellIter_succ]
    simp only [drudeStep, half_real]
    rw [cellIter_ge _ _ _ _ (le_refl _), ih, Finset.sum_range_succ]
    ring

theorem drude_cell_J (Cb : ℝ) (kap bet : ℤ → ℝ) (pE E : ℝ) (J : ℤ → ℝ) (n N : ℕ) (h : N < n) :
    (cellIter (drudeStep Cb kap bet pE) n (E, J)).2 N
      = kap N * J N + bet N * ((E - Cb / 2 * ∑ M ∈ Finset.range (N + 1), (1 + kap M) * J M) + pE) := by
  induction n with
  | zero => omega
  | succ n ih =>
    rw [cellIter_succ]
    by_cases hN : N = n
    · subst hN
      have e := drude_cell_E Cb kap bet pE E J (N + 1)
      rw [cellIter_succ] at e
      simp only [drudeStep] at e
      simp only [if_true, drudeStep]
      rw [e, cellIter_ge _ _ _ _ (le_refl _)]
    · have : (N : ℤ) ≠ (n : ℤ) := by exact_mod_cast hN
      simp only [this, if_false]
      exact ih (by omega)

theorem lorentz_cell_E (dt Cb CaP : ℝ) (alp bet del : ℤ → ℝ) (pE E : ℝ) (J : ℤ → ℝ × ℝ) (n : ℕ) :
    (cellIter (lorentzStep dt Cb CaP alp bet del pE) n (E, J)).1
      = E + n * (CaP * pE) - Cb / 2 * ∑ M ∈ Finset.range n, ((1 + alp M) * (J M).1 + bet M * (J M).2) := by
  induction n with
  | zero => simp [cellIter]
  | succ n ih =>
    rw [cellIter_succ]
    simp only [lorentzStep, half_real]
    rw [cellIter_ge _ _ _ _ (le_refl _), ih, Finset.sum_range_succ]
    push_cast
    ring

theorem lorentz_cell_J (dt Cb CaP : ℝ) (alp bet del : ℤ → ℝ) (pE E : ℝ) (J : ℤ → ℝ × ℝ) (n N : ℕ) (h : N < n) :
    (cellIter (lorentzStep dt Cb CaP alp bet del pE) n (E, J)).2 N
      = (alp N * (J N).1 + bet N * (J N).2 + del N / (2 * dt) * ((E + ((N + 1 : ℕ) : ℝ) * (CaP * pE) - Cb / 2 *
          ∑ M ∈ Finset.range (N + 1), ((1 + alp M) * (J M).1 + bet M * (J M).2)) - pE), (J N).1) := by
  induction n with
  | zero => omega
  | succ n ih =>
    rw [cellIter_succ]
    by_cases hN : N = n
    · subst hN
      have e := lorentz_cell_E dt Cb CaP alp bet del pE E J (N + 1)
      rw [cellIter_succ] at e
      simp only [lorentzStep] at e
      simp only [if_true, lorentzStep, ofInt_real, Int.cast_ofNat]
      rw [e, cellIter_ge _ _ _ _ (le_refl _)]
    · have : (N : ℤ) ≠ (n : ℤ) := by exact_mod_cast hN
      simp only [this, if_false]
      exact ih (by omega)

/-! ## maps of polarizations -/

theorem mapUpdateJ_append {α : Type} (upd : α → Tensor ℝ → M (α × Tensor ℝ)) (l1 l2 : List (String × α)) (E : Tensor ℝ) :
    mapUpdateJ upd (l1 ++ l2) E = (do
      let (a, E1) ← mapUpdateJ upd l1 E
      let (b, E2) ← mapUpdateJ upd l2 E1
      pure (a ++ b, E2)) := by
  induction l1 generalizing E with
  | nil =>
    simp only [List.nil_append, mapUpdateJ, Except.ok_bind]
    cases mapUpdateJ upd l2 E <;> rfl
  | cons p l ih =>
    obtain ⟨n, P⟩ := p
    simp only [List.cons_append, mapUpdateJ]
    cases h : upd P E with
    | error e => rfl
    | ok r =>
      simp only [Except.ok_bind, ih]
      cases h2 : mapUpdateJ upd l r.2 with
      | error e => rfl
      | ok r2 =>
        simp only [Except.ok_bind]
        cases h3 : mapUpdateJ upd l2 r2.2 with
        | error e => simp only [Except.pure_eq, Except.ok_bind, h3]; rfl
        | ok r3 => simp only [Except.pure_eq, Except.ok_bind, h3]; rfl

/-- A property of the entries under which the node's field value does not change is kept. -/
theorem mapUpdateJ_node {α : Type} (upd : α → Tensor ℝ → M (α × Tensor ℝ)) (Q : α → Prop) (D : Tensor ℝ → Prop) (i j : ℤ)
    (hu : ∀ P E, Q P → D E → ∀ P' E', upd P E = .ok (P', E') → Q P' ∧ D E' ∧ E'.val i j = E.val i j) :
    ∀ (l : List (String × α)) (E : Tensor ℝ), (∀ q ∈ l, Q q.2) → D E → ∀ l' E', mapUpdateJ upd l E = .ok (l', E') →
      (∀ q ∈ l', Q q.2) ∧ D E' ∧ E'.val i j = E.val i j
  | [], E, _, hE, l', E', h => by cases h; exact ⟨by simp, hE, rfl⟩
  | (n, P) :: l, E, hq, hE, l', E', h => by
    unfold mapUpdateJ at h
    simp only [Except.bind_ok, Except.pure_eq] at h
    obtain ⟨⟨P1, E1⟩, h1, ⟨l2, E2⟩, h2, h3⟩ := h
    obtain ⟨a1, a2, a3⟩ := hu P E (hq (n, P) (by simp)) hE P1 E1 h1
    obtain ⟨b1, b2, b3⟩ := mapUpdateJ_node upd Q D i j hu l E1 (fun q h => hq q (by simp [h])) a2 l2 E2 h2
    cases h3
    refine ⟨?_, b2, b3.trans a3⟩
    intro q hq'
    rcases List.mem_cons.mp hq' with rfl | hq'
    · exact a1
    · exact b1 q hq'

/-! ## single entries -/

theorem rect_in {Nx Ny i j : ℤ} (i0 : 0 ≤ i) (i1 : i < Nx) (j0 : 0 ≤ j) (j1 : j < Ny) : (i, j) ∈ rect 0 Nx 0 Ny := by
  rw [mem_rect]; exact ⟨⟨i0, i1⟩, j0, j1⟩

/-- `debye_polarization::update_J` at a node. -/
theorem DebyePol.updateJ_node {g : Grid ℝ} {P : DebyePol ℝ} (hP : P.WF g.Nx g.Ny) {pE Ez : Tensor ℝ} (hp : pE.Dim g.Nx g.Ny)
    (hE : Ez.Dim g.Nx g.Ny) : ∃ P' Ez', P.updateJ g (some pE) Ez = .ok (P', Ez') ∧ P'.WF g.Nx g.Ny ∧ Ez'.Dim g.Nx g.Ny ∧
      P'.mat = P.mat ∧ P'.np = P.np ∧ P'.beta = P.beta ∧
      ∀ i j, 0 ≤ i → i < g.Nx → 0 ≤ j → j < g.Ny →
        Ez'.val i j = Ez.val i j - P.mat.Cb g.dt / 2 * ∑ M ∈ Finset.range P.np.toNat,
          (1 + (Arr.ofList (P.mat.poles.map (·.kappa g.dt))).val M) * P.J.val i j M ∧
        ∀ N : ℕ, N < P.np.toNat → P'.J.val i j N = (Arr.ofList (P.mat.poles.map (·.kappa g.dt))).val N * P.J.val i j N
          + P.beta.val i j N / g.dt * ((Ez.val i j - P.mat.Cb g.dt / 2 * ∑ M ∈ Finset.range (N + 1),
          (1 + (Arr.ofList (P.mat.poles.map (·.kappa g.dt))).val M) * P.J.val i j M) - pE.val i j) := by
  obtain ⟨P', E', h1, h2, h3⟩ := DebyePol.updateJ_ok hP hp hE
  have hcl := DebyePol.updateJ_closed hP hp hE
  rw [h1] at hcl
  obtain ⟨rfl, rfl⟩ := Prod.mk.inj (Except.ok.inj hcl)
  refine ⟨_, _, h1, h2, h3, rfl, rfl, rfl, fun i j i0 i1 j0 j1 => ?_⟩
  have hm := rect_in i0 i1 j0 j1
  simp only [Tensor.setv_val, Tensor3.setv_val, hm, if_true]
  exact ⟨debye_cell_E _ _ _ _ _ _ _ _, fun N hN => debye_cell_J _ _ _ _ _ _ _ _ _ hN⟩

/-- `drude_polarization::update_J` at a node. -/
theorem DrudePol.updateJ_node {g : Grid ℝ} {P : DrudePol ℝ} (hP : P.WF g.Nx g.Ny) {pE Ez : Tensor ℝ} (hp : pE.Dim g.Nx g.Ny)
    (hE : Ez.Dim g.Nx g.Ny) : ∃ P' Ez', P.updateJ g (some pE) Ez = .ok (P', Ez') ∧ P'.WF g.Nx g.Ny ∧ Ez'.Dim g.Nx g.Ny ∧
      P'.mat = P.mat ∧ P'.np = P.np ∧ P'.beta = P.beta ∧
      ∀ i j, 0 ≤ i → i < g.Nx → 0 ≤ j → j < g.Ny →
        Ez'.val i j = Ez.val i j - P.mat.Cb g.dt / 2 * ∑ M ∈ Finset.range P.np.toNat,
          (1 + (Arr.ofList (P.mat.poles.map (·.kappa g.dt))).val M) * P.J.val i j M ∧
        ∀ N : ℕ, N < P.np.toNat → P'.J.val i j N = (Arr.ofList (P.mat.poles.map (·.kappa g.dt))).val N * P.J.val i j N
          + P.beta.val i j N * ((Ez.val i j - P.mat.Cb g.dt / 2 * ∑ M ∈ Finset.range (N + 1),
          (1 + (Arr.ofList (P.mat.poles.map (·.kappa g.dt))).val M) * P.J.val i j M) + pE.val i j) := by
  obtain ⟨P', E', h1, h2, h3⟩ := DrudePol.updateJ_ok hP hp hE
  have hcl := DrudePol.updateJ_closed hP hp hE
  rw [h1] at hcl
  obtain ⟨rfl, rfl⟩ := Prod.mk.inj (Except.ok.inj hcl)
  refine ⟨_, _, h1, h2, h3, rfl, rfl, rfl, fun i j i0 i1 j0 j1 => ?_⟩
  have hm := rect_in i0 i1 j0 j1
  simp only [Tensor.setv_val, Tensor3.setv_val, hm, if_true]
  exact ⟨drude_cell_E _ _ _ _ _ _ _, fun N hN => drude_cell_J _ _ _ _ _ _ _ _ hN⟩

/-- `lorentz_polarization::update_J` at a node. -/
theorem LorentzPol.updateJ_node {g : Grid ℝ} {P : LorentzPol ℝ} (hP : P.WF g.Nx g.Ny) {pE Ez : Tensor ℝ} (hp : pE.Dim g.Nx g.Ny)
    (hE : Ez.Dim g.Nx g.Ny) : ∃ P' Ez', P.updateJ g (some pE) Ez = .ok (P', Ez') ∧ P'.WF g.Nx g.Ny ∧ Ez'.Dim g.Nx g.Ny ∧
      P'.mat = P.mat ∧ P'.np = P.np ∧ P'.delta = P.delta ∧
      ∀ i j, 0 ≤ i → i < g.Nx → 0 ≤ j → j < g.Ny →
        Ez'.val i j = Ez.val i j + P.np.toNat * (P.mat.CaPrev g.dt * pE.val i j) - P.mat.Cb g.dt / 2 *
          ∑ M ∈ Finset.range P.np.toNat, ((1 + (Arr.ofList (P.mat.poles.map (·.alpha g.dt))).val M) * P.J.val i j M
            + (Arr.ofList (P.mat.poles.map (·.beta g.dt))).val M * P.prevJ.val i j M) ∧
        ∀ N : ℕ, N < P.np.toNat → P'.prevJ.val i j N = P.J.val i j N ∧
          P'.J.val i j N = (Arr.ofList (P.mat.poles.map (·.alpha g.dt))).val N * P.J.val i j N
          + (Arr.ofList (P.mat.poles.map (·.beta g.dt))).val N * P.prevJ.val i j N
          + P.delta.val i j N / (2 * g.dt) * ((Ez.val i j + ((N + 1 : ℕ) : ℝ) * (P.mat.CaPrev g.dt * pE.val i j)
            - P.mat.Cb g.dt / 2 * ∑ M ∈ Finset.range (N + 1),
              ((1 + (Arr.ofList (P.mat.poles.map (·.alpha g.dt))).val M) * P.J.val i j M
            + (Arr.ofList (P.mat.poles.map (·.beta g.dt))).val M * P.prevJ.val i j M)) - pE.val i j) := by
  obtain ⟨P', E', h1, h2, h3⟩ := LorentzPol.updateJ_ok hP hp hE
  have hcl := LorentzPol.updateJ_closed hP hp hE
  rw [h1] at hcl
  obtain ⟨rfl, rfl⟩ := Prod.mk.inj (Except.ok.inj hcl)
  refine ⟨_, _, h1, h2, h3, rfl, rfl, rfl, fun i j i0 i1 j0 j1 => ?_⟩
  have hm := rect_in i0 i1 j0 j1
  simp only [Tensor.setv_val, Tensor3.setv_val, hm, if_true]
  refine ⟨lorentz_cell_E _ _ _ _ _ _ _ _ _ _, fun N hN => ?_⟩
  have e := lorentz_cell_J g.dt (P.mat.Cb g.dt) (P.mat.CaPrev g.dt) (Arr.ofList (P.mat.poles.map (·.alpha g.dt))).val
    (Arr.ofList (P.mat.poles.map (·.beta g.dt))).val (P.delta.val i j) (pE.val i j) (Ez.val i j)
    (fun N => (P.J.val i j N, P.prevJ.val i j N)) P.np.toNat N hN
  unfold LorentzPol.cell
  rw [e]
  exact ⟨rfl, rfl⟩

end Qbox
