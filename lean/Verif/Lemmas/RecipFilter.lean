import Verif.Lemmas.RecipSeries
import Verif.Lemmas.NodeStep
import Verif.Spec.LinearSpec

/-!
# Dispersive media as filters

What the entries of the polarization maps do with the electric field at one node, over all steps: the field after the entry is a
fixed filter of the field before the entry plus a fixed filter of the previous field.
-/

namespace Qbox
open PowerSeries Spec

set_option linter.unusedSectionVars false

abbrev Filt := PowerSeries ℝ × PowerSeries ℝ

/-- The poles of one entry, one after the other. -/
noncomputable def chain (θ : ℕ → PowerSeries ℝ) (μ τ : PowerSeries ℝ) : ℕ → Filt
  | 0 => (1, 0)
  | k + 1 => ((1 + θ k)⁻¹ * (chain θ μ τ k).1, (1 + θ k)⁻¹ * ((chain θ μ τ k).2 + μ + θ k * τ))

theorem chain_const {θ : ℕ → PowerSeries ℝ} (hθ : ∀ k, constantCoeff (θ k) = 0) (μ τ : PowerSeries ℝ) :
    ∀ k, constantCoeff (chain θ μ τ k).1 = 1
  | 0 => by simp [chain]
  | k + 1 => by simp [chain, chain_const hθ μ τ k, hθ]

theorem one_inv : (1 : PowerSeries ℝ)⁻¹ = 1 := by
  have := PowerSeries.mul_inv_cancel (1 : PowerSeries ℝ) (by simp)
  rwa [one_mul] at this

theorem chain_quiet {θ : ℕ → PowerSeries ℝ} (μ τ : PowerSeries ℝ) :
    ∀ k, (∀ n, n < k → θ n = 0) → (chain θ μ τ k).1 = 1
  | 0, _ => by simp [chain]
  | k + 1, h => by simp [chain, chain_quiet μ τ k fun n hn => h n (by omega), h k (by omega), one_inv]

theorem chain_congr {θ θ' : ℕ → PowerSeries ℝ} (μ τ : PowerSeries ℝ) :
    ∀ k, (∀ n, n < k → θ n = θ' n) → chain θ μ τ k = chain θ' μ τ k
  | 0, _ => by simp [chain]
  | k + 1, h => by simp [chain, chain_congr μ τ k fun n hn => h n (by omega), h k (by omega)]

theorem chain_law {ν ρ J E : ℕ → PowerSeries ℝ} {μ τ q : PowerSeries ℝ} {m : ℕ} (hν : ∀ k, constantCoeff (ν k) = 0)
    (hE : ∀ k, k < m → E (k + 1) = E k + μ * q - ν k * J k) (hJ : ∀ k, k < m → J k = ρ k * (E (k + 1) - τ * q)) :
    ∀ k, k ≤ m → E k = (chain (fun k => ν k * ρ k) μ τ k).1 * E 0 + (chain (fun k => ν k * ρ k) μ τ k).2 * q
  | 0, _ => by simp [chain]
  | k + 1, h => by
    have ih := chain_law hν hE hJ k (by omega)
    have hc : constantCoeff (1 + ν k * ρ k) ≠ 0 := by simp [hν]
    have a := hE k (by omega)
    rw [hJ k (by omega)] at a
    refine mul_left_cancel₀ (series_ne hc) ?_
    simp only [chain]
    have i := PowerSeries.mul_inv_cancel _ hc
    generalize (1 + ν k * ρ k)⁻¹ = w at i ⊢
    rw [ih] at a
    generalize (chain (fun k => ν k * ρ k) μ τ k).1 = x at a ⊢
    generalize (chain (fun k => ν k * ρ k) μ τ k).2 = y at a ⊢
    linear_combination a - (x * E 0 + (y + μ + ν k * ρ k * τ) * q) * i

/-- The entries of a map, one after the other. -/
noncomputable def listFilt {α : Type} (F : α → Filt) : List (String × α) → Filt
  | [] => (1, 0)
  | p :: l => ((listFilt F l).1 * (F p.2).1, (listFilt F l).1 * (F p.2).2 + (listFilt F l).2)

theorem listFilt_const {α : Type} {F : α → Filt} (h : ∀ P, constantCoeff (F P).1 = 1) :
    ∀ l : List (String × α), constantCoeff (listFilt F l).1 = 1
  | [] => by simp [listFilt]
  | p :: l => by simp [listFilt, listFilt_const h l, h]

theorem listFilt_quiet {α : Type} {F : α → Filt} : ∀ l : List (String × α), (∀ p ∈ l, (F p.2).1 = 1) → (listFilt F l).1 = 1
  | [], _ => by simp [listFilt]
  | p :: l, h => by simp [listFilt, listFilt_quiet l fun q hq => h q (by simp [hq]), h p (by simp)]

theorem listFilt_congr {α : Type} {F G : α → Filt} : ∀ l : List (String × α), (∀ p ∈ l, F p.2 = G p.2) → listFilt F l = listFilt G l
  | [], _ => by simp [listFilt]
  | p :: l, h => by simp [listFilt, listFilt_congr l fun q hq => h q (by simp [hq]), h p (by simp)]

/-- The field at a node at the successive steps. -/
noncomputable def at_ (E : ℕ → Tensor ℝ) (i j : ℤ) : PowerSeries ℝ := ser fun n => (E n).val i j

theorem list_filter {α : Type} (upd : ℕ → α → Tensor ℝ → M (α × Tensor ℝ)) (Ok : α → Prop) (F : α → Filt) (D : Tensor ℝ → Prop)
    (i j : ℤ) (q : PowerSeries ℝ)
    (h1 : ∀ (P : ℕ → α) (Ein Eout : ℕ → Tensor ℝ), Ok (P 0) → (∀ n, D (Ein n)) → (∀ n, upd n (P n) (Ein n) = .ok (P (n + 1), Eout n)) →
      (∀ n, D (Eout n)) ∧ X * at_ Eout i j = (F (P 0)).1 * (X * at_ Ein i j) + (F (P 0)).2 * q) :
    ∀ (l : List (String × α)) (L : ℕ → List (String × α)) (Ein Eout : ℕ → Tensor ℝ), L 0 = l → (∀ p ∈ l, Ok p.2) → (∀ n, D (Ein n)) →
      (∀ n, mapUpdateJ (upd n) (L n) (Ein n) = .ok (L (n + 1), Eout n)) →
      (∀ n, D (Eout n)) ∧ X * at_ Eout i j = (listFilt F l).1 * (X * at_ Ein i j) + (listFilt F l).2 * q
  | [], L, Ein, Eout, hL, _, hD, hu => by
    have e : ∀ n, L n = [] ∧ Eout n = Ein n := by
      intro n
      induction n with
      | zero =>
        have := hu 0
        rw [hL] at this
        exact ⟨hL, (congrArg Prod.snd (Except.ok.inj this)).symm⟩
      | succ n ih =>
        have a := hu n
        rw [ih.1] at a
        have b : L (n + 1) = [] := (congrArg Prod.fst (Except.ok.inj a)).symm
        have := hu (n + 1)
        rw [b] at this
        exact ⟨b, (congrArg Prod.snd (Except.ok.inj this)).symm⟩
    have e2 : Eout = Ein := funext fun n => (e n).2
    rw [e2]
    exact ⟨hD, by simp [listFilt]⟩
  | (nm, P0) :: l, L, Ein, Eout, hL, hok, hD, hu => by
    have shape : ∀ n, ∃ m P k, L n = (m, P) :: k := by
      intro n
      induction n with
      | zero => exact ⟨nm, P0, l, hL⟩
      | succ n ih =>
        obtain ⟨m, P, k, e⟩ := ih
        have a := hu n
        rw [e] at a
        unfold mapUpdateJ at a
        simp only [Except.bind_ok, Except.pure_eq] at a
        obtain ⟨⟨P1, E1⟩, -, ⟨l2, E2⟩, -, h3⟩ := a
        exact ⟨m, P1, l2, (congrArg Prod.fst (Except.ok.inj h3)).symm⟩
    choose m P k e using shape
    have parts : ∀ n, ∃ E1, upd n (P n) (Ein n) = .ok (P (n + 1), E1) ∧ mapUpdateJ (upd n) (k n) E1 = .ok (k (n + 1), Eout n) := by
      intro n
      have a := hu n
      rw [e n, e (n + 1)] at a
      unfold mapUpdateJ at a
      simp only [Except.bind_ok, Except.pure_eq] at a
      obtain ⟨⟨P1, E1⟩, b1, ⟨l2, E2⟩, b2, h3⟩ := a
      have h4 := Except.ok.inj h3
      have h5 := (Prod.mk.inj h4).1
      have h6 := (Prod.mk.inj h4).2
      rw [List.cons.injEq, Prod.mk.injEq] at h5
      obtain ⟨⟨-, h7⟩, h8⟩ := h5
      simp only at h6 h7 h8 b1 b2
      subst h6 h7 h8
      exact ⟨E1, b1, b2⟩
    choose E1 p1 p2 using parts
    have e0 := e 0
    rw [hL, List.cons.injEq, Prod.mk.injEq] at e0
    obtain ⟨⟨-, e1⟩, e2⟩ := e0
    obtain ⟨d1, v1⟩ := h1 P Ein E1 (by rw [← e1]; exact hok (nm, P0) (by simp)) hD p1
    obtain ⟨d2, v2⟩ := list_filter upd Ok F D i j q h1 l k E1 Eout e2.symm (fun p hp => hok p (by simp [hp])) d1 p2
    refine ⟨d2, ?_⟩
    rw [v2, v1, ← e1]
    simp only [listFilt]
    ring

/-! ## single entries -/

noncomputable def debyeFilt (g : Grid ℝ) (i j : ℤ) (P : DebyePol ℝ) : Filt :=
  chain (fun N => C (P.mat.Cb g.dt / 2 * (1 + (Arr.ofList (P.mat.poles.map (·.kappa g.dt))).val N)) * X *
    ((1 - C ((Arr.ofList (P.mat.poles.map (·.kappa g.dt))).val N) * X)⁻¹ * C (P.beta.val i j N / g.dt))) 0 1 P.np.toNat

noncomputable def drudeFilt (g : Grid ℝ) (i j : ℤ) (P : DrudePol ℝ) : Filt :=
  chain (fun N => C (P.mat.Cb g.dt / 2 * (1 + (Arr.ofList (P.mat.poles.map (·.kappa g.dt))).val N)) * X *
    ((1 - C ((Arr.ofList (P.mat.poles.map (·.kappa g.dt))).val N) * X)⁻¹ * C (P.beta.val i j N))) 0 (-1) P.np.toNat

noncomputable def lorentzFilt (g : Grid ℝ) (i j : ℤ) (P : LorentzPol ℝ) : Filt :=
  chain (fun N => C (P.mat.Cb g.dt / 2) * (C (1 + (Arr.ofList (P.mat.poles.map (·.alpha g.dt))).val N)
      + C ((Arr.ofList (P.mat.poles.map (·.beta g.dt))).val N) * X) * X *
    ((1 - C ((Arr.ofList (P.mat.poles.map (·.alpha g.dt))).val N) * X - C ((Arr.ofList (P.mat.poles.map (·.beta g.dt))).val N) * X * X)⁻¹
      * C (P.delta.val i j N / (2 * g.dt)))) (C (P.mat.CaPrev g.dt)) 1 P.np.toNat

theorem debye_entry {g : Grid ℝ} {P : ℕ → DebyePol ℝ} {Ein Eout pE : ℕ → Tensor ℝ} {i j : ℤ} (i0 : 0 ≤ i) (i1 : i < g.Nx) (j0 : 0 ≤ j)
    (j1 : j < g.Ny) (hw : (P 0).WF g.Nx g.Ny) (hz : T3Zero (P 0).J) (hp : ∀ n, (pE n).Dim g.Nx g.Ny) (hE : ∀ n, (Ein n).Dim g.Nx g.Ny)
    (hu : ∀ n, (P n).updateJ g (some (pE n)) (Ein n) = .ok (P (n + 1), Eout n)) :
    (∀ n, (Eout n).Dim g.Nx g.Ny) ∧
      X * at_ Eout i j = (debyeFilt g i j (P 0)).1 * (X * at_ Ein i j) + (debyeFilt g i j (P 0)).2 * (X * at_ pE i j) := by
  have st : ∀ n, (P n).WF g.Nx g.Ny ∧ (P n).mat = (P 0).mat ∧ (P n).np = (P 0).np ∧ (P n).beta = (P 0).beta := by
    intro n
    induction n with
    | zero => exact ⟨hw, rfl, rfl, rfl⟩
    | succ n ih =>
      obtain ⟨P2, E2, u, w2, d2, m2, n2, b2, -⟩ := DebyePol.updateJ_node ih.1 (hp n) (hE n)
      rw [hu n] at u
      obtain ⟨rfl, rfl⟩ := Prod.mk.inj (Except.ok.inj u)
      exact ⟨w2, m2.trans ih.2.1, n2.trans ih.2.2.1, b2.trans ih.2.2.2⟩
  have nd : ∀ n, (Eout n).Dim g.Nx g.Ny ∧ _ := fun n => by
    obtain ⟨P2, E2, u, w2, d2, m2, n2, b2, v⟩ := DebyePol.updateJ_node (st n).1 (hp n) (hE n)
    rw [hu n] at u
    obtain ⟨rfl, rfl⟩ := Prod.mk.inj (Except.ok.inj u)
    have v := v i j i0 i1 j0 j1
    rw [(st n).2.1, (st n).2.2.1, (st n).2.2.2] at v
    exact ⟨d2, v⟩
  refine ⟨fun n => (nd n).1, ?_⟩
  set ka := (Arr.ofList ((P 0).mat.poles.map (·.kappa g.dt))).val with hka
  set cb := (P 0).mat.Cb g.dt with hcb
  set m := (P 0).np.toNat with hm
  set Jf : ℕ → PowerSeries ℝ := fun k => ser fun n => (P n).J.val i j k with hJf
  set Ef : ℕ → PowerSeries ℝ := fun k => X * ser fun n => (Ein n).val i j - cb / 2 * ∑ M ∈ Finset.range k, (1 + ka M) * (P n).J.val i j M with hEf
  have s0 : Ef 0 = X * at_ Ein i j := by simp [hEf, at_]
  have sm : X * at_ Eout i j = Ef m := by
    simp only [hEf, at_]
    exact congrArg (X * ·) (ser_congr fun n => (nd n).2.1)
  have hEs : ∀ k, k < m → Ef (k + 1) = Ef k + 0 * (X * at_ pE i j) - (C (cb / 2 * (1 + ka k)) * X) * Jf k := by
    intro k _
    have e : (ser fun n => (Ein n).val i j - cb / 2 * ∑ M ∈ Finset.range (k + 1), (1 + ka M) * (P n).J.val i j M)
        = (ser fun n => (Ein n).val i j - cb / 2 * ∑ M ∈ Finset.range k, (1 + ka M) * (P n).J.val i j M) - C (cb / 2 * (1 + ka k)) * Jf k := by
      rw [← ser_smul, ← ser_sub]
      refine ser_congr fun n => ?_
      rw [Finset.sum_range_succ]; ring
    simp only [hEf]
    rw [e]; ring
  have hJs : ∀ k, k < m → Jf k = ((1 - C (ka k) * X)⁻¹ * C ((P 0).beta.val i j k / g.dt)) * (Ef (k + 1) - 1 * (X * at_ pE i j)) := by
    intro k hk
    rw [mul_assoc]
    refine solve_one _ _ _ ?_
    have e : (ser fun n => (P (n + 1)).J.val i j k) = C (ka k) * Jf k + C ((P 0).beta.val i j k / g.dt) *
        ((ser fun n => (Ein n).val i j - cb / 2 * ∑ M ∈ Finset.range (k + 1), (1 + ka M) * (P n).J.val i j M) - at_ pE i j) := by
      simp only [hJf, at_]
      rw [← ser_sub, ← ser_smul, ← ser_smul, ← ser_add]
      exact ser_congr fun n => (nd n).2.2 k hk
    have h0 : Jf k = X * ser fun n => (P (n + 1)).J.val i j k := ser_shift (hz i j k)
    rw [e] at h0
    calc Jf k = _ := h0
      _ = _ := by simp only [hEf]; ring
  have := chain_law (ν := fun k => C (cb / 2 * (1 + ka k)) * X) (ρ := fun k => (1 - C (ka k) * X)⁻¹ * C ((P 0).beta.val i j k / g.dt))
    (μ := 0) (τ := 1) (q := X * at_ pE i j) (m := m) (J := Jf) (E := Ef) (fun k => by simp) hEs hJs m le_rfl
  rw [sm, this, s0]
  rfl

theorem drude_entry {g : Grid ℝ} {P : ℕ → DrudePol ℝ} {Ein Eout pE : ℕ → Tensor ℝ} {i j : ℤ} (i0 : 0 ≤ i) (i1 : i < g.Nx) (j0 : 0 ≤ j)
    (j1 : j < g.Ny) (hw : (P 0).WF g.Nx g.Ny) (hz : T3Zero (P 0).J) (hp : ∀ n, (pE n).Dim g.Nx g.Ny) (hE : ∀ n, (Ein n).Dim g.Nx g.Ny)
    (hu : ∀ n, (P n).updateJ g (some (pE n)) (Ein n) = .ok (P (n + 1), Eout n)) :
    (∀ n, (Eout n).Dim g.Nx g.Ny) ∧
      X * at_ Eout i j = (drudeFilt g i j (P 0)).1 * (X * at_ Ein i j) + (drudeFilt g i j (P 0)).2 * (X * at_ pE i j) := by
  have st : ∀ n, (P n).WF g.Nx g.Ny ∧ (P n).mat = (P 0).mat ∧ (P n).np = (P 0).np ∧ (P n).beta = (P 0).beta := by
    intro n
    induction n with
    | zero => exact ⟨hw, rfl, rfl, rfl⟩
    | succ n ih =>
      obtain ⟨P2, E2, u, w2, d2, m2, n2, b2, -⟩ := DrudePol.updateJ_node ih.1 (hp n) (hE n)
      rw [hu n] at u
      obtain ⟨rfl, rfl⟩ := Prod.mk.inj (Except.ok.inj u)
      exact ⟨w2, m2.trans ih.2.1, n2.trans ih.2.2.1, b2.trans ih.2.2.2⟩
  have nd : ∀ n, (Eout n).Dim g.Nx g.Ny ∧ _ := fun n => by
    obtain ⟨P2, E2, u, w2, d2, m2, n2, b2, v⟩ := DrudePol.updateJ_node (st n).1 (hp n) (hE n)
    rw [hu n] at u
    obtain ⟨rfl, rfl⟩ := Prod.mk.inj (Except.ok.inj u)
    have v := v i j i0 i1 j0 j1
    rw [(st n).2.1, (st n).2.2.1, (st n).2.2.2] at v
    exact ⟨d2, v⟩
  refine ⟨fun n => (nd n).1, ?_⟩
  set ka := (Arr.ofList ((P 0).mat.poles.map (·.kappa g.dt))).val with hka
  set cb := (P 0).mat.Cb g.dt with hcb
  set m := (P 0).np.toNat with hm
  set Jf : ℕ → PowerSeries ℝ := fun k => ser fun n => (P n).J.val i j k with hJf
  set Ef : ℕ → PowerSeries ℝ := fun k => X * ser fun n => (Ein n).val i j - cb / 2 * ∑ M ∈ Finset.range k, (1 + ka M) * (P n).J.val i j M with hEf
  have s0 : Ef 0 = X * at_ Ein i j := by simp [hEf, at_]
  have sm : X * at_ Eout i j = Ef m := by
    simp only [hEf, at_]
    exact congrArg (X * ·) (ser_congr fun n => (nd n).2.1)
  have hEs : ∀ k, k < m → Ef (k + 1) = Ef k + 0 * (X * at_ pE i j) - (C (cb / 2 * (1 + ka k)) * X) * Jf k := by
    intro k _
    have e : (ser fun n => (Ein n).val i j - cb / 2 * ∑ M ∈ Finset.range (k + 1), (1 + ka M) * (P n).J.val i j M)
        = (ser fun n => (Ein n).val i j - cb / 2 * ∑ M ∈ Finset.range k, (1 + ka M) * (P n).J.val i j M) - C (cb / 2 * (1 + ka k)) * Jf k := by
      rw [← ser_smul, ← ser_sub]
      refine ser_congr fun n => ?_
      rw [Finset.sum_range_succ]; ring
    simp only [hEf]
    rw [e]; ring
  have hJs : ∀ k, k < m → Jf k = ((1 - C (ka k) * X)⁻¹ * C ((P 0).beta.val i j k)) * (Ef (k + 1) - -1 * (X * at_ pE i j)) := by
    intro k hk
    rw [mul_assoc]
    refine solve_one _ _ _ ?_
    have e : (ser fun n => (P (n + 1)).J.val i j k) = C (ka k) * Jf k + C ((P 0).beta.val i j k) *
        ((ser fun n => (Ein n).val i j - cb / 2 * ∑ M ∈ Finset.range (k + 1), (1 + ka M) * (P n).J.val i j M) + at_ pE i j) := by
      simp only [hJf, at_]
      rw [← ser_add, ← ser_smul, ← ser_smul, ← ser_add]
      exact ser_congr fun n => (nd n).2.2 k hk
    have h0 : Jf k = X * ser fun n => (P (n + 1)).J.val i j k := ser_shift (hz i j k)
    rw [e] at h0
    calc Jf k = _ := h0
      _ = _ := by simp only [hEf]; ring
  have := chain_law (ν := fun k => C (cb / 2 * (1 + ka k)) * X) (ρ := fun k => (1 - C (ka k) * X)⁻¹ * C ((P 0).beta.val i j k))
    (μ := 0) (τ := -1) (q := X * at_ pE i j) (m := m) (J := Jf) (E := Ef) (fun k => by simp) hEs hJs m le_rfl
  rw [sm, this, s0]
  rfl

theorem solve_two (a b : ℝ) (m y : PowerSeries ℝ) (h : m = C a * (X * m) + C b * (X * (X * m)) + y) :
    m = (1 - C a * X - C b * X * X)⁻¹ * y := by
  have hc : constantCoeff (1 - C a * X - C b * X * X : PowerSeries ℝ) ≠ 0 := by simp
  have h2 : (1 - C a * X - C b * X * X) * m = y := by linear_combination h
  rw [← h2, ← mul_assoc, PowerSeries.inv_mul_cancel _ hc, one_mul]

theorem lorentz_entry {g : Grid ℝ} {P : ℕ → LorentzPol ℝ} {Ein Eout pE : ℕ → Tensor ℝ} {i j : ℤ} (i0 : 0 ≤ i) (i1 : i < g.Nx) (j0 : 0 ≤ j)
    (j1 : j < g.Ny) (hw : (P 0).WF g.Nx g.Ny) (hz : T3Zero (P 0).J ∧ T3Zero (P 0).prevJ) (hp : ∀ n, (pE n).Dim g.Nx g.Ny)
    (hE : ∀ n, (Ein n).Dim g.Nx g.Ny) (hu : ∀ n, (P n).updateJ g (some (pE n)) (Ein n) = .ok (P (n + 1), Eout n)) :
    (∀ n, (Eout n).Dim g.Nx g.Ny) ∧
      X * at_ Eout i j = (lorentzFilt g i j (P 0)).1 * (X * at_ Ein i j) + (lorentzFilt g i j (P 0)).2 * (X * at_ pE i j) := by
  have st : ∀ n, (P n).WF g.Nx g.Ny ∧ (P n).mat = (P 0).mat ∧ (P n).np = (P 0).np ∧ (P n).delta = (P 0).delta := by
    intro n
    induction n with
    | zero => exact ⟨hw, rfl, rfl, rfl⟩
    | succ n ih =>
      obtain ⟨P2, E2, u, w2, d2, m2, n2, b2, -⟩ := LorentzPol.updateJ_node ih.1 (hp n) (hE n)
      rw [hu n] at u
      obtain ⟨rfl, rfl⟩ := Prod.mk.inj (Except.ok.inj u)
      exact ⟨w2, m2.trans ih.2.1, n2.trans ih.2.2.1, b2.trans ih.2.2.2⟩
  have nd : ∀ n, (Eout n).Dim g.Nx g.Ny ∧ _ := fun n => by
    obtain ⟨P2, E2, u, w2, d2, m2, n2, b2, v⟩ := LorentzPol.updateJ_node (st n).1 (hp n) (hE n)
    rw [hu n] at u
    obtain ⟨rfl, rfl⟩ := Prod.mk.inj (Except.ok.inj u)
    have v := v i j i0 i1 j0 j1
    rw [(st n).2.1, (st n).2.2.1, (st n).2.2.2] at v
    exact ⟨d2, v⟩
  refine ⟨fun n => (nd n).1, ?_⟩
  set al := (Arr.ofList ((P 0).mat.poles.map (·.alpha g.dt))).val with hal
  set be := (Arr.ofList ((P 0).mat.poles.map (·.beta g.dt))).val with hbe
  set cb := (P 0).mat.Cb g.dt with hcb
  set cp := (P 0).mat.CaPrev g.dt with hcp
  set m := (P 0).np.toNat with hm
  set Jf : ℕ → PowerSeries ℝ := fun k => ser fun n => (P n).J.val i j k with hJf
  set Jp : ℕ → PowerSeries ℝ := fun k => ser fun n => (P n).prevJ.val i j k with hJp
  set Ef : ℕ → PowerSeries ℝ := fun k => X * ser fun n => (Ein n).val i j + (k : ℝ) * (cp * (pE n).val i j)
    - cb / 2 * ∑ M ∈ Finset.range k, ((1 + al M) * (P n).J.val i j M + be M * (P n).prevJ.val i j M) with hEf
  have s0 : Ef 0 = X * at_ Ein i j := by simp [hEf, at_]
  have sm : X * at_ Eout i j = Ef m := by
    simp only [hEf, at_]
    exact congrArg (X * ·) (ser_congr fun n => (nd n).2.1)
  have jp : ∀ k, k < m → Jp k = X * Jf k := by
    intro k hk
    have h0 : Jp k = X * ser fun n => (P (n + 1)).prevJ.val i j k := ser_shift (hz.2 i j k)
    rw [h0]
    exact congrArg (X * ·) (ser_congr fun n => ((nd n).2.2 k hk).1)
  have hEs : ∀ k, k < m → Ef (k + 1) = Ef k + C cp * (X * at_ pE i j) - (C (cb / 2) * (C (1 + al k) + C (be k) * X) * X) * Jf k := by
    intro k hk
    have e : (ser fun n => (Ein n).val i j + ((k + 1 : ℕ) : ℝ) * (cp * (pE n).val i j)
          - cb / 2 * ∑ M ∈ Finset.range (k + 1), ((1 + al M) * (P n).J.val i j M + be M * (P n).prevJ.val i j M))
        = (ser fun n => (Ein n).val i j + (k : ℝ) * (cp * (pE n).val i j)
          - cb / 2 * ∑ M ∈ Finset.range k, ((1 + al M) * (P n).J.val i j M + be M * (P n).prevJ.val i j M))
          + C cp * at_ pE i j - C (cb / 2) * (C (1 + al k) * Jf k + C (be k) * Jp k) := by
      simp only [at_, hJf, hJp]
      rw [← ser_smul, ← ser_smul, ← ser_smul, ← ser_add, ← ser_add, ← ser_smul, ← ser_sub]
      refine ser_congr fun n => ?_
      rw [Finset.sum_range_succ]; push_cast; ring
    simp only [hEf]
    rw [e, jp k hk]; ring
  have hJs : ∀ k, k < m → Jf k = ((1 - C (al k) * X - C (be k) * X * X)⁻¹ * C ((P 0).delta.val i j k / (2 * g.dt)))
      * (Ef (k + 1) - 1 * (X * at_ pE i j)) := by
    intro k hk
    rw [mul_assoc]
    refine solve_two _ _ _ _ ?_
    have e : (ser fun n => (P (n + 1)).J.val i j k) = C (al k) * Jf k + C (be k) * Jp k + C ((P 0).delta.val i j k / (2 * g.dt)) *
        ((ser fun n => (Ein n).val i j + ((k + 1 : ℕ) : ℝ) * (cp * (pE n).val i j)
          - cb / 2 * ∑ M ∈ Finset.range (k + 1), ((1 + al M) * (P n).J.val i j M + be M * (P n).prevJ.val i j M)) - at_ pE i j) := by
      simp only [hJf, hJp, at_]
      rw [← ser_sub, ← ser_smul, ← ser_smul, ← ser_smul, ← ser_add, ← ser_add]
      exact ser_congr fun n => ((nd n).2.2 k hk).2
    have h0 : Jf k = X * ser fun n => (P (n + 1)).J.val i j k := ser_shift (hz.1 i j k)
    rw [e, jp k hk] at h0
    calc Jf k = _ := h0
      _ = _ := by simp only [hEf]; ring
  have := chain_law (ν := fun k => C (cb / 2) * (C (1 + al k) + C (be k) * X) * X)
    (ρ := fun k => (1 - C (al k) * X - C (be k) * X * X)⁻¹ * C ((P 0).delta.val i j k / (2 * g.dt)))
    (μ := C cp) (τ := 1) (q := X * at_ pE i j) (m := m) (J := Jf) (E := Ef) (fun k => by simp) hEs hJs m le_rfl
  rw [sm, this, s0]
  rfl

end Qbox
