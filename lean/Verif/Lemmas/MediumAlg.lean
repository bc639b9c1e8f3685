import Verif.Lemmas.Node
import Mathlib.Algebra.BigOperators.Field

/-!
# Solutions of the discretised medium equations
-/

namespace Qbox
open Scalar Spec

/-- Values of a parameter array computed from the poles. -/
theorem arr_val {α : Type} (l : List α) (F : α → ℝ) (N : ℕ) (h : N < l.length) : (Arr.ofList (l.map F)).val N = F l[N] := by
  rw [ofList_val _ _ (by simpa using h)]; simp

theorem arr_sum {α : Type} (l : List α) (F : α → ℝ) : sumL (l.map F) = ∑ N ∈ Finset.range l.length, (Arr.ofList (l.map F)).val N := by
  rw [sumL_real]
  exact sum_map_range l F _ fun N hN => arr_val l F N hN

/-! ## Debye -/

theorem debye_pole_iff {p : DebyePole ℝ} {dt : ℝ} (hdt : 0 < dt) (ht : 0 < p.tau) (x J J' : ℝ) :
    p.tau * (J' - J) / dt + (J' + J) / 2 = p.dEps * x / dt ↔ J' = p.kappa dt * J + p.beta dt / dt * x := by
  have h2 : 0 < 2 * p.tau + dt := by positivity
  have hk : p.kappa dt = (2 * p.tau - dt) / (2 * p.tau + dt) := by
    have : (1 : ℝ) + dt / (2 * p.tau) ≠ 0 := by positivity
    simp only [DebyePole.kappa, ofInt_real]; push_cast; field_simp
  have hb : p.beta dt / dt = 2 * p.dEps / (2 * p.tau + dt) := by
    have : (1 : ℝ) + dt / (2 * p.tau) ≠ 0 := by positivity
    simp only [DebyePole.beta, ofInt_real]; push_cast; field_simp
  rw [hk, hb]
  field_simp
  constructor <;> intro h <;> linarith

theorem debye_beta_nonneg {p : DebyePole ℝ} {dt : ℝ} (hdt : 0 < dt) (ht : 0 < p.tau) (hd : 0 ≤ p.dEps) : 0 ≤ p.beta dt := by
  simp only [DebyePole.beta, ofInt_real]; positivity

theorem debye_den_pos {m : Debye ℝ} {dt : ℝ} (hdt : 0 < dt) (he : 0 < m.epsInf) (hp : ∀ p ∈ m.poles, 0 < p.tau ∧ 0 ≤ p.dEps) :
    0 < 2 * m.epsInf + ∑ N ∈ Finset.range m.poles.length, (Arr.ofList (m.poles.map (·.beta dt))).val N := by
  have : 0 ≤ ∑ N ∈ Finset.range m.poles.length, (Arr.ofList (m.poles.map (·.beta dt))).val N := by
    refine Finset.sum_nonneg fun N hN => ?_
    rw [arr_val _ _ _ (Finset.mem_range.mp hN)]
    obtain ⟨h1, h2⟩ := hp _ (List.getElem_mem (Finset.mem_range.mp hN))
    exact debye_beta_nonneg hdt h1 h2
  positivity

theorem debyeLaw_iff {m : Debye ℝ} {dt : ℝ} (hdt : 0 < dt) (he : 0 < m.epsInf) (hp : ∀ p ∈ m.poles, 0 < p.tau ∧ 0 ≤ p.dEps)
    (E E' curl : ℝ) (J J' : ℕ → ℝ) : DebyeLaw m dt E E' curl J J' ↔
      E' = E + m.Cb dt * curl - m.Cb dt / 2 * ∑ M ∈ Finset.range m.poles.length,
        (1 + (Arr.ofList (m.poles.map (·.kappa dt))).val M) * J M ∧
      ∀ N : ℕ, N < m.poles.length → J' N = (Arr.ofList (m.poles.map (·.kappa dt))).val N * J N
        + (Arr.ofList (m.poles.map (·.beta dt))).val N / dt * (E' - E) := by
  have hpole : (∀ (N : ℕ) (h : N < m.poles.length),
      m.poles[N].tau * (J' N - J N) / dt + (J' N + J N) / 2 = m.poles[N].dEps * (E' - E) / dt) ↔
      ∀ N : ℕ, N < m.poles.length → J' N = (Arr.ofList (m.poles.map (·.kappa dt))).val N * J N
        + (Arr.ofList (m.poles.map (·.beta dt))).val N / dt * (E' - E) := by
    refine forall_congr' fun N => forall_congr' fun h => ?_
    rw [arr_val _ _ _ h, arr_val _ _ _ h]
    exact debye_pole_iff hdt (hp _ (List.getElem_mem h)).1 _ _ _
  have hamp : (∀ N : ℕ, N < m.poles.length → J' N = (Arr.ofList (m.poles.map (·.kappa dt))).val N * J N
        + (Arr.ofList (m.poles.map (·.beta dt))).val N / dt * (E' - E)) →
      ((m.epsInf * (E' - E) / dt + ∑ N ∈ Finset.range m.poles.length, (J' N + J N) / 2 = curl) ↔
      E' = E + m.Cb dt * curl - m.Cb dt / 2 * ∑ M ∈ Finset.range m.poles.length,
        (1 + (Arr.ofList (m.poles.map (·.kappa dt))).val M) * J M) := by
    intro hJ
    have hden := debye_den_pos hdt he hp
    have hs : ∑ N ∈ Finset.range m.poles.length, (J' N + J N) / 2 = (∑ M ∈ Finset.range m.poles.length,
        (1 + (Arr.ofList (m.poles.map (·.kappa dt))).val M) * J M) / 2
        + (∑ N ∈ Finset.range m.poles.length, (Arr.ofList (m.poles.map (·.beta dt))).val N) / (2 * dt) * (E' - E) := by
      rw [Finset.sum_div, Finset.sum_div, Finset.sum_mul, ← Finset.sum_add_distrib]
      refine Finset.sum_congr rfl fun N hN => ?_
      rw [hJ N (Finset.mem_range.mp hN)]; field_simp; ring
    rw [hs]
    simp only [Debye.Cb, arr_sum, ofInt_real]
    push_cast
    generalize (∑ N ∈ Finset.range m.poles.length, (Arr.ofList (m.poles.map (·.beta dt))).val N) = B at hden ⊢
    generalize (∑ M ∈ Finset.range m.poles.length, (1 + (Arr.ofList (m.poles.map (·.kappa dt))).val M) * J M) = S
    obtain ⟨D, hD⟩ : ∃ D, D = 2 * m.epsInf + B := ⟨_, rfl⟩
    obtain rfl : B = D - 2 * m.epsInf := by linarith
    have hne : D ≠ 0 := by rw [hD]; exact hden.ne'
    rw [← hD]
    field_simp
    constructor <;> intro h <;> linarith
  constructor
  · intro h
    have := hpole.mp h.pole
    exact ⟨(hamp this).mp h.ampere, this⟩
  · rintro ⟨h1, h2⟩
    exact ⟨(hamp h2).mpr h1, hpole.mpr h2⟩

/-! ## Drude -/

theorem drude_pole_iff {p : DrudePole ℝ} {dt : ℝ} (hdt : 0 < dt) (hg : 0 ≤ p.gamma) (x J J' : ℝ) :
    (J' - J) / dt + p.gamma * (J' + J) / 2 = p.omega ^ 2 * x / 2 ↔ J' = p.kappa dt * J + p.beta dt * x := by
  have h2 : 0 < 2 + p.gamma * dt := by positivity
  have hk : p.kappa dt = (2 - p.gamma * dt) / (2 + p.gamma * dt) := by
    have : (1 : ℝ) + p.gamma * dt / 2 ≠ 0 := by positivity
    simp only [DrudePole.kappa, ofInt_real]; push_cast; field_simp
  have hb : p.beta dt = p.omega ^ 2 * dt / (2 + p.gamma * dt) := by
    have : (1 : ℝ) + p.gamma * dt / 2 ≠ 0 := by positivity
    simp only [DrudePole.beta, ofInt_real, npow_real]; push_cast; field_simp
  rw [hk, hb]
  field_simp
  constructor <;> intro h <;> linarith

theorem drude_beta_nonneg {p : DrudePole ℝ} {dt : ℝ} (hdt : 0 < dt) (hg : 0 ≤ p.gamma) : 0 ≤ p.beta dt := by
  simp only [DrudePole.beta, ofInt_real, npow_real]; positivity

theorem drude_den_pos {m : Drude ℝ} {dt : ℝ} (hdt : 0 < dt) (he : 0 < m.epsInf) (hp : ∀ p ∈ m.poles, 0 ≤ p.gamma) :
    0 < 2 * m.epsInf + dt * ∑ N ∈ Finset.range m.poles.length, (Arr.ofList (m.poles.map (·.beta dt))).val N := by
  have : 0 ≤ ∑ N ∈ Finset.range m.poles.length, (Arr.ofList (m.poles.map (·.beta dt))).val N := by
    refine Finset.sum_nonneg fun N hN => ?_
    rw [arr_val _ _ _ (Finset.mem_range.mp hN)]
    exact drude_beta_nonneg hdt (hp _ (List.getElem_mem (Finset.mem_range.mp hN)))
  positivity

theorem drudeLaw_iff {m : Drude ℝ} {dt : ℝ} (hdt : 0 < dt) (he : 0 < m.epsInf) (hp : ∀ p ∈ m.poles, 0 ≤ p.gamma)
    (E E' curl : ℝ) (J J' : ℕ → ℝ) : DrudeLaw m dt E E' curl J J' ↔
      E' = m.Ca dt * E + m.Cb dt * curl - m.Cb dt / 2 * ∑ M ∈ Finset.range m.poles.length,
        (1 + (Arr.ofList (m.poles.map (·.kappa dt))).val M) * J M ∧
      ∀ N : ℕ, N < m.poles.length → J' N = (Arr.ofList (m.poles.map (·.kappa dt))).val N * J N
        + (Arr.ofList (m.poles.map (·.beta dt))).val N * (E' + E) := by
  have hpole : (∀ (N : ℕ) (h : N < m.poles.length),
      (J' N - J N) / dt + m.poles[N].gamma * (J' N + J N) / 2 = m.poles[N].omega ^ 2 * (E' + E) / 2) ↔
      ∀ N : ℕ, N < m.poles.length → J' N = (Arr.ofList (m.poles.map (·.kappa dt))).val N * J N
        + (Arr.ofList (m.poles.map (·.beta dt))).val N * (E' + E) := by
    refine forall_congr' fun N => forall_congr' fun h => ?_
    rw [arr_val _ _ _ h, arr_val _ _ _ h]
    exact drude_pole_iff hdt (hp _ (List.getElem_mem h)) _ _ _
  have hamp : (∀ N : ℕ, N < m.poles.length → J' N = (Arr.ofList (m.poles.map (·.kappa dt))).val N * J N
        + (Arr.ofList (m.poles.map (·.beta dt))).val N * (E' + E)) →
      ((m.epsInf * (E' - E) / dt + ∑ N ∈ Finset.range m.poles.length, (J' N + J N) / 2 = curl) ↔
      E' = m.Ca dt * E + m.Cb dt * curl - m.Cb dt / 2 * ∑ M ∈ Finset.range m.poles.length,
        (1 + (Arr.ofList (m.poles.map (·.kappa dt))).val M) * J M) := by
    intro hJ
    have hden := drude_den_pos hdt he hp
    have hs : ∑ N ∈ Finset.range m.poles.length, (J' N + J N) / 2 = (∑ M ∈ Finset.range m.poles.length,
        (1 + (Arr.ofList (m.poles.map (·.kappa dt))).val M) * J M) / 2
        + (∑ N ∈ Finset.range m.poles.length, (Arr.ofList (m.poles.map (·.beta dt))).val N) / 2 * (E' + E) := by
      rw [Finset.sum_div, Finset.sum_div, Finset.sum_mul, ← Finset.sum_add_distrib]
      refine Finset.sum_congr rfl fun N hN => ?_
      rw [hJ N (Finset.mem_range.mp hN)]; ring
    rw [hs]
    simp only [Drude.Ca, Drude.Cb, arr_sum, ofInt_real]
    push_cast
    generalize (∑ N ∈ Finset.range m.poles.length, (Arr.ofList (m.poles.map (·.beta dt))).val N) = B at hden ⊢
    generalize (∑ M ∈ Finset.range m.poles.length, (1 + (Arr.ofList (m.poles.map (·.kappa dt))).val M) * J M) = S
    obtain ⟨D, hD⟩ : ∃ D, D = 2 * m.epsInf + dt * B := ⟨_, rfl⟩
    obtain rfl : B = (D - 2 * m.epsInf) / dt := by rw [hD]; field_simp; ring
    have hne : D ≠ 0 := by rw [hD]; exact hden.ne'
    rw [← hD]
    field_simp
    constructor <;> intro h <;> linarith
  constructor
  · intro h
    have := hpole.mp h.pole
    exact ⟨(hamp this).mp h.ampere, this⟩
  · rintro ⟨h1, h2⟩
    exact ⟨(hamp h2).mpr h1, hpole.mpr h2⟩

/-! ## Lorentz -/

theorem lorentz_pole_iff {p : LorentzPole ℝ} {dt : ℝ} (hdt : 0 < dt) (hg : 0 ≤ p.gamma) (x Jp J J' : ℝ) :
    (J' - 2 * J + Jp) / dt ^ 2 + 2 * p.gamma * (J' - Jp) / (2 * dt) + p.omega ^ 2 * J = p.dEps * p.omega ^ 2 * x / (2 * dt) ↔
      J' = p.alpha dt * J + p.beta dt * Jp + p.delta dt / (2 * dt) * x := by
  have h2 : 1 + p.gamma * dt ≠ 0 := by positivity
  have h3 : p.gamma * dt + 1 = 1 + p.gamma * dt := by ring
  simp only [LorentzPole.alpha, LorentzPole.beta, LorentzPole.delta, ofInt_real, npow_real, h3]
  push_cast
  field_simp
  constructor <;> intro h <;> linarith

theorem lorentz_delta_nonneg {p : LorentzPole ℝ} {dt : ℝ} (hdt : 0 < dt) (hg : 0 ≤ p.gamma) (hd : 0 ≤ p.dEps) : 0 ≤ p.delta dt := by
  simp only [LorentzPole.delta, ofInt_real, npow_real]; positivity

theorem lorentz_sum_nonneg {m : Lorentz ℝ} {dt : ℝ} (hdt : 0 < dt) (hp : ∀ p ∈ m.poles, 0 ≤ p.gamma ∧ 0 ≤ p.dEps) :
    0 ≤ ∑ N ∈ Finset.range m.poles.length, (Arr.ofList (m.poles.map (·.delta dt))).val N := by
  refine Finset.sum_nonneg fun N hN => ?_
  rw [arr_val _ _ _ (Finset.mem_range.mp hN)]
  obtain ⟨h1, h2⟩ := hp _ (List.getElem_mem (Finset.mem_range.mp hN))
  exact lorentz_delta_nonneg hdt h1 h2

/-- The coefficient of the field two steps back that the discretised equations require. -/
noncomputable def Lorentz.CaPrevExact (m : Lorentz ℝ) (dt : ℝ) : ℝ :=
  (sumL (m.poles.map (·.delta dt)) / 2) / (2 * m.epsInf + sumL (m.poles.map (·.delta dt)) / 2)

theorem lorentzLaw_iff {m : Lorentz ℝ} {dt : ℝ} (hdt : 0 < dt) (he : 0 < m.epsInf) (hp : ∀ p ∈ m.poles, 0 ≤ p.gamma ∧ 0 ≤ p.dEps)
    (Ep E E' curl : ℝ) (Jp J J' : ℕ → ℝ) : LorentzLaw m dt Ep E E' curl Jp J J' ↔
      E' = m.Ca dt * E + m.Cb dt * curl + m.CaPrevExact dt * Ep - m.Cb dt / 2 * ∑ M ∈ Finset.range m.poles.length,
        ((1 + (Arr.ofList (m.poles.map (·.alpha dt))).val M) * J M + (Arr.ofList (m.poles.map (·.beta dt))).val M * Jp M) ∧
      ∀ N : ℕ, N < m.poles.length → J' N = (Arr.ofList (m.poles.map (·.alpha dt))).val N * J N
        + (Arr.ofList (m.poles.map (·.beta dt))).val N * Jp N
        + (Arr.ofList (m.poles.map (·.delta dt))).val N / (2 * dt) * (E' - Ep) := by
  have hpole : (∀ (N : ℕ) (h : N < m.poles.length),
      (J' N - 2 * J N + Jp N) / dt ^ 2 + 2 * m.poles[N].gamma * (J' N - Jp N) / (2 * dt) + m.poles[N].omega ^ 2 * J N
      = m.poles[N].dEps * m.poles[N].omega ^ 2 * (E' - Ep) / (2 * dt)) ↔
      ∀ N : ℕ, N < m.poles.length → J' N = (Arr.ofList (m.poles.map (·.alpha dt))).val N * J N
        + (Arr.ofList (m.poles.map (·.beta dt))).val N * Jp N
        + (Arr.ofList (m.poles.map (·.delta dt))).val N / (2 * dt) * (E' - Ep) := by
    refine forall_congr' fun N => forall_congr' fun h => ?_
    rw [arr_val _ _ _ h, arr_val _ _ _ h, arr_val _ _ _ h]
    exact lorentz_pole_iff hdt (hp _ (List.getElem_mem h)).1 _ _ _ _
  have hamp : (∀ N : ℕ, N < m.poles.length → J' N = (Arr.ofList (m.poles.map (·.alpha dt))).val N * J N
        + (Arr.ofList (m.poles.map (·.beta dt))).val N * Jp N
        + (Arr.ofList (m.poles.map (·.delta dt))).val N / (2 * dt) * (E' - Ep)) →
      ((m.epsInf * (E' - E) / dt + ∑ N ∈ Finset.range m.poles.length, (J' N + J N) / 2 = curl) ↔
      E' = m.Ca dt * E + m.Cb dt * curl + m.CaPrevExact dt * Ep - m.Cb dt / 2 * ∑ M ∈ Finset.range m.poles.length,
        ((1 + (Arr.ofList (m.poles.map (·.alpha dt))).val M) * J M + (Arr.ofList (m.poles.map (·.beta dt))).val M * Jp M)) := by
    intro hJ
    have hsum := lorentz_sum_nonneg (m := m) hdt hp
    have hs : ∑ N ∈ Finset.range m.poles.length, (J' N + J N) / 2 = (∑ M ∈ Finset.range m.poles.length,
        ((1 + (Arr.ofList (m.poles.map (·.alpha dt))).val M) * J M + (Arr.ofList (m.poles.map (·.beta dt))).val M * Jp M)) / 2
        + (∑ N ∈ Finset.range m.poles.length, (Arr.ofList (m.poles.map (·.delta dt))).val N) / (4 * dt) * (E' - Ep) := by
      rw [Finset.sum_div, Finset.sum_div, Finset.sum_mul, ← Finset.sum_add_distrib]
      refine Finset.sum_congr rfl fun N hN => ?_
      rw [hJ N (Finset.mem_range.mp hN)]; field_simp; ring
    rw [hs]
    simp only [Lorentz.Ca, Lorentz.Cb, Lorentz.CaPrevExact, arr_sum, ofInt_real]
    push_cast
    generalize (∑ N ∈ Finset.range m.poles.length, (Arr.ofList (m.poles.map (·.delta dt))).val N) = B at hsum ⊢
    generalize (∑ M ∈ Finset.range m.poles.length, ((1 + (Arr.ofList (m.poles.map (·.alpha dt))).val M) * J M
      + (Arr.ofList (m.poles.map (·.beta dt))).val M * Jp M)) = S
    have h4 : 4 * m.epsInf + B ≠ 0 := by positivity
    have e : 2 * m.epsInf + B / 2 = (4 * m.epsInf + B) / 2 := by ring
    rw [e]
    field_simp
    constructor <;> intro h <;> linarith
  constructor
  · intro h
    have := hpole.mp h.pole
    exact ⟨(hamp this).mp h.ampere, this⟩
  · rintro ⟨h1, h2⟩
    exact ⟨(hamp h2).mpr h1, hpole.mpr h2⟩

end Qbox
