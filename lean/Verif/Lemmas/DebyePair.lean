import Verif.Spec.DispersiveSpec
import Mathlib.Tactic.LinearCombination
import Mathlib.Tactic.FieldSimp

/-! # Two Debye poles, one after the other -/

namespace Qbox.Props
open Qbox Scalar Spec

/-- Physical parameters. -/
structure PairGood (w : DebyePair) : Prop where
  eps : 0 < w.eps
  tp : 0 < w.p.tau
  tq : 0 < w.q.tau
  dp : 0 < w.p.dEps
  dq : 0 < w.q.dEps
  dt : 0 < w.dt

theorem pole_beta {p : DebyePole ℝ} {dt : ℝ} (h : 0 < p.tau) (hd : 0 < dt) : p.beta dt * (2 * p.tau + dt) = 2 * p.dEps * dt := by
  simp only [DebyePole.beta, ofInt_real]
  push_cast
  have : 1 + dt / (2 * p.tau) ≠ 0 := by positivity
  field_simp

theorem pole_kappa {p : DebyePole ℝ} {dt : ℝ} (h : 0 < p.tau) (hd : 0 < dt) : p.kappa dt * (2 * p.tau + dt) = 2 * p.tau - dt := by
  simp only [DebyePole.kappa, ofInt_real]
  push_cast
  have : 1 + dt / (2 * p.tau) ≠ 0 := by positivity
  field_simp

theorem pole_beta_pos {p : DebyePole ℝ} {dt : ℝ} (h : 0 < p.tau) (h2 : 0 < p.dEps) (hd : 0 < dt) : 0 < p.beta dt := by
  simp only [DebyePole.beta, ofInt_real]
  push_cast
  positivity

theorem pair_signs {w : DebyePair} (h : PairGood w) : 0 < w.p.beta w.dt ∧ 0 < w.q.beta w.dt ∧ 0 < w.D ∧ 0 < w.gamma ∧ 0 < w.alpha ∧ 0 < w.eta ∧ 0 < w.extra ∧
    0 < w.A ∧ 0 < w.b ∧ 0 < w.a ∧ 0 < w.c := by
  have bp := pole_beta_pos h.tp h.dp h.dt
  have bq := pole_beta_pos h.tq h.dq h.dt
  have he := h.eps
  have D : 0 < w.D := by unfold DebyePair.D; positivity
  have g : 0 < w.gamma := by unfold DebyePair.gamma; positivity
  have al : 0 < w.alpha := by
    unfold DebyePair.alpha
    rw [sub_pos, div_lt_one D]
    unfold DebyePair.D; linarith
  have et : 0 < w.eta := by
    unfold DebyePair.eta
    rw [sub_pos, div_lt_one D]
    unfold DebyePair.D; linarith
  have ex : 0 < w.extra := by unfold DebyePair.extra; positivity
  have := h.tp; have := h.tq; have := h.dp; have := h.dq
  have A : 0 < w.A := by unfold DebyePair.A; positivity
  have b : 0 < w.b := by unfold DebyePair.b; positivity
  exact ⟨bp, bq, D, g, al, et, ex, A, b, by unfold DebyePair.a; positivity, by unfold DebyePair.c; positivity⟩

theorem pair_nonneg {w : DebyePair} (h : PairGood w) (E J1 J2 : ℝ) : 0 ≤ w.store E J1 J2 := by
  obtain ⟨bp, bq, D, g, al, et, ex, A, b, a, c⟩ := pair_signs h
  unfold DebyePair.store
  generalize w.P1 E J1 J2 = x
  generalize w.P2 E J2 = y
  have k1 : w.a * (w.p.dEps * w.A) = 1 + w.b * w.q.dEps := by
    unfold DebyePair.a; rw [div_mul_cancel₀]; exact (mul_pos h.dp A).ne'
  have k2 : w.c * w.q.dEps = w.eta + w.b * (w.p.dEps * w.A) := by
    unfold DebyePair.c; rw [div_mul_cancel₀]; exact h.dq.ne'
  have s : w.b ^ 2 ≤ w.a * w.c := by
    have e : (w.a * w.c) * (w.p.dEps * w.A * w.q.dEps) = (1 + w.b * w.q.dEps) * (w.eta + w.b * (w.p.dEps * w.A)) := by rw [← k1, ← k2]; ring
    have pos : 0 < w.p.dEps * w.A * w.q.dEps := mul_pos (mul_pos h.dp A) h.dq
    have : w.b ^ 2 * (w.p.dEps * w.A * w.q.dEps) ≤ (w.a * w.c) * (w.p.dEps * w.A * w.q.dEps) := by
      rw [e]
      have : 0 ≤ w.eta + w.b * (w.p.dEps * w.A) + w.b * w.q.dEps * w.eta := by have := h.dp; have := h.dq; positivity
      linarith
    exact le_of_mul_le_mul_right this pos
  have q : 0 ≤ w.a * (w.a * x ^ 2 - 2 * w.b * (x * y) + w.c * y ^ 2) := by
    have e : w.a * (w.a * x ^ 2 - 2 * w.b * (x * y) + w.c * y ^ 2) = (w.a * x - w.b * y) ^ 2 + (w.a * w.c - w.b ^ 2) * y ^ 2 := by ring
    rw [e]
    have := mul_nonneg (sub_nonneg.mpr s) (sq_nonneg y)
    have := sq_nonneg (w.a * x - w.b * y)
    linarith
  have q' := nonneg_of_mul_nonneg_right q a
  have := mul_nonneg ex.le (sq_nonneg E)
  linarith

/-- One step of the two poles: the work of the field on them is stored or lost. -/
theorem pair_work {w : DebyePair} (h : PairGood w) {E E' J1 J2 J1' J2' curl : ℝ}
    (hE : E' = E + 2 * w.dt / w.D * curl - 2 * w.dt / w.D / 2 * ((1 + w.p.kappa w.dt) * J1 + (1 + w.q.kappa w.dt) * J2))
    (h1 : J1' = w.p.kappa w.dt * J1 + w.p.beta w.dt / w.dt * (E' - E + 2 * w.dt / w.D / 2 * ((1 + w.q.kappa w.dt) * J2)))
    (h2 : J2' = w.q.kappa w.dt * J2 + w.q.beta w.dt / w.dt * (E' - E)) :
    w.store E' J1' J2' - w.store E J1 J2 ≤ w.dt * ((curl - w.eps * (E' - E) / w.dt) * ((E + E') / 2)) := by
  obtain ⟨bp, bq, D, g, al, et, ex, A, b, a, c⟩ := pair_signs h
  have kp := pole_kappa h.tp h.dt
  have kq := pole_kappa h.tq h.dt
  have ep := pole_beta h.tp h.dt
  have eq := pole_beta h.tq h.dt
  have hd := h.dt
  have tp := h.tp
  have tq := h.tq
  -- the second pole
  have P2' : w.P2 E' J2' - w.P2 E J2 = w.dt * ((J2' + J2) / 2) := by
    unfold DebyePair.P2
    have : (2 * w.q.tau + w.dt) * J2' = (2 * w.q.tau - w.dt) * J2 + 2 * w.q.dEps * (E' - E) := by
      rw [h2, mul_add, ← mul_assoc, mul_comm _ (w.q.kappa w.dt), kq, ← mul_assoc, ← mul_div_assoc, mul_comm _ (w.q.beta w.dt), eq]
      field_simp
    linarith
  have s2 : 2 * w.dt / w.D / 2 * ((1 + w.q.kappa w.dt) * J2) = w.gamma * (w.P2 E' J2' - w.P2 E J2) - w.q.beta w.dt / w.D * (E' - E) := by
    rw [P2', h2]; unfold DebyePair.gamma
    field_simp
    ring
  have dr : E' - E + 2 * w.dt / w.D / 2 * ((1 + w.q.kappa w.dt) * J2) = w.alpha * (E' - E) + w.gamma * (w.P2 E' J2' - w.P2 E J2) := by
    rw [s2]; unfold DebyePair.alpha; ring
  rw [dr] at h1
  have P1' : w.P1 E' J1' J2' - w.P1 E J1 J2 = w.dt * ((J1' + J1) / 2) := by
    unfold DebyePair.P1
    have : (2 * w.p.tau + w.dt) * J1' = (2 * w.p.tau - w.dt) * J1 + 2 * w.p.dEps * (w.alpha * (E' - E) + w.gamma * (w.P2 E' J2' - w.P2 E J2)) := by
      rw [h1, mul_add, ← mul_assoc, mul_comm _ (w.p.kappa w.dt), kp, ← mul_assoc, ← mul_div_assoc, mul_comm _ (w.p.beta w.dt), ep]
      field_simp
    linarith
  have cur : w.dt * (curl - w.eps * (E' - E) / w.dt) = w.extra * (E' - E) + w.eta * (w.P2 E' J2' - w.P2 E J2) + (w.P1 E' J1' J2' - w.P1 E J1 J2) := by
    have k1 : (1 + w.p.kappa w.dt) * J1 = J1' + J1 - w.p.beta w.dt / w.dt * (w.alpha * (E' - E) + w.gamma * (w.P2 E' J2' - w.P2 E J2)) := by rw [h1]; ring
    have k2 : (1 + w.q.kappa w.dt) * J2 = J2' + J2 - w.q.beta w.dt / w.dt * (E' - E) := by rw [h2]; ring
    rw [k1, k2] at hE
    rw [P1']
    have m1 : w.dt * ((J2' + J2) / 2) = w.P2 E' J2' - w.P2 E J2 := P2'.symm
    have e : curl = w.D / (2 * w.dt) * (E' - E) + (J1' + J1 - w.p.beta w.dt / w.dt * (w.alpha * (E' - E) + w.gamma * (w.P2 E' J2' - w.P2 E J2))
        + (J2' + J2 - w.q.beta w.dt / w.dt * (E' - E))) / 2 := by
      have : E' - E = 2 * w.dt / w.D * (curl - (J1' + J1 - w.p.beta w.dt / w.dt * (w.alpha * (E' - E) + w.gamma * (w.P2 E' J2' - w.P2 E J2))
        + (J2' + J2 - w.q.beta w.dt / w.dt * (E' - E))) / 2) := by linarith
      have : w.D / (2 * w.dt) * (E' - E) = curl - (J1' + J1 - w.p.beta w.dt / w.dt * (w.alpha * (E' - E) + w.gamma * (w.P2 E' J2' - w.P2 E J2))
        + (J2' + J2 - w.q.beta w.dt / w.dt * (E' - E))) / 2 := by
        rw [this, ← mul_assoc, show w.D / (2 * w.dt) * (2 * w.dt / w.D) = 1 by field_simp, one_mul]
        rw [← this]
      linarith
    rw [e]
    generalize w.P2 E' J2' - w.P2 E J2 = d2 at *
    unfold DebyePair.extra DebyePair.eta DebyePair.alpha DebyePair.gamma
    have : J2' + J2 = 2 * d2 / w.dt := by rw [← m1]; field_simp
    rw [this]
    have hD : w.D = 2 * w.eps + w.p.beta w.dt + w.q.beta w.dt := rfl
    have hne := D.ne'
    field_simp
    rw [hD]
    ring
  have k1 : w.a * (w.p.dEps * w.A) = 1 + w.b * w.q.dEps := by
    unfold DebyePair.a; rw [div_mul_cancel₀]; exact (mul_pos h.dp A).ne'
  have k2 : w.c * w.q.dEps = w.eta + w.b * (w.p.dEps * w.A) := by
    unfold DebyePair.c; rw [div_mul_cancel₀]; exact h.dq.ne'
  have k3 : w.b * (w.p.tau * w.A + w.q.tau * w.alpha) = w.gamma * w.q.tau := by
    unfold DebyePair.b; rw [div_mul_cancel₀]; positivity
  -- midpoints
  have m2 : w.q.tau * ((J2' + J2) / 2) = w.q.dEps * ((E + E') / 2) - (w.P2 E' J2' + w.P2 E J2) / 2 := by unfold DebyePair.P2; ring
  have m1 : w.p.tau * ((J1' + J1) / 2) = w.p.dEps * (w.alpha * ((E + E') / 2) + w.gamma * ((w.P2 E' J2' + w.P2 E J2) / 2)) - (w.P1 E' J1' J2' + w.P1 E J1 J2) / 2 := by
    unfold DebyePair.P1; ring
  rw [show w.dt * ((curl - w.eps * (E' - E) / w.dt) * ((E + E') / 2)) = (w.dt * (curl - w.eps * (E' - E) / w.dt)) * ((E + E') / 2) by ring, cur]
  have st : w.store E' J1' J2' - w.store E J1 J2 = w.extra * (E' - E) * ((E + E') / 2)
      + w.a * ((w.P1 E' J1' J2' - w.P1 E J1 J2) * ((w.P1 E' J1' J2' + w.P1 E J1 J2) / 2))
      - w.b * ((w.P1 E' J1' J2' - w.P1 E J1 J2) * ((w.P2 E' J2' + w.P2 E J2) / 2) + (w.P2 E' J2' - w.P2 E J2) * ((w.P1 E' J1' J2' + w.P1 E J1 J2) / 2))
      + w.c * ((w.P2 E' J2' - w.P2 E J2) * ((w.P2 E' J2' + w.P2 E J2) / 2)) := by
    unfold DebyePair.store; ring
  rw [st]
  -- dissipation
  generalize (J1' + J1) / 2 = u at *
  generalize (J2' + J2) / 2 = v at *
  generalize (w.P1 E' J1' J2' + w.P1 E J1 J2) / 2 = x at *
  generalize (w.P2 E' J2' + w.P2 E J2) / 2 = y at *
  rw [P1', P2']
  generalize (E + E') / 2 = e at *
  obtain rfl : y = w.q.dEps * e - w.q.tau * v := by linarith
  obtain rfl : x = w.p.dEps * (w.alpha * e + w.gamma * (w.q.dEps * e - w.q.tau * v)) - w.p.tau * u := by linarith
  have hA : w.A = w.alpha + w.gamma * w.q.dEps := rfl
  have p : 0 ≤ w.dt * (w.a * w.p.tau * u ^ 2 + w.q.tau * (w.c - w.b * (w.p.dEps * w.gamma)) * v ^ 2) := by
    have cc : 0 ≤ w.c - w.b * (w.p.dEps * w.gamma) := by
      have : 0 ≤ (w.c - w.b * (w.p.dEps * w.gamma)) * w.q.dEps := by
        rw [sub_mul, k2, hA]
        have : 0 ≤ w.eta + w.b * (w.p.dEps * w.alpha) := by have := h.dp; positivity
        linarith
      exact nonneg_of_mul_nonneg_left this h.dq
    positivity
  have x0 : w.a * (w.p.dEps * (w.gamma * w.q.tau)) = w.b * (w.p.tau + w.q.tau) := by
    have : w.a * (w.p.dEps * (w.gamma * w.q.tau)) * w.A = w.b * (w.p.tau + w.q.tau) * w.A := by
      rw [show w.a * (w.p.dEps * (w.gamma * w.q.tau)) * w.A = w.a * (w.p.dEps * w.A) * (w.gamma * w.q.tau) by ring, k1]
      rw [hA] at k3 ⊢
      linear_combination (-1 : ℝ) * k3
    exact mul_right_cancel₀ A.ne' this
  rw [hA] at k1 k2
  have key : (w.extra * (E' - E) + w.eta * (w.dt * v) + w.dt * u) * e - (w.extra * (E' - E) * e
      + w.a * (w.dt * u * (w.p.dEps * (w.alpha * e + w.gamma * (w.q.dEps * e - w.q.tau * v)) - w.p.tau * u))
      - w.b * (w.dt * u * (w.q.dEps * e - w.q.tau * v) + w.dt * v * (w.p.dEps * (w.alpha * e + w.gamma * (w.q.dEps * e - w.q.tau * v)) - w.p.tau * u))
      + w.c * (w.dt * v * (w.q.dEps * e - w.q.tau * v))) = w.dt * (w.a * w.p.tau * u ^ 2 + w.q.tau * (w.c - w.b * (w.p.dEps * w.gamma)) * v ^ 2) := by
    linear_combination (-w.dt * e * u) * k1 + (-w.dt * e * v) * k2 + w.dt * u * v * x0
  linarith

/-- The energy while no charge moves is the one of a medium with the static permittivity. -/
theorem pair_rest {w : DebyePair} (h : PairGood w) (E : ℝ) : w.eps * E ^ 2 / 2 + w.store E 0 0 = w.static * E ^ 2 / 2 := by
  obtain ⟨-, -, -, -, -, -, -, hA, -, -, -⟩ := pair_signs h
  have hp := h.dp
  have hq := h.dq
  have ka : w.a * (w.p.dEps * w.A) = 1 + w.b * w.q.dEps := by unfold DebyePair.a; field_simp
  have kc : w.c * w.q.dEps = w.eta + w.b * (w.p.dEps * w.A) := by unfold DebyePair.c; field_simp
  have e2 : w.P2 E 0 = w.q.dEps * E := by unfold DebyePair.P2; ring
  have e1 : w.P1 E 0 0 = w.p.dEps * w.A * E := by unfold DebyePair.P1 DebyePair.A; rw [e2]; ring
  unfold DebyePair.store DebyePair.static
  rw [e1, e2]
  linear_combination (w.p.dEps * w.A * E ^ 2 / 2) * ka + (w.q.dEps * E ^ 2 / 2) * kc

end Qbox.Props
