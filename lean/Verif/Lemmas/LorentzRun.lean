import Verif.Spec.LorentzWaveSpec
import Verif.Lemmas.LorentzStep
import Verif.Props.PolarProps

/-! # Errors of a program with a Lorentz medium -/

namespace Qbox
open Scalar Spec Props

/-- The root of the integral of the square. -/
noncomputable def l2 (g : Grid ℝ) (F : ℤ → ℤ → ℝ) : ℝ := Real.sqrt (g.dx ^ 2 * (updatedNodes g).sum fun i j => F i j ^ 2)

theorem l2_nonneg (g : Grid ℝ) (F : ℤ → ℤ → ℝ) : 0 ≤ l2 g F := Real.sqrt_nonneg _

theorem l2_sq (g : Grid ℝ) (F : ℤ → ℤ → ℝ) : l2 g F ^ 2 = g.dx ^ 2 * (updatedNodes g).sum fun i j => F i j ^ 2 :=
  Real.sq_sqrt (mul_nonneg (sq_nonneg _) (Box.sum_nonneg _ fun _ _ _ => sq_nonneg _))

theorem l2_add (g : Grid ℝ) (F G : ℤ → ℤ → ℝ) : l2 g (fun i j => F i j + G i j) ≤ l2 g F + l2 g G := by
  have t := sqrt_sum_triangle (updatedNodes g) F (fun _ _ => 0) (fun _ _ => 0) G (fun _ _ => 0) (fun _ _ => 0)
  unfold l2
  rw [Real.sqrt_mul (sq_nonneg _), Real.sqrt_mul (sq_nonneg _), Real.sqrt_mul (sq_nonneg _), ← mul_add]
  refine mul_le_mul_of_nonneg_left ?_ (Real.sqrt_nonneg _)
  simpa using t

theorem l2_mono {g : Grid ℝ} {F G : ℤ → ℤ → ℝ} (h : ∀ i j, (updatedNodes g).Mem i j → F i j ^ 2 ≤ G i j ^ 2) : l2 g F ≤ l2 g G :=
  Real.sqrt_le_sqrt (mul_le_mul_of_nonneg_left (Box.sum_le _ h) (sq_nonneg _))

theorem l2_congr {g : Grid ℝ} {F G : ℤ → ℤ → ℝ} (h : ∀ i j, (updatedNodes g).Mem i j → F i j = G i j) : l2 g F = l2 g G :=
  le_antisymm (l2_mono fun i j hm => by rw [h i j hm]) (l2_mono fun i j hm => by rw [h i j hm])

theorem l2_mul (g : Grid ℝ) {k : ℝ} (hk : 0 ≤ k) (F : ℤ → ℤ → ℝ) : l2 g (fun i j => k * F i j) = k * l2 g F := by
  unfold l2
  have : (updatedNodes g).sum (fun i j => (k * F i j) ^ 2) = k ^ 2 * (updatedNodes g).sum fun i j => F i j ^ 2 := by
    rw [← Box.sum_mul]
    exact Box.sum_congr _ fun i j _ => mul_pow ..
  rw [this, show g.dx ^ 2 * (k ^ 2 * (updatedNodes g).sum fun i j => F i j ^ 2) = k ^ 2 * (g.dx ^ 2 * (updatedNodes g).sum fun i j => F i j ^ 2) by ring,
    Real.sqrt_mul (sq_nonneg _), Real.sqrt_sq hk]

theorem l2_const {g : Grid ℝ} (hw : g.Wide) (hl : Lawful g) (hT : g.T = 0) {M : ℝ} (hM : 0 ≤ M) {F : ℤ → ℤ → ℝ}
    (h : ∀ i j, (updatedNodes g).Mem i j → |F i j| ≤ M) : l2 g F ≤ M * Real.sqrt (g.Lx * g.Ly) := by
  unfold l2
  rw [← Real.sqrt_sq hM, ← Real.sqrt_mul (sq_nonneg _)]
  refine Real.sqrt_le_sqrt ?_
  have a : (updatedNodes g).sum (fun i j => F i j ^ 2) ≤ (updatedNodes g).sum fun _ _ => M ^ 2 * 1 :=
    Box.sum_le _ fun i j hm => by
      have := h i j hm
      rw [mul_one]
      exact sq_le_sq' (abs_le.mp this).1 (abs_le.mp this).2
  rw [Box.sum_mul] at a
  have b := mul_le_mul_of_nonneg_left a (sq_nonneg g.dx)
  have c := mul_le_mul_of_nonneg_left (count_area hw hl hT) (sq_nonneg M)
  unfold Box.count at c
  refine b.trans (le_trans (le_of_eq ?_) c)
  ring

/-- How much the field before the last step enters. -/
theorem leakage_le {med : ℤ → ℤ → Simple ℝ} {inn : ℤ → ℤ → Prop} {e epsMax sigMax dt : ℝ} {p : LorentzPole ℝ} (hp : p.Sound) (hd : 0 < dt) (he : 1 ≤ e) {i j : ℤ}
    (h : 1 ≤ (med i j).eps ∧ (med i j).eps ≤ epsMax ∧ 0 ≤ (med i j).conduc ∧ (med i j).conduc ≤ sigMax) :
    |leakage med inn e p dt i j| ≤ leakRate p epsMax sigMax dt := by
  obtain ⟨h1, h2, h3, h4⟩ := h
  have hs : 0 < p.dEps * p.omega ^ 2 := by
    have := hp.omega
    have := hp.dEps
    positivity
  have d0 := delta_pos hp hd
  have d1 : p.delta dt ≤ p.dEps * p.omega ^ 2 * dt ^ 2 := by
    simp only [LorentzPole.delta, npow_real]
    exact div_le_self (by positivity) (by have := mul_nonneg hp.gamma hd.le; linarith)
  unfold leakRate leakage
  set s := p.dEps * p.omega ^ 2
  set δ := p.delta dt
  have kb : δ / 2 / (2 * e + δ) ≤ s * dt ^ 2 / 4 := by
    rw [div_le_iff₀ (by linarith)]
    nlinarith [mul_nonneg hs.le (sq_nonneg dt)]
  have k0 : 0 ≤ δ / 2 / (2 * e + δ) := by positivity
  have t1 : 0 ≤ s * dt * epsMax := by have : 0 ≤ epsMax := by linarith
                                      positivity
  have t2 : 0 ≤ s * dt * (sigMax * dt) := by have : 0 ≤ sigMax := by linarith
                                             positivity
  have t3 : 0 ≤ s * dt * (s * dt ^ 2) := by positivity
  split
  · have e1 : (e / dt + δ / (4 * dt)) * (δ / 2 / (2 * e + δ)) - δ / (4 * dt) = - (δ / (4 * dt) * (δ / 2 / (2 * e + δ))) := by
      have : 2 * e + δ ≠ 0 := by positivity
      field_simp
      ring
    rw [e1, abs_neg, abs_of_nonneg (by positivity)]
    have e2 : δ / (4 * dt) ≤ s * dt / 4 := by
      rw [div_le_div_iff₀ (by positivity) (by norm_num)]
      nlinarith
    have := mul_le_mul e2 kb k0 (by positivity)
    refine this.trans ?_
    nlinarith
  · have e0 : 0 ≤ (med i j).eps / dt + (med i j).conduc / 2 := by positivity
    rw [abs_of_nonneg (mul_nonneg e0 k0)]
    have e2 : (med i j).eps / dt + (med i j).conduc / 2 ≤ epsMax / dt + sigMax / 2 := by
      have := div_le_div_of_nonneg_right h2 hd.le
      linarith
    have := mul_le_mul e2 kb k0 (by have := div_nonneg (by linarith : (0:ℝ) ≤ epsMax) hd.le; linarith)
    refine this.trans ?_
    have e3 : (epsMax / dt + sigMax / 2) * (s * dt ^ 2 / 4) = s * dt * epsMax / 4 + s * dt * (sigMax * dt) / 8 := by field_simp; ring
    rw [e3]
    nlinarith

/-- A wave that solves the equations of the media of a closed domain. -/
structure Swung (w : Spec.Wave) (S : ℝ → ℝ → Prop) (g : Grid ℝ) (τ M : ℝ) (eps sig : ℝ → ℝ → ℝ) (Pw K Kt I : ℝ → ℝ → ℝ → ℝ) (inside : ℝ → ℝ → Prop)
    (med : ℤ → ℤ → Simple ℝ) (inn : ℤ → ℤ → Prop) (e : ℝ) (p : LorentzPole ℝ) (epsMax sigMax : ℝ) : Prop where
  wide : g.Wide
  lawful : Lawful g
  layer : g.T = 0
  walls : w.Walls g τ
  smooth : w.Smooth S g τ M
  steady : w.Steady g τ M
  driven : w.Driven S eps sig (fun t x y => K t x y + I t x y) g τ
  current : CurrentAtMost I g τ M
  swing : w.Swinging Pw K Kt S inside p g τ M
  sound : p.Sound
  e1 : 1 ≤ e
  eps1 : 1 ≤ epsMax
  sig0 : 0 ≤ sigMax
  med : ∀ i j, (updatedNodes g).Mem i j → (med i j).eps = eps (i * g.dx) (j * g.dx) ∧ (med i j).conduc = sig (i * g.dx) (j * g.dx) ∧
      1 ≤ (med i j).eps ∧ (med i j).eps ≤ epsMax ∧ 0 ≤ (med i j).conduc ∧ (med i j).conduc ≤ sigMax
  inn : ∀ i j, (updatedNodes g).Mem i j → (inn i j ↔ inside (i * g.dx) (j * g.dx))

open Classical in
/-- The difference of the polarizations. -/
noncomputable def polGap (g : Grid ℝ) (Pw : ℝ → ℝ → ℝ → ℝ) (inn : ℤ → ℤ → Prop) (p : LorentzPole ℝ) (m : ℕ) (c : Core ℝ) (P : LorentzPol ℝ) (pE : Tensor ℝ) (i j : ℤ) : ℝ :=
  if inn i j then displaced p g.dt (c.f.Ez.val i j) (pE.val i j) (P.J.val i j 0) (P.prevJ.val i j 0) - Pw ((m + 1 / 2) * g.dt) (i * g.dx) (j * g.dx) else 0

/-- After `m` steps the fields, the currents and the polarization differ from those of the wave by at most `X`. -/
structure Near (w : Spec.Wave) (g : Grid ℝ) (M : ℝ) (Pw K : ℝ → ℝ → ℝ → ℝ) (med : ℤ → ℤ → Simple ℝ) (inn : ℤ → ℤ → Prop) (p : LorentzPole ℝ) (m : ℕ) (c : Core ℝ)
    (P : LorentzPol ℝ) (pE : Tensor ℝ) (X : ℝ) (d : Flds ℝ) : Prop where
  mix : Mix 1 (-1) c.f (sampled w g m c.f) d
  field : Real.sqrt (ptotal g med (swingRes inn p) d (fun i j => P.J.val i j 0 - K (m * g.dt) (i * g.dx) (j * g.dx)) (updatedNodes g)) ≤ X
  pol : l2 g (polGap g Pw inn p m c P pE) / Real.sqrt p.dEps ≤ X
  last : l2 g (fun i j => pE.val i j) ≤ M * Real.sqrt (g.Lx * g.Ly) + 3 * X

theorem swingRes_passive {p : LorentzPole ℝ} (hp : p.Sound) (inn : ℤ → ℤ → Prop) (i j : ℤ) : (swingRes inn p i j).Passive := by
  have := Real.sqrt_pos.mpr hp.dEps
  unfold swingRes
  split
  · exact ⟨mul_nonneg zero_le_two hp.gamma, mul_ne_zero this.ne' hp.omega⟩
  · trivial

end Qbox
