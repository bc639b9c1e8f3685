import Verif.Lemmas.GridWindow
import Verif.Props.ResonanceProps

/-! # Plane waves (C89) -/

namespace Qbox.Props
open Qbox Scalar Spec

theorem cos_gap (u v : ℝ) : Real.cos (u - v) - Real.cos (u + v) = 2 * Real.sin u * Real.sin v := by
  rw [Real.cos_sub, Real.cos_add]; ring

/-- The time and space differences of a plane wave. -/
theorem planeWave_t (a kx ky w ph x y t d : ℝ) (hd : d ≠ 0) :
    planeWave a kx ky w ph x y (t + d) - planeWave a kx ky w ph x y t = d * cellNumber d w * (a * Real.sin (kx * x + ky * y - w * (t + d / 2) + ph)) := by
  have k := cos_gap (kx * x + ky * y - w * (t + d / 2) + ph) (w * d / 2)
  unfold planeWave cellNumber
  rw [show kx * x + ky * y - w * (t + d) + ph = kx * x + ky * y - w * (t + d / 2) + ph - w * d / 2 by ring,
    show kx * x + ky * y - w * t + ph = kx * x + ky * y - w * (t + d / 2) + ph + w * d / 2 by ring]
  rw [show d * (2 / d * Real.sin (w * d / 2)) = 2 * Real.sin (w * d / 2) by field_simp]
  linear_combination a * k

theorem planeWave_x (a kx ky w ph x y t d : ℝ) (hd : d ≠ 0) :
    planeWave a kx ky w ph (x + d) y t - planeWave a kx ky w ph x y t = -(d * cellNumber d kx * (a * Real.sin (kx * (x + d / 2) + ky * y - w * t + ph))) := by
  have k := cos_gap (kx * (x + d / 2) + ky * y - w * t + ph) (kx * d / 2)
  unfold planeWave cellNumber
  rw [show kx * (x + d) + ky * y - w * t + ph = kx * (x + d / 2) + ky * y - w * t + ph + kx * d / 2 by ring,
    show kx * x + ky * y - w * t + ph = kx * (x + d / 2) + ky * y - w * t + ph - kx * d / 2 by ring]
  rw [show d * (2 / d * Real.sin (kx * d / 2)) = 2 * Real.sin (kx * d / 2) by field_simp]
  linear_combination (-a) * k

theorem planeWave_y (a kx ky w ph x y t d : ℝ) (hd : d ≠ 0) :
    planeWave a kx ky w ph x (y + d) t - planeWave a kx ky w ph x y t = -(d * cellNumber d ky * (a * Real.sin (kx * x + ky * (y + d / 2) - w * t + ph))) := by
  have k := cos_gap (kx * x + ky * (y + d / 2) - w * t + ph) (ky * d / 2)
  unfold planeWave cellNumber
  rw [show kx * x + ky * (y + d) - w * t + ph = kx * x + ky * (y + d / 2) - w * t + ph + ky * d / 2 by ring,
    show kx * x + ky * y - w * t + ph = kx * x + ky * (y + d / 2) - w * t + ph - ky * d / 2 by ring]
  rw [show d * (2 / d * Real.sin (ky * d / 2)) = 2 * Real.sin (ky * d / 2) by field_simp]
  linear_combination (-a) * k

/-- The values of a plane wave at the nodes, `n` steps after `t0`. -/
noncomputable def waveE (g : Grid ℝ) (a kx ky w ph t0 : ℝ) (n : ℕ) (i j : ℤ) : ℝ := planeWave a kx ky w ph (i * g.dx) (j * g.dx) (t0 + n * g.dt)
noncomputable def waveX (g : Grid ℝ) (a kx ky w ph t0 : ℝ) (n : ℕ) (i j : ℤ) : ℝ :=
  cellNumber g.dx ky / cellNumber g.dt w * planeWave a kx ky w ph (i * g.dx) ((j + 1 / 2) * g.dx) (t0 + n * g.dt + g.dt / 2)
noncomputable def waveY (g : Grid ℝ) (a kx ky w ph t0 : ℝ) (n : ℕ) (i j : ℤ) : ℝ :=
  -(cellNumber g.dx kx / cellNumber g.dt w) * planeWave a kx ky w ph ((i + 1 / 2) * g.dx) (j * g.dx) (t0 + n * g.dt + g.dt / 2)

/-- Ampère's law for a plane wave. -/
theorem wave_ampere {g : Grid ℝ} (hx : g.dx ≠ 0) (hd : g.dt ≠ 0) {e kx ky w : ℝ} (h0 : cellNumber g.dt w ≠ 0)
    (disp : e * cellNumber g.dt w ^ 2 = cellNumber g.dx kx ^ 2 + cellNumber g.dx ky ^ 2) (a ph t0 : ℝ) (n : ℕ) (i j : ℤ) :
    e * (waveE g a kx ky w ph t0 (n + 1) i j - waveE g a kx ky w ph t0 n i j) / g.dt =
      (waveY g a kx ky w ph t0 n i j - waveY g a kx ky w ph t0 n (i - 1) j) / g.dx - (waveX g a kx ky w ph t0 n i j - waveX g a kx ky w ph t0 n i (j - 1)) / g.dx := by
  have kt := planeWave_t a kx ky w ph (i * g.dx) (j * g.dx) (t0 + n * g.dt) g.dt hd
  have kX := planeWave_x a kx ky w ph (((i - 1 : ℤ) + 1 / 2) * g.dx) (j * g.dx) (t0 + n * g.dt + g.dt / 2) g.dx hx
  have kY := planeWave_y a kx ky w ph (i * g.dx) (((j - 1 : ℤ) + 1 / 2) * g.dx) (t0 + n * g.dt + g.dt / 2) g.dx hx
  unfold waveE waveX waveY
  rw [show t0 + ((n + 1 : ℕ) : ℝ) * g.dt = t0 + n * g.dt + g.dt by push_cast; ring, kt]
  have ex : (((i - 1 : ℤ) : ℝ) + 1 / 2) * g.dx + g.dx = ((i : ℝ) + 1 / 2) * g.dx := by push_cast; ring
  have ey : (((j - 1 : ℤ) : ℝ) + 1 / 2) * g.dx + g.dx = ((j : ℝ) + 1 / 2) * g.dx := by push_cast; ring
  have mx : (((i - 1 : ℤ) : ℝ) + 1 / 2) * g.dx + g.dx / 2 = i * g.dx := by push_cast; ring
  have my : (((j - 1 : ℤ) : ℝ) + 1 / 2) * g.dx + g.dx / 2 = j * g.dx := by push_cast; ring
  rw [ex, mx] at kX
  rw [ey, my] at kY
  rw [← mul_sub, ← mul_sub, kX, kY]
  set s := a * Real.sin (kx * (i * g.dx) + ky * (j * g.dx) - w * (t0 + n * g.dt + g.dt / 2) + ph)
  have : e * (g.dt * cellNumber g.dt w * s) / g.dt = e * cellNumber g.dt w ^ 2 / cellNumber g.dt w * s := by field_simp
  rw [this, disp]
  field_simp
  ring

/-- Faraday's law for a plane wave. -/
theorem wave_faradayX {g : Grid ℝ} (hx : g.dx ≠ 0) (hd : g.dt ≠ 0) {kx ky w : ℝ} (h0 : cellNumber g.dt w ≠ 0) (a ph t0 : ℝ) (n : ℕ) (i j : ℤ) :
    waveX g a kx ky w ph t0 (n + 1) i j =
      waveX g a kx ky w ph t0 n i j - g.dt * ((waveE g a kx ky w ph t0 (n + 1) i (j + 1) - waveE g a kx ky w ph t0 (n + 1) i j) / g.dx) := by
  have kt := planeWave_t a kx ky w ph (i * g.dx) ((j + 1 / 2) * g.dx) (t0 + n * g.dt + g.dt / 2) g.dt hd
  have kY := planeWave_y a kx ky w ph (i * g.dx) (j * g.dx) (t0 + ((n + 1 : ℕ) : ℝ) * g.dt) g.dx hx
  unfold waveE waveX
  rw [show ((j + 1 : ℤ) : ℝ) * g.dx = j * g.dx + g.dx by push_cast; ring, kY]
  rw [show t0 + ((n + 1 : ℕ) : ℝ) * g.dt + g.dt / 2 = t0 + n * g.dt + g.dt / 2 + g.dt by push_cast; ring]
  have e1 : t0 + n * g.dt + g.dt / 2 + g.dt / 2 = t0 + ((n + 1 : ℕ) : ℝ) * g.dt := by push_cast; ring
  have e2 : ((j : ℝ) + 1 / 2) * g.dx = j * g.dx + g.dx / 2 := by ring
  rw [e1] at kt
  rw [sub_eq_iff_eq_add.mp kt, e2]
  field_simp
  ring

theorem wave_faradayY {g : Grid ℝ} (hx : g.dx ≠ 0) (hd : g.dt ≠ 0) {kx ky w : ℝ} (h0 : cellNumber g.dt w ≠ 0) (a ph t0 : ℝ) (n : ℕ) (i j : ℤ) :
    waveY g a kx ky w ph t0 (n + 1) i j =
      waveY g a kx ky w ph t0 n i j + g.dt * ((waveE g a kx ky w ph t0 (n + 1) (i + 1) j - waveE g a kx ky w ph t0 (n + 1) i j) / g.dx) := by
  have kt := planeWave_t a kx ky w ph ((i + 1 / 2) * g.dx) (j * g.dx) (t0 + n * g.dt + g.dt / 2) g.dt hd
  have kX := planeWave_x a kx ky w ph (i * g.dx) (j * g.dx) (t0 + ((n + 1 : ℕ) : ℝ) * g.dt) g.dx hx
  unfold waveE waveY
  rw [show ((i + 1 : ℤ) : ℝ) * g.dx = i * g.dx + g.dx by push_cast; ring, kX]
  rw [show t0 + ((n + 1 : ℕ) : ℝ) * g.dt + g.dt / 2 = t0 + n * g.dt + g.dt / 2 + g.dt by push_cast; ring]
  have e1 : t0 + n * g.dt + g.dt / 2 + g.dt / 2 = t0 + ((n + 1 : ℕ) : ℝ) * g.dt := by push_cast; ring
  have e2 : ((i : ℝ) + 1 / 2) * g.dx = i * g.dx + g.dx / 2 := by ring
  rw [e1] at kt
  rw [sub_eq_iff_eq_add.mp kt, e2]
  field_simp
  ring

theorem cellNumber_abs {d : ℝ} (hd : 0 < d) (k : ℝ) : cellNumber d k ^ 2 ≤ (2 / d) ^ 2 := by
  unfold cellNumber
  rw [mul_pow]
  have := Real.sin_sq_le_one (k * d / 2)
  nlinarith [sq_nonneg (2 / d)]

/-- The frequency on the grid solves the dispersion relation of the grid. -/
theorem wave_dispersion {g : Grid ℝ} (hl : Lawful g) {e : ℝ} (he : 1 ≤ e) (kx ky : ℝ) :
    cellNumber g.dt (waveFrequency g e kx ky) = Real.sqrt (cellNumber g.dx kx ^ 2 + cellNumber g.dx ky ^ 2) / Real.sqrt e := by
  have hx := hl.dx
  have hdt : 0 < g.dt := by rw [hl.dt]; positivity
  have se : 1 ≤ Real.sqrt e := Real.one_le_sqrt.mpr he
  set q := Real.sqrt (cellNumber g.dx kx ^ 2 + cellNumber g.dx ky ^ 2) with hq
  have q0 : 0 ≤ q := Real.sqrt_nonneg _
  have q1 : q ≤ 4 / g.dx := by
    rw [hq, Real.sqrt_le_left (by positivity)]
    have a := cellNumber_abs hx kx
    have b := cellNumber_abs hx ky
    have : (4 / g.dx) ^ 2 = 4 * (2 / g.dx) ^ 2 := by ring
    have := sq_nonneg (2 / g.dx)
    linarith
  have arg0 : 0 ≤ g.dt / 2 * (q / Real.sqrt e) := by positivity
  have arg1 : g.dt / 2 * (q / Real.sqrt e) ≤ 1 := by
    have : q / Real.sqrt e ≤ 4 / g.dx := (div_le_self q0 se).trans q1
    have h := mul_le_mul_of_nonneg_left this (by positivity : 0 ≤ g.dt / 2)
    rw [hl.dt] at h ⊢
    refine h.trans (le_of_eq ?_)
    field_simp
    norm_num
  unfold cellNumber waveFrequency
  rw [← hq, show 2 / g.dt * Real.arcsin (g.dt / 2 * (q / Real.sqrt e)) * g.dt / 2 = Real.arcsin (g.dt / 2 * (q / Real.sqrt e)) by field_simp,
    Real.sin_arcsin (by linarith) arg1]
  field_simp

theorem wave_solves {g : Grid ℝ} (hl : Lawful g) {med : ℤ → ℤ → Simple ℝ} {R : Box} {e : ℝ} (he : 1 ≤ e)
    (hm : ∀ i j, R.Mem i j → (med i j).eps = e ∧ (med i j).conduc = 0) {kx ky : ℝ} (hk : cellNumber g.dx kx ≠ 0 ∨ cellNumber g.dx ky ≠ 0) (a ph t0 : ℝ) :
    SolvesGrid g med R (waveE g a kx ky (waveFrequency g e kx ky) ph t0) (waveX g a kx ky (waveFrequency g e kx ky) ph t0)
      (waveY g a kx ky (waveFrequency g e kx ky) ph t0) := by
  have hx := hl.dx.ne'
  have hdt : g.dt ≠ 0 := by rw [hl.dt]; have := hl.dx; positivity
  have d := wave_dispersion hl he kx ky
  have e0 : 0 < e := by linarith
  have pos : 0 < cellNumber g.dx kx ^ 2 + cellNumber g.dx ky ^ 2 := by
    rcases hk with h | h
    · have := sq_nonneg (cellNumber g.dx ky); have := pow_pos (abs_pos.mpr h) 2; rw [sq_abs] at this; linarith
    · have := sq_nonneg (cellNumber g.dx kx); have := pow_pos (abs_pos.mpr h) 2; rw [sq_abs] at this; linarith
  have h0 : cellNumber g.dt (waveFrequency g e kx ky) ≠ 0 := by
    rw [d]
    exact (div_pos (Real.sqrt_pos.mpr pos) (Real.sqrt_pos.mpr e0)).ne'
  have disp : e * cellNumber g.dt (waveFrequency g e kx ky) ^ 2 = cellNumber g.dx kx ^ 2 + cellNumber g.dx ky ^ 2 := by
    rw [d, div_pow, Real.sq_sqrt pos.le, Real.sq_sqrt e0.le]
    field_simp
  refine ⟨fun n i j h => ?_, fun n i j _ => wave_faradayX hx hdt h0 a ph t0 n i j, fun n i j _ => wave_faradayY hx hdt h0 a ph t0 n i j⟩
  unfold ConductiveLaw
  rw [(hm i j h).1, (hm i j h).2, ← wave_ampere hx hdt h0 disp a ph t0 n i j]
  ring

/-- **C89**, the wave. In a rectangle beyond the absorbing layer filled with one dielectric, in which no source is, a plane wave of any direction, wavelength
and phase stays this plane wave after any number of updates, at all nodes that nothing from outside the rectangle has reached. Its frequency is
`waveFrequency`. -/
theorem C89_wave (n : ℕ) (c : Core ℝ) (hc : c.Std) (srcs : List (Source ℝ)) (hf : ∀ s ∈ srcs, Fits c.g s) (med : ℤ → ℤ → Simple ℝ) (R : Box)
    (hp : Passive c med R) (ht : c.tfsf = none) (hs : ∀ s ∈ srcs, Spec.Apart c.g R.Mem s) (e : ℝ)
    (hm : ∀ i j, R.Mem i j → (med i j).eps = e ∧ (med i j).conduc = 0) (he : 1 ≤ e) (a kx ky ph t0 : ℝ)
    (hk : cellNumber c.g.dx kx ≠ 0 ∨ cellNumber c.g.dx ky ≠ 0) (st : CarriesWave c.g a kx ky (waveFrequency c.g e kx ky) ph t0 c.f R) :
    ∃ c' srcs', c.run n srcs = .ok (c', srcs') ∧ (srcs = [] → srcs' = []) ∧ CarriesWave c.g a kx ky (waveFrequency c.g e kx ky) ph (t0 + n * c.g.dt) c'.f (R.shrink n) := by
  obtain ⟨c', l', u, z, k⟩ := window_run n hc srcs hf hp ht hs (wave_solves hc.law he hm hk a ph t0)
    ⟨fun i j h => by rw [st.Ez i j h]; unfold waveE; simp, fun i j h => by rw [st.Hx i j h]; unfold waveX; simp,
      fun i j h => by rw [st.Hy i j h]; unfold waveY; simp⟩
  exact ⟨c', l', u, z, k.Ez, k.Hx, k.Hy⟩

/-- **C89**, the speed. The frequency of the wave is never above the one of light with this wave vector in the dielectric, in any direction, and below it by a
part of at most `(|k| dx)² / 24`. -/
theorem C89_speed (g : Grid ℝ) (hl : Lawful g) (e : ℝ) (he : 1 ≤ e) (kx ky : ℝ) (hx : |kx| * g.dx ≤ Real.pi) (hy : |ky| * g.dx ≤ Real.pi) :
    waveFrequency g e kx ky ≤ lightFrequency e kx ky ∧
      lightFrequency e kx ky * (1 - (kx ^ 2 + ky ^ 2) * g.dx ^ 2 / 24) ≤ waveFrequency g e kx ky := by
  have dx := hl.dx
  have hpi := Real.pi_pos
  have se1 : 1 ≤ Real.sqrt e := Real.one_le_sqrt.mpr he
  have se : 0 < Real.sqrt e := by linarith
  set a := |kx| * g.dx / 2 with ha
  set b := |ky| * g.dx / 2 with hb
  have a0 : 0 ≤ a := by positivity
  have b0 : 0 ≤ b := by positivity
  have a1 : a ≤ Real.pi / 2 := by rw [ha]; linarith
  have b1 : b ≤ Real.pi / 2 := by rw [hb]; linarith
  set r := Real.sqrt (a ^ 2 + b ^ 2) with hr
  have r0 : 0 ≤ r := Real.sqrt_nonneg _
  have r1 : r ≤ Real.pi := by
    rw [hr, Real.sqrt_le_left hpi.le]
    have := pow_le_pow_left₀ a0 a1 2
    have := pow_le_pow_left₀ b0 b1 2
    nlinarith
  have ks : Real.sqrt (kx ^ 2 + ky ^ 2) = 2 * r / g.dx := by
    rw [show kx ^ 2 + ky ^ 2 = (2 / g.dx) ^ 2 * (a ^ 2 + b ^ 2) by
        rw [ha, hb, div_pow, div_pow, div_pow, mul_pow, mul_pow, sq_abs, sq_abs]; field_simp, Real.sqrt_mul (sq_nonneg _), Real.sqrt_sq (by positivity)]
    ring
  have kk : (kx ^ 2 + ky ^ 2) * g.dx ^ 2 / 24 = (a ^ 2 + b ^ 2) / 6 := by
    rw [ha, hb, div_pow, div_pow, mul_pow, mul_pow, sq_abs, sq_abs]; ring
  have tt : lightFrequency e kx ky = 4 / g.dx * (r / (2 * Real.sqrt e)) := by
    unfold lightFrequency
    rw [ks]
    field_simp
    ring
  set s := Real.sqrt (Real.sin a ^ 2 + Real.sin b ^ 2) with hs
  have cell : ∀ k : ℝ, cellNumber g.dx k ^ 2 = (2 / g.dx) ^ 2 * Real.sin (|k| * g.dx / 2) ^ 2 := by
    intro k
    unfold cellNumber
    rcases abs_choice k with h | h
    · rw [h]; ring
    · rw [h, show -k * g.dx / 2 = -(k * g.dx / 2) by ring, Real.sin_neg]; ring
  have gt : waveFrequency g e kx ky = 4 / g.dx * Real.arcsin (s / (2 * Real.sqrt e)) := by
    unfold waveFrequency
    rw [cell, cell, ← ha, ← hb, ← mul_add, Real.sqrt_mul (sq_nonneg _), Real.sqrt_sq (by positivity), ← hs, hl.dt,
      show g.dx / 2 / 2 * (2 / g.dx * s / Real.sqrt e) = s / (2 * Real.sqrt e) by field_simp]
    congr 1
    field_simp
    norm_num
  have s0 : 0 ≤ s := Real.sqrt_nonneg _
  have q0 : 0 ≤ 4 / g.dx := by positivity
  rw [tt, gt, kk]
  constructor
  · refine mul_le_mul_of_nonneg_left ?_ q0
    have top : r / (2 * Real.sqrt e) ≤ Real.pi / 2 := by
      rw [div_le_div_iff₀ (by positivity) (by norm_num)]
      nlinarith
    have sr0 : 0 ≤ Real.sin (r / 2) := Real.sin_nonneg_of_nonneg_of_le_pi (by linarith) (by linarith)
    have up : s ≤ 2 * Real.sin (r / 2) := by
      rw [hs, Real.sqrt_le_left (by linarith)]
      exact sin_pair a0 a1 b0 b1
    have sc := sin_scaled (r := r / 2) (c := 1 / Real.sqrt e) (by linarith) (by linarith) (by positivity) ((div_le_one se).mpr se1)
    have e1 : 1 / Real.sqrt e * (r / 2) = r / (2 * Real.sqrt e) := by field_simp
    rw [e1] at sc
    have le : s / (2 * Real.sqrt e) ≤ Real.sin (r / (2 * Real.sqrt e)) := by
      refine le_trans ?_ sc
      rw [div_le_iff₀ (by positivity)]
      have : 1 / Real.sqrt e * Real.sin (r / 2) * (2 * Real.sqrt e) = 2 * Real.sin (r / 2) := by field_simp
      rw [this]; exact up
    have := Real.arcsin_le_arcsin le
    rwa [Real.arcsin_sin (le_trans (by linarith) (div_nonneg r0 (by positivity) : (0 : ℝ) ≤ r / (2 * Real.sqrt e))) top] at this
  · rw [mul_assoc]
    refine mul_le_mul_of_nonneg_left ?_ q0
    have low := sin_pair_low a0 a1 b0 b1
    have arg : s / (2 * Real.sqrt e) ≤ 1 := by
      rw [div_le_one (by positivity)]
      have : s ≤ 2 := by
        rw [hs, Real.sqrt_le_left (by norm_num)]
        have := Real.sin_sq_le_one a
        have := Real.sin_sq_le_one b
        linarith
      linarith
    have arg0 : 0 ≤ s / (2 * Real.sqrt e) := by positivity
    have : s / (2 * Real.sqrt e) ≤ Real.arcsin (s / (2 * Real.sqrt e)) := by
      have := Real.sin_le (Real.arcsin_nonneg.mpr arg0)
      rwa [Real.sin_arcsin (by linarith) arg] at this
    refine le_trans ?_ this
    rw [div_mul_eq_mul_div]
    exact div_le_div_of_nonneg_right low (by positivity)

/-- **C89** for programs: a new simulation with any layer, any objects of passive simple materials that fill a rectangle with one dielectric, the fields of a
plane wave in it. -/
theorem C89_program (n : ℕ) (g : Grid ℝ) (hw : g.Wide) (hl : Lawful g) (hT : g.T = 0 ∨ 2 ≤ g.T) (objs : List (Object ℝ)) (hb : ∀ o ∈ objs, BoxSound o)
    (hc : ∀ o ∈ objs, ClearOfUnguardedEdges g o) (hp : ∀ o ∈ objs, PassiveObject o) (med : ℤ → ℤ → Simple ℝ) (hm : FilledBy g objs med) (R : Box)
    (hR : ∀ i j, R.Mem i j → Beyond g i j) (e : ℝ) (he : ∀ i j, R.Mem i j → (med i j).eps = e ∧ (med i j).conduc = 0) (h1 : 1 ≤ e) (a kx ky ph : ℝ)
    (hk : cellNumber g.dx kx ≠ 0 ∨ cellNumber g.dx ky ≠ 0) (E X Y : ℤ → ℤ → ℝ)
    (st : ∀ i j, R.Mem i j → E i j = waveE g a kx ky (waveFrequency g e kx ky) ph 0 0 i j ∧ X i j = waveX g a kx ky (waveFrequency g e kx ky) ph 0 0 i j ∧
      Y i j = waveY g a kx ky (waveFrequency g e kx ky) ph 0 0 i j) :
    ∃ c0 c1 c2, Core.make g = .ok c0 ∧ forList objs c0 (fun o c => c.insertObject o) = .ok c1 ∧ (withFields c1 E X Y).run n [] = .ok (c2, []) ∧
      CarriesWave g a kx ky (waveFrequency g e kx ky) ph (n * g.dt) c2.f (R.shrink n) := by
  obtain ⟨c0, c1, k1, k2, k3, k4, -, -, -, k8, k9⟩ := objects_passive hw hl hT objs hb hc hp med hm E X Y
  have eg : (withFields c1 E X Y).g = g := k4
  obtain ⟨c2, l2, u, z, v⟩ := C89_wave n (withFields c1 E X Y) k3 [] (by simp) med R (k9 R hR) k8 (by simp) e he h1 a kx ky ph 0 (by rw [eg]; exact hk)
    (by
      rw [eg]
      refine ⟨fun i j h => (st i j h).1.trans ?_, fun i j h => (st i j h).2.1.trans ?_, fun i j h => (st i j h).2.2.trans ?_⟩
      · unfold waveE; simp
      · unfold waveX; simp
      · unfold waveY; simp)
  rw [eg, zero_add] at v
  exact ⟨c0, c1, c2, k1, k2, by rw [u, z rfl], v⟩

/-- A non-trivial case of `C89_program`: the empty example grid with its layer and a wave in the direction (3, 4). -/
example (n : ℕ) : ∃ (c0 c2 : Core ℝ) (E X Y : ℤ → ℤ → ℝ), Core.make gEx = .ok c0 ∧ E 4 4 ≠ E 5 4 ∧ (withFields c0 E X Y).run n [] = .ok (c2, []) ∧
    CarriesWave gEx 1 (3 / 10) (4 / 10) (waveFrequency gEx 1 (3 / 10) (4 / 10)) (-(28 / 10)) (n * gEx.dt) c2.f (Box.shrink ⟨4, 15, 4, 15⟩ n) := by
  have small : cellNumber gEx.dx (3 / 10) ≠ 0 := by
    unfold cellNumber
    rw [gEx_dx]
    have := Real.sin_pos_of_pos_of_lt_pi (x := 3 / 10 * 1 / 2) (by norm_num) (by linarith [Real.two_le_pi])
    positivity
  obtain ⟨c0, c1, c2, u1, u2, u3, u4⟩ := C89_program n gEx gEx_wide gEx_lawful (by rw [gEx_T]; norm_num) [] (by simp) (by simp) (by simp) (fun _ _ => vacuum)
    ⟨fun i j o h => by obtain ⟨b, a, e, -⟩ := h; simp at e, fun _ _ _ => rfl⟩ ⟨4, 15, 4, 15⟩
    (by
      intro i j h
      unfold Box.Mem at h
      simp only at h
      exact gEx_beyond (by omega) (by omega) (by omega) (by omega)) 1 (fun _ _ _ => ⟨rfl, rfl⟩) le_rfl 1 (3 / 10) (4 / 10) (-(28 / 10)) (.inl small) _ _ _
    (fun i j _ => ⟨rfl, rfl, rfl⟩)
  obtain rfl : c0 = c1 := Except.ok.inj u2
  refine ⟨_, c2, _, _, _, u1, ?_, u3, u4⟩
  unfold waveE planeWave
  rw [gEx_dx]
  norm_num
  have := Real.cos_lt_cos_of_nonneg_of_le_pi_div_two (x := 0) (y := 3 / 10) le_rfl (by linarith [Real.two_le_pi]) (by norm_num)
  rw [Real.cos_zero] at this
  exact fun h => by linarith

end Qbox.Props
