import Verif.Props.PlaneWaveProps

/-! # Reflection at a plane between two dielectrics (C90) -/

namespace Qbox.Props
open Qbox Scalar Spec

/-- The left and the right half of the fields, each continued to all nodes. -/
structure HalfWaves (g : Grid ℝ) (e w : ℝ) (E X Y : ℕ → ℤ → ℤ → ℝ) : Prop where
  ampere : ∀ n i j, e * (E (n + 1) i j - E n i j) / g.dt = (Y n i j - Y n (i - 1) j) / g.dx - (X n i j - X n i (j - 1)) / g.dx
  faradayX : ∀ n i j, X (n + 1) i j = X n i j - g.dt * ((E (n + 1) i (j + 1) - E (n + 1) i j) / g.dx)
  faradayY : ∀ n i j, Y (n + 1) i j = Y n i j + g.dt * ((E (n + 1) (i + 1) j - E (n + 1) i j) / g.dx)

theorem HalfWaves.wave {g : Grid ℝ} (hx : g.dx ≠ 0) (hd : g.dt ≠ 0) {e kx ky w : ℝ} (h0 : cellNumber g.dt w ≠ 0)
    (disp : e * cellNumber g.dt w ^ 2 = cellNumber g.dx kx ^ 2 + cellNumber g.dx ky ^ 2) (a ph t0 : ℝ) :
    HalfWaves g e w (waveE g a kx ky w ph t0) (waveX g a kx ky w ph t0) (waveY g a kx ky w ph t0) :=
  ⟨wave_ampere hx hd h0 disp a ph t0, wave_faradayX hx hd h0 a ph t0, wave_faradayY hx hd h0 a ph t0⟩

theorem HalfWaves.add {g : Grid ℝ} {e w : ℝ} {E X Y E' X' Y' : ℕ → ℤ → ℤ → ℝ} (h : HalfWaves g e w E X Y) (h' : HalfWaves g e w E' X' Y') :
    HalfWaves g e w (fun n i j => E n i j + E' n i j) (fun n i j => X n i j + X' n i j) (fun n i j => Y n i j + Y' n i j) :=
  ⟨fun n i j => by linear_combination h.ampere n i j + h'.ampere n i j, fun n i j => by linear_combination h.faradayX n i j + h'.faradayX n i j,
    fun n i j => by linear_combination h.faradayY n i j + h'.faradayY n i j⟩

/-- The field of a wave that meets a plane, at the nodes: `Ez`. -/
noncomputable def faceE (g : Grid ℝ) (a k1 k2 ky w ph t0 : ℝ) (i0 : ℤ) (n : ℕ) (i j : ℤ) : ℝ :=
  facingWave g.dx a k1 k2 ky w ph ((i0 - 1 / 2) * g.dx) (i * g.dx) (j * g.dx) (t0 + n * g.dt)
/-- `Hx`, above each node, has the ratio `ky'/ω'` to `Ez`. -/
noncomputable def faceX (g : Grid ℝ) (a k1 k2 ky w ph t0 : ℝ) (i0 : ℤ) (n : ℕ) (i j : ℤ) : ℝ :=
  cellNumber g.dx ky / cellNumber g.dt w * facingWave g.dx a k1 k2 ky w ph ((i0 - 1 / 2) * g.dx) (i * g.dx) ((j + 1 / 2) * g.dx) (t0 + n * g.dt + g.dt / 2)
/-- `Hy`, to the right of each node, has the ratio `-k'/ω'` to `Ez` in each of the three waves. -/
noncomputable def faceY (g : Grid ℝ) (a k1 k2 ky w ph t0 : ℝ) (i0 : ℤ) (n : ℕ) (i j : ℤ) : ℝ :=
  if i < i0 then -(cellNumber g.dx k1 / cellNumber g.dt w) * planeWave a k1 ky w ph ((i + 1 / 2) * g.dx - (i0 - 1 / 2) * g.dx) (j * g.dx) (t0 + n * g.dt + g.dt / 2)
    + cellNumber g.dx k1 / cellNumber g.dt w *
      planeWave (gridReflection g.dx k1 k2 * a) (-k1) ky w ph ((i + 1 / 2) * g.dx - (i0 - 1 / 2) * g.dx) (j * g.dx) (t0 + n * g.dt + g.dt / 2)
  else -(cellNumber g.dx k2 / cellNumber g.dt w) *
    planeWave (gridTransmission g.dx k1 k2 * a) k2 ky w ph ((i + 1 / 2) * g.dx - (i0 - 1 / 2) * g.dx) (j * g.dx) (t0 + n * g.dt + g.dt / 2)

theorem planeWave_shift (a kx ky w ph x x0 y t : ℝ) : planeWave a kx ky w ph (x - x0) y t = planeWave a kx ky w (ph - kx * x0) x y t := by
  unfold planeWave
  rw [show kx * (x - x0) + ky * y - w * t + ph = kx * x + ky * y - w * t + (ph - kx * x0) by ring]

theorem cellNumber_neg (d k : ℝ) : cellNumber d (-k) = -cellNumber d k := by
  unfold cellNumber
  rw [show -k * d / 2 = -(k * d / 2) by ring, Real.sin_neg]; ring

/-- The two conditions at the plane. -/
theorem face_match {d k1 k2 : ℝ} (hd : 0 < d) (p1 : 0 < k1) (q1 : k1 * d < Real.pi) (p2 : 0 < k2) (q2 : k2 * d < Real.pi) :
    (1 + gridReflection d k1 k2) * Real.cos (k1 * d / 2) = gridTransmission d k1 k2 * Real.cos (k2 * d / 2) ∧
      (1 - gridReflection d k1 k2) * Real.sin (k1 * d / 2) = gridTransmission d k1 k2 * Real.sin (k2 * d / 2) := by
  have a1 : 0 < k1 * d / 2 := by positivity
  have a2 : 0 < k2 * d / 2 := by positivity
  have c1 := Real.cos_pos_of_mem_Ioo (x := k1 * d / 2) ⟨by linarith [Real.pi_pos], by linarith⟩
  have c2 := Real.cos_pos_of_mem_Ioo (x := k2 * d / 2) ⟨by linarith [Real.pi_pos], by linarith⟩
  have s1 := Real.sin_pos_of_pos_of_lt_pi a1 (by linarith)
  have s2 := Real.sin_pos_of_pos_of_lt_pi a2 (by linarith)
  unfold gridTransmission gridReflection
  rw [Real.tan_eq_sin_div_cos, Real.tan_eq_sin_div_cos]
  set S1 := Real.sin (k1 * d / 2)
  set S2 := Real.sin (k2 * d / 2)
  set C1 := Real.cos (k1 * d / 2)
  set C2 := Real.cos (k2 * d / 2)
  have t : S1 / C1 + S2 / C2 ≠ 0 := by positivity
  have t' : S1 * C2 + C1 * S2 ≠ 0 := by positivity
  constructor
  · field_simp
  · rw [show 1 - (S1 / C1 - S2 / C2) / (S1 / C1 + S2 / C2) = 2 * (S2 / C2) / (S1 / C1 + S2 / C2) by field_simp; ring,
      show 1 + (S1 / C1 - S2 / C2) / (S1 / C1 + S2 / C2) = 2 * (S1 / C1) / (S1 / C1 + S2 / C2) by field_simp; ring]
    field_simp

theorem face_solves {g : Grid ℝ} (hl : Lawful g) {med : ℤ → ℤ → Simple ℝ} {R : Box} {e1 e2 : ℝ} (i0 : ℤ)
    (hm : ∀ i j, R.Mem i j → (med i j).eps = (if i < i0 then e1 else e2) ∧ (med i j).conduc = 0) {k1 k2 ky w : ℝ} (p1 : 0 < k1) (q1 : k1 * g.dx < Real.pi)
    (p2 : 0 < k2) (q2 : k2 * g.dx < Real.pi) (h0 : cellNumber g.dt w ≠ 0) (d1 : e1 * cellNumber g.dt w ^ 2 = cellNumber g.dx k1 ^ 2 + cellNumber g.dx ky ^ 2)
    (d2 : e2 * cellNumber g.dt w ^ 2 = cellNumber g.dx k2 ^ 2 + cellNumber g.dx ky ^ 2) (a ph t0 : ℝ) :
    SolvesGrid g med R (faceE g a k1 k2 ky w ph t0 i0) (faceX g a k1 k2 ky w ph t0 i0) (faceY g a k1 k2 ky w ph t0 i0) := by
  have hx := hl.dx
  have hdt : g.dt ≠ 0 := by rw [hl.dt]; positivity
  set x0 := ((i0 : ℝ) - 1 / 2) * g.dx with hx0
  set ρ := gridReflection g.dx k1 k2 with hρ
  set τ := gridTransmission g.dx k1 k2 with hτ
  obtain ⟨m1, m2⟩ := face_match hx p1 q1 p2 q2
  rw [← hρ, ← hτ] at m1 m2
  have L := (HalfWaves.wave hx.ne' hdt h0 d1 a (ph - k1 * x0) t0).add
    (HalfWaves.wave hx.ne' hdt h0 (kx := -k1) (ky := ky) (by rw [cellNumber_neg, neg_sq]; exact d1) (ρ * a) (ph - -k1 * x0) t0)
  have Rt := HalfWaves.wave hx.ne' hdt h0 d2 (τ * a) (ph - k2 * x0) t0
  set EL : ℕ → ℤ → ℤ → ℝ := fun n i j => waveE g a k1 ky w (ph - k1 * x0) t0 n i j + waveE g (ρ * a) (-k1) ky w (ph - -k1 * x0) t0 n i j with hEL
  set XL : ℕ → ℤ → ℤ → ℝ := fun n i j => waveX g a k1 ky w (ph - k1 * x0) t0 n i j + waveX g (ρ * a) (-k1) ky w (ph - -k1 * x0) t0 n i j with hXL
  set YL : ℕ → ℤ → ℤ → ℝ := fun n i j => waveY g a k1 ky w (ph - k1 * x0) t0 n i j + waveY g (ρ * a) (-k1) ky w (ph - -k1 * x0) t0 n i j with hYL
  set ER := waveE g (τ * a) k2 ky w (ph - k2 * x0) t0 with hER
  set XR := waveX g (τ * a) k2 ky w (ph - k2 * x0) t0 with hXR
  set YR := waveY g (τ * a) k2 ky w (ph - k2 * x0) t0 with hYR
  have side : ∀ i : ℤ, ((i : ℝ) * g.dx < x0 ↔ i < i0) := by
    intro i
    rw [hx0, mul_lt_mul_iff_left₀ hx]
    constructor
    · intro h
      by_contra hn
      have : (i0 : ℝ) ≤ i := by exact_mod_cast not_lt.mp hn
      linarith
    · intro h
      have : (i : ℝ) + 1 ≤ i0 := by exact_mod_cast h
      linarith
  have eE : ∀ n i j, faceE g a k1 k2 ky w ph t0 i0 n i j = if i < i0 then EL n i j else ER n i j := by
    intro n i j
    unfold faceE facingWave
    rw [← hx0, ← hρ, ← hτ]
    by_cases h : i < i0
    · rw [if_pos h, if_pos ((side i).mpr h), planeWave_shift, planeWave_shift]; rfl
    · rw [if_neg h, if_neg (fun k => h ((side i).mp k)), planeWave_shift]; rfl
  have eX : ∀ n i j, faceX g a k1 k2 ky w ph t0 i0 n i j = if i < i0 then XL n i j else XR n i j := by
    intro n i j
    unfold faceX facingWave
    rw [← hx0, ← hρ, ← hτ]
    by_cases h : i < i0
    · rw [if_pos h, if_pos ((side i).mpr h), planeWave_shift, planeWave_shift, mul_add]; rfl
    · rw [if_neg h, if_neg (fun k => h ((side i).mp k)), planeWave_shift]; rfl
  have eY : ∀ n i j, faceY g a k1 k2 ky w ph t0 i0 n i j = if i < i0 then YL n i j else YR n i j := by
    intro n i j
    unfold faceY
    rw [← hx0, ← hρ, ← hτ]
    by_cases h : i < i0
    · rw [if_pos h, if_pos h, planeWave_shift, planeWave_shift]
      simp only [hYL]
      unfold waveY
      rw [cellNumber_neg]
      ring
    · rw [if_neg h, if_neg h, planeWave_shift]; rfl
  -- the fields agree at the plane
  have mE : ∀ n j, EL n i0 j = ER n i0 j := by
    intro n j
    simp only [hEL, hER]
    unfold waveE planeWave
    have r1 : k1 * ((i0 : ℝ) * g.dx) + ky * (j * g.dx) - w * (t0 + n * g.dt) + (ph - k1 * x0) = (ky * (j * g.dx) - w * (t0 + n * g.dt) + ph) + k1 * g.dx / 2 := by
      rw [hx0]; ring
    have r2 : -k1 * ((i0 : ℝ) * g.dx) + ky * (j * g.dx) - w * (t0 + n * g.dt) + (ph - -k1 * x0) = (ky * (j * g.dx) - w * (t0 + n * g.dt) + ph) - k1 * g.dx / 2 := by
      rw [hx0]; ring
    have r3 : k2 * ((i0 : ℝ) * g.dx) + ky * (j * g.dx) - w * (t0 + n * g.dt) + (ph - k2 * x0) = (ky * (j * g.dx) - w * (t0 + n * g.dt) + ph) + k2 * g.dx / 2 := by
      rw [hx0]; ring
    rw [r1, r2, r3]
    generalize ky * (j * g.dx) - w * (t0 + n * g.dt) + ph = θ
    rw [Real.cos_add θ (k1 * g.dx / 2), Real.cos_sub θ, Real.cos_add θ (k2 * g.dx / 2)]
    linear_combination (a * Real.cos θ) * m1 - (a * Real.sin θ) * m2
  have mY : ∀ n j, YL n (i0 - 1) j = YR n (i0 - 1) j := by
    intro n j
    simp only [hYL, hYR]
    unfold waveY planeWave
    have r : ∀ k : ℝ, k * ((((i0 - 1 : ℤ) : ℝ) + 1 / 2) * g.dx) + ky * (j * g.dx) - w * (t0 + n * g.dt + g.dt / 2) + (ph - k * x0) =
        ky * (j * g.dx) - w * (t0 + n * g.dt + g.dt / 2) + ph := by
      intro k
      rw [hx0]; push_cast; ring
    rw [r, r, r, cellNumber_neg]
    set C := Real.cos (ky * (j * g.dx) - w * (t0 + n * g.dt + g.dt / 2) + ph)
    have k : (1 - ρ) * cellNumber g.dx k1 = τ * cellNumber g.dx k2 := by
      unfold cellNumber
      linear_combination (2 / g.dx) * m2
    linear_combination (-(a * C / cellNumber g.dt w)) * k
  refine ⟨fun n i j h => ?_, fun n i j _ => ?_, fun n i j _ => ?_⟩
  · unfold ConductiveLaw
    rw [(hm i j h).1, (hm i j h).2, eE, eE, eY, eY, eX, eX]
    by_cases h1 : i < i0
    · have h2 : i - 1 < i0 := by omega
      simp only [h1, h2, if_true]
      rw [← L.ampere n i j]; ring
    · simp only [h1, if_false]
      by_cases h2 : i - 1 < i0
      · obtain rfl : i = i0 := by omega
        simp only [h2, if_true]
        rw [mY, ← Rt.ampere n i j]; ring
      · simp only [h2, if_false]
        rw [← Rt.ampere n i j]; ring
  · rw [eX, eX, eE, eE]
    by_cases h1 : i < i0
    · simp only [h1, if_true]; exact L.faradayX n i j
    · simp only [h1, if_false]; exact Rt.faradayX n i j
  · rw [eY, eY, eE, eE]
    by_cases h1 : i < i0
    · simp only [h1, if_true]
      by_cases h2 : i + 1 < i0
      · simp only [h2, if_true]; exact L.faradayY n i j
      · obtain rfl : i0 = i + 1 := by omega
        simp only [h2, if_false]
        rw [← mE]; exact L.faradayY n i j
    · have h2 : ¬ i + 1 < i0 := by omega
      simp only [h1, h2, if_false]; exact Rt.faradayY n i j

/-- **C90**, on the grid. Two dielectrics fill a rectangle beyond the layer, the plane between them half a cell to the left of the nodes `i0`. A wave that meets the
plane from the left, under any angle, together with its reflection `gridReflection` and its transmission `gridTransmission`, stays so after any number of
updates, at all nodes that nothing from outside the rectangle has reached. The wave vectors and the frequency satisfy the dispersion relation of the grid on each
side. -/
theorem C90_plane (n : ℕ) (c : Core ℝ) (hc : c.Std) (srcs : List (Source ℝ)) (hf : ∀ s ∈ srcs, Fits c.g s) (med : ℤ → ℤ → Simple ℝ) (R : Box)
    (hp : Passive c med R) (ht : c.tfsf = none) (hs : ∀ s ∈ srcs, Spec.Apart c.g R.Mem s) (i0 : ℤ) (e1 e2 : ℝ)
    (hm : ∀ i j, R.Mem i j → (med i j).eps = (if i < i0 then e1 else e2) ∧ (med i j).conduc = 0) (k1 k2 ky w : ℝ) (p1 : 0 < k1) (q1 : k1 * c.g.dx < Real.pi)
    (p2 : 0 < k2) (q2 : k2 * c.g.dx < Real.pi) (h0 : cellNumber c.g.dt w ≠ 0)
    (d1 : e1 * cellNumber c.g.dt w ^ 2 = cellNumber c.g.dx k1 ^ 2 + cellNumber c.g.dx ky ^ 2)
    (d2 : e2 * cellNumber c.g.dt w ^ 2 = cellNumber c.g.dx k2 ^ 2 + cellNumber c.g.dx ky ^ 2) (a ph t0 : ℝ)
    (st : Has (faceE c.g a k1 k2 ky w ph t0 i0 0) (faceX c.g a k1 k2 ky w ph t0 i0 0) (faceY c.g a k1 k2 ky w ph t0 i0 0) c.f R) :
    ∃ c' srcs', c.run n srcs = .ok (c', srcs') ∧ (srcs = [] → srcs' = []) ∧ ∀ i j, (R.shrink n).Mem i j →
      c'.f.Ez.val i j = facingWave c.g.dx a k1 k2 ky w ph ((i0 - 1 / 2) * c.g.dx) (i * c.g.dx) (j * c.g.dx) (t0 + n * c.g.dt) := by
  obtain ⟨c', l', u, z, k⟩ := window_run n hc srcs hf hp ht hs (face_solves hc.law i0 hm p1 q1 p2 q2 h0 d1 d2 a ph t0) st
  exact ⟨c', l', u, z, k.Ez⟩

/-- **C90**, the coefficients. For a wave straight onto the plane, with at most `(ω dx)² ≤ 2 / ε`, the grid has wave numbers on both sides, and its reflection and
transmission differ from Fresnel's for the refractive indices `√ε` by at most a part of `(ω dx)²`. -/
theorem C90_fresnel (g : Grid ℝ) (hl : Lawful g) (e1 e2 top w : ℝ) (h1 : 1 ≤ e1) (h2 : 1 ≤ e2) (t1 : e1 ≤ top) (t2 : e2 ≤ top) (hw : 0 < w)
    (fine : top * (w * g.dx) ^ 2 ≤ 2) :
    ∃ k1 k2, 0 < k1 ∧ k1 * g.dx < Real.pi ∧ 0 < k2 ∧ k2 * g.dx < Real.pi ∧ cellNumber g.dt w ≠ 0 ∧
      e1 * cellNumber g.dt w ^ 2 = cellNumber g.dx k1 ^ 2 + cellNumber g.dx 0 ^ 2 ∧ e2 * cellNumber g.dt w ^ 2 = cellNumber g.dx k2 ^ 2 + cellNumber g.dx 0 ^ 2 ∧
      |gridReflection g.dx k1 k2 - fresnelReflection (Real.sqrt e1) (Real.sqrt e2)| ≤ top * (w * g.dx) ^ 2 / 8 ∧
      |gridTransmission g.dx k1 k2 - fresnelTransmission (Real.sqrt e1) (Real.sqrt e2)| ≤ top * (w * g.dx) ^ 2 / 2 := by
  have hx := hl.dx
  have hdt : 0 < g.dt := by rw [hl.dt]; positivity
  set s := Real.sin (w * g.dt / 2) with hs
  have wd : w * g.dt / 2 = w * g.dx / 4 := by rw [hl.dt]; ring
  have x0 : 0 < w * g.dx / 4 := by positivity
  have x1 : w * g.dx ≤ 2 := by
    have : (w * g.dx) ^ 2 ≤ 2 ^ 2 := by nlinarith [sq_nonneg (w * g.dx)]
    exact abs_le_of_sq_le_sq' this (by norm_num) |>.2
  have s0 : 0 < s := by
    rw [hs, wd]
    exact Real.sin_pos_of_pos_of_lt_pi x0 (by linarith [Real.two_le_pi])
  have s1 : s ≤ w * g.dx / 4 := by rw [hs, wd]; exact Real.sin_le x0.le
  set u := 4 * top * s ^ 2 with hu
  have ul : u ≤ top * (w * g.dx) ^ 2 / 4 := by
    have := pow_le_pow_left₀ s0.le s1 2
    have := mul_le_mul_of_nonneg_left this (by linarith : 0 ≤ 4 * top)
    rw [hu]
    refine this.trans (le_of_eq ?_)
    ring
  have u1 : u ≤ 1 / 2 := by linarith
  have u0 : 0 ≤ u := by rw [hu]; have : 0 ≤ top := by linarith
                        positivity
  -- one side
  have one : ∀ e, 1 ≤ e → e ≤ top → ∃ k, 0 < k ∧ k * g.dx < Real.pi ∧ e * cellNumber g.dt w ^ 2 = cellNumber g.dx k ^ 2 + cellNumber g.dx 0 ^ 2 ∧
      Real.sin (k * g.dx / 2) = 2 * Real.sqrt e * s ∧ 0 < Real.cos (k * g.dx / 2) ∧ Real.cos (k * g.dx / 2) ≤ 1 ∧ 1 ≤ (1 + u) * Real.cos (k * g.dx / 2) := by
    intro e he ht
    have se : 0 < Real.sqrt e := Real.sqrt_pos.mpr (by linarith)
    have sq : Real.sqrt e ^ 2 = e := Real.sq_sqrt (by linarith)
    set y := 2 * Real.sqrt e * s with hy
    have y0 : 0 < y := by positivity
    have ysq : y ^ 2 = 4 * e * s ^ 2 := by rw [hy, mul_pow, mul_pow, sq]; ring
    have yu : y ^ 2 ≤ u := by
      rw [ysq, hu]
      have := mul_le_mul_of_nonneg_right ht (sq_nonneg s)
      linarith
    have y1 : y < 1 := by
      have : y ^ 2 < 1 ^ 2 := by linarith
      exact lt_of_pow_lt_pow_left₀ 2 (by norm_num) this
    have k2 : 2 / g.dx * Real.arcsin y * g.dx / 2 = Real.arcsin y := by field_simp
    have ca : Real.cos (Real.arcsin y) = Real.sqrt (1 - y ^ 2) := Real.cos_arcsin y
    have cpos : 0 < Real.sqrt (1 - y ^ 2) := Real.sqrt_pos.mpr (by linarith)
    refine ⟨2 / g.dx * Real.arcsin y, ?_, ?_, ?_, ?_, ?_, ?_, ?_⟩
    · have := Real.arcsin_pos.mpr y0
      positivity
    · rw [show 2 / g.dx * Real.arcsin y * g.dx = 2 * Real.arcsin y by field_simp]
      have := Real.arcsin_lt_pi_div_two.mpr y1
      linarith
    · unfold cellNumber
      rw [k2, Real.sin_arcsin (by linarith) y1.le, zero_mul, zero_div, Real.sin_zero, ← hs, mul_pow, mul_pow, ysq, hl.dt]
      field_simp
      ring
    · rw [k2, Real.sin_arcsin (by linarith) y1.le]
    · rw [k2, ca]; exact cpos
    · exact Real.cos_le_one _
    · rw [k2, ca]
      have : 1 ≤ ((1 + u) * Real.sqrt (1 - y ^ 2)) ^ 2 := by
        rw [mul_pow, Real.sq_sqrt (by linarith)]
        have a := mul_le_mul_of_nonneg_left (by linarith : 1 - u ≤ 1 - y ^ 2) (sq_nonneg (1 + u))
        have b : 0 ≤ u * (1 - u - u ^ 2) := mul_nonneg u0 (by nlinarith)
        have e : (1 + u) ^ 2 * (1 - u) = 1 + u * (1 - u - u ^ 2) := by ring
        linarith
      exact (one_le_sq_iff₀ (by positivity)).mp this
  obtain ⟨k1, a1, a2, a3, a4, a5, a6, a7⟩ := one e1 h1 t1
  obtain ⟨k2, b1, b2, b3, b4, b5, b6, b7⟩ := one e2 h2 t2
  have n1 : 0 < Real.sqrt e1 := Real.sqrt_pos.mpr (by linarith)
  have n2 : 0 < Real.sqrt e2 := Real.sqrt_pos.mpr (by linarith)
  have cw : cellNumber g.dt w ≠ 0 := by
    unfold cellNumber
    rw [← hs]
    positivity
  set C1 := Real.cos (k1 * g.dx / 2) with hC1
  set C2 := Real.cos (k2 * g.dx / 2) with hC2
  set N1 := Real.sqrt e1 with hN1
  set N2 := Real.sqrt e2 with hN2
  have den : 0 < N1 * C2 + N2 * C1 := by positivity
  have rho : gridReflection g.dx k1 k2 = (N1 * C2 - N2 * C1) / (N1 * C2 + N2 * C1) := by
    unfold gridReflection
    rw [Real.tan_eq_sin_div_cos, Real.tan_eq_sin_div_cos, a4, b4, ← hC1, ← hC2, div_sub_div _ _ a5.ne' b5.ne', div_add_div _ _ a5.ne' b5.ne',
      div_div_div_cancel_right₀ (by positivity), show 2 * N1 * s * C2 - C1 * (2 * N2 * s) = (2 * s) * (N1 * C2 - N2 * C1) by ring,
      show 2 * N1 * s * C2 + C1 * (2 * N2 * s) = (2 * s) * (N1 * C2 + N2 * C1) by ring, mul_div_mul_left _ _ (by positivity)]
  have tau : gridTransmission g.dx k1 k2 = 2 * N1 * C1 / (N1 * C2 + N2 * C1) := by
    unfold gridTransmission
    rw [rho, ← hC1, ← hC2]
    field_simp
    ring
  have dC : |C1 - C2| ≤ u * C1 ∧ |C1 - C2| ≤ u * C2 := by
    have v1 := mul_nonneg u0 a5.le
    have v2 := mul_nonneg u0 b5.le
    rcases le_total C1 C2 with h | h
    · have m := mul_le_mul_of_nonneg_left h u0
      rw [abs_of_nonpos (by linarith)]
      constructor <;> linarith
    · have m := mul_le_mul_of_nonneg_left h u0
      rw [abs_of_nonneg (by linarith)]
      constructor <;> linarith
  have gap : |C1 - C2| * (N1 + N2) ≤ u * (N1 * C2 + N2 * C1) := by
    have x := mul_le_mul_of_nonneg_left dC.2 n1.le
    have y := mul_le_mul_of_nonneg_left dC.1 n2.le
    linarith
  have sum : 0 < N1 + N2 := by positivity
  have frac : |C1 - C2| / (N1 * C2 + N2 * C1) ≤ u / (N1 + N2) := by
    rw [div_le_div_iff₀ den sum]
    linarith
  refine ⟨k1, k2, a1, a2, b1, b2, cw, a3, b3, ?_, ?_⟩
  · rw [rho]
    unfold fresnelReflection
    rw [show (N1 * C2 - N2 * C1) / (N1 * C2 + N2 * C1) - (N1 - N2) / (N1 + N2) = -(2 * N1 * N2 / (N1 + N2) * ((C1 - C2) / (N1 * C2 + N2 * C1))) by
        field_simp; ring, abs_neg, abs_mul, abs_of_pos (by positivity : 0 < 2 * N1 * N2 / (N1 + N2)), abs_div, abs_of_pos den]
    have k := mul_le_mul_of_nonneg_left frac (by positivity : 0 ≤ 2 * N1 * N2 / (N1 + N2))
    have half' : 2 * N1 * N2 / (N1 + N2) * (u / (N1 + N2)) ≤ u / 2 := by
      rw [div_mul_div_comm, div_le_div_iff₀ (by positivity) (by norm_num)]
      have b := mul_nonneg u0 (sq_nonneg (N1 - N2))
      have e : u * ((N1 + N2) * (N1 + N2)) = u * (N1 - N2) ^ 2 + 2 * N1 * N2 * u * 2 := by ring
      linarith
    linarith
  · rw [tau]
    unfold fresnelTransmission
    rw [show 2 * N1 * C1 / (N1 * C2 + N2 * C1) - 2 * N1 / (N1 + N2) = 2 * N1 ^ 2 / (N1 + N2) * ((C1 - C2) / (N1 * C2 + N2 * C1)) by
        field_simp; ring, abs_mul, abs_of_pos (by positivity : 0 < 2 * N1 ^ 2 / (N1 + N2)), abs_div, abs_of_pos den]
    have k := mul_le_mul_of_nonneg_left frac (by positivity : 0 ≤ 2 * N1 ^ 2 / (N1 + N2))
    have all : 2 * N1 ^ 2 / (N1 + N2) * (u / (N1 + N2)) ≤ 2 * u := by
      rw [div_mul_div_comm, div_le_iff₀ (by positivity)]
      have b1 := mul_nonneg u0 (mul_nonneg n1.le n2.le)
      have b2 := mul_nonneg u0 (sq_nonneg N2)
      have e : 2 * u * ((N1 + N2) * (N1 + N2)) = 2 * N1 ^ 2 * u + 4 * (u * (N1 * N2)) + 2 * (u * N2 ^ 2) := by ring
      linarith
    linarith

/-- **C90** for programs: a new simulation with any layer, any objects of passive simple materials that fill a rectangle with two dielectrics, one to each side of a
plane, the fields of the three waves in it. -/
theorem C90_program (n : ℕ) (g : Grid ℝ) (hw : g.Wide) (hl : Lawful g) (hT : g.T = 0 ∨ 2 ≤ g.T) (objs : List (Object ℝ)) (hb : ∀ o ∈ objs, BoxSound o)
    (hc : ∀ o ∈ objs, ClearOfUnguardedEdges g o) (hp : ∀ o ∈ objs, PassiveObject o) (med : ℤ → ℤ → Simple ℝ) (hm : FilledBy g objs med) (R : Box)
    (hR : ∀ i j, R.Mem i j → Beyond g i j) (i0 : ℤ) (e1 e2 : ℝ)
    (he : ∀ i j, R.Mem i j → (med i j).eps = (if i < i0 then e1 else e2) ∧ (med i j).conduc = 0) (k1 k2 ky w : ℝ) (p1 : 0 < k1) (q1 : k1 * g.dx < Real.pi)
    (p2 : 0 < k2) (q2 : k2 * g.dx < Real.pi) (h0 : cellNumber g.dt w ≠ 0) (d1 : e1 * cellNumber g.dt w ^ 2 = cellNumber g.dx k1 ^ 2 + cellNumber g.dx ky ^ 2)
    (d2 : e2 * cellNumber g.dt w ^ 2 = cellNumber g.dx k2 ^ 2 + cellNumber g.dx ky ^ 2) (a ph : ℝ) (E X Y : ℤ → ℤ → ℝ)
    (st : ∀ i j, R.Mem i j → E i j = faceE g a k1 k2 ky w ph 0 i0 0 i j ∧ X i j = faceX g a k1 k2 ky w ph 0 i0 0 i j ∧
      Y i j = faceY g a k1 k2 ky w ph 0 i0 0 i j) :
    ∃ c0 c1 c2, Core.make g = .ok c0 ∧ forList objs c0 (fun o c => c.insertObject o) = .ok c1 ∧ (withFields c1 E X Y).run n [] = .ok (c2, []) ∧
      ∀ i j, (R.shrink n).Mem i j →
        c2.f.Ez.val i j = facingWave g.dx a k1 k2 ky w ph ((i0 - 1 / 2) * g.dx) (i * g.dx) (j * g.dx) (n * g.dt) := by
  obtain ⟨c0, c1, j1, j2, j3, j4, -, -, -, j8, j9⟩ := objects_passive hw hl hT objs hb hc hp med hm E X Y
  have eg : (withFields c1 E X Y).g = g := j4
  obtain ⟨c2, l2, u, z, v⟩ := C90_plane n (withFields c1 E X Y) j3 [] (by simp) med R (j9 R hR) j8 (by simp) i0 e1 e2 he k1 k2 ky w p1 (by rw [eg]; exact q1) p2
    (by rw [eg]; exact q2) (by rw [eg]; exact h0) (by rw [eg]; exact d1) (by rw [eg]; exact d2) a ph 0
    (by rw [eg]; exact ⟨fun i j h => (st i j h).1, fun i j h => (st i j h).2.1, fun i j h => (st i j h).2.2⟩)
  rw [eg] at v
  refine ⟨c0, c1, c2, j1, j2, by rw [u, z rfl], fun i j h => ?_⟩
  rw [v i j h, zero_add]

/-- A block of glass that fills the right half of the example grid. -/
noncomputable def glassHalf : Object ℝ := ⟨"glassHalf", .block ⟨8, 18⟩, ⟨"glass", .simple ⟨4, 1, 0⟩⟩, ⟨27 / 2, 19 / 2⟩, 0⟩

theorem glassHalf_inside (p : V2 ℝ) : glassHalf.inside p = true ↔ |p.x - 27 / 2| ≤ 4 ∧ |p.y - 19 / 2| ≤ 9 := by
  rw [inside_pullback]
  simp only [glassHalf, Geometry.block, V2.cabs, ltb_real, Real.cos_zero, Real.sin_zero]
  norm_num

theorem glassHalf_node {i j : ℤ} (hi : i < 16) (j0 : 3 < j) (j1 : j < 16) : glassHalf.inside (gEx.toReal ⟨i, j⟩) = true ↔ 10 ≤ i := by
  rw [glassHalf_inside, abs_le, abs_le]
  simp only [Grid.toReal, gEx_dx, ofInt_real, one_mul]
  have a1 : (i : ℝ) ≤ 15 := by exact_mod_cast (by omega : i ≤ 15)
  have a2 : (4 : ℝ) ≤ j := by exact_mod_cast (by omega : 4 ≤ j)
  have a3 : (j : ℝ) ≤ 15 := by exact_mod_cast (by omega : j ≤ 15)
  constructor
  · rintro ⟨⟨h, -⟩, -⟩
    by_contra hn
    have : (i : ℝ) ≤ 9 := by exact_mod_cast (by omega : i ≤ 9)
    linarith
  · intro h
    have : (10 : ℝ) ≤ i := by exact_mod_cast h
    constructor <;> constructor <;> linarith

/-- A non-trivial case of `C90_program`: the half of glass on the example grid with its layer, a wave of one cell per time unit straight onto it; the
coefficients are those of `C90_fresnel`. -/
example (n : ℕ) : ∃ (med : ℤ → ℤ → Simple ℝ) (k1 k2 : ℝ) (c0 c1 c2 : Core ℝ) (E X Y : ℤ → ℤ → ℝ), FilledBy gEx [glassHalf] med ∧ (med 5 5).eps = 1 ∧ (med 12 5).eps = 4 ∧
    |gridReflection gEx.dx k1 k2 + 1 / 3| ≤ 1 / 8 ∧
    Core.make gEx = .ok c0 ∧ forList [glassHalf] c0 (fun o c => c.insertObject o) = .ok c1 ∧ (withFields c1 E X Y).run n [] = .ok (c2, []) ∧
      ∀ i j, (Box.shrink ⟨4, 15, 4, 15⟩ n).Mem i j →
        c2.f.Ez.val i j = facingWave gEx.dx 1 k1 k2 0 (1 / 2) 0 (((10 : ℤ) - 1 / 2) * gEx.dx) (i * gEx.dx) (j * gEx.dx) (n * gEx.dt) := by
  have hp : ∀ o ∈ [glassHalf], PassiveObject o := by
    intro o ho
    rw [List.mem_singleton.mp ho]
    exact ⟨⟨4, 1, 0⟩, rfl, by norm_num, by norm_num⟩
  obtain ⟨med, hm⟩ := filled_exists gEx _ hp
  have here : ∀ i j : ℤ, 3 < i → i < 16 → 3 < j → j < 16 → med i j = if i < 10 then vacuum else ⟨4, 1, 0⟩ := by
    intro i j _ i1 j0 j1
    by_cases h : i < 10
    · rw [if_pos h]
      refine hm.vacuum i j fun o ho => ?_
      rw [List.mem_singleton.mp ho, Bool.eq_false_iff]
      intro k
      rw [glassHalf_node i1 j0 j1] at k
      omega
    · rw [if_neg h]
      have := hm.object i j glassHalf ⟨[], [], rfl, (glassHalf_node i1 j0 j1).mpr (by omega), by simp⟩
      exact (MatKind.simple.inj this).symm
  have fine : (4 : ℝ) * (1 / 2 * gEx.dx) ^ 2 ≤ 2 := by rw [gEx_dx]; norm_num
  obtain ⟨k1, k2, p1, q1, p2, q2, h0, d1, d2, r, -⟩ := C90_fresnel gEx gEx_lawful 1 4 4 (1 / 2) (by norm_num) (by norm_num) (by norm_num) (by norm_num) (by norm_num) fine
  obtain ⟨c0, c1, c2, u1, u2, u3, u4⟩ := C90_program n gEx gEx_wide gEx_lawful (by rw [gEx_T]; norm_num) [glassHalf]
    (by intro o ho; rw [List.mem_singleton.mp ho]; exact boxSound_lib _ (.block _))
    (by
      intro o ho p h
      rw [List.mem_singleton.mp ho, glassHalf_inside, abs_le, abs_le] at h
      rw [gEx_Lx]
      constructor <;> linarith [h.1.1, h.1.2, h.2.1, h.2.2]) hp med hm ⟨4, 15, 4, 15⟩
    (by
      intro i j h
      unfold Box.Mem at h
      simp only at h
      exact gEx_beyond (by omega) (by omega) (by omega) (by omega)) 10 1 4
    (by
      intro i j h
      unfold Box.Mem at h
      simp only at h
      rw [here i j (by omega) (by omega) (by omega) (by omega)]
      split <;> exact ⟨rfl, rfl⟩) k1 k2 0 (1 / 2) p1 q1 p2 q2 h0 d1 d2 1 0 _ _ _ (fun i j _ => ⟨rfl, rfl, rfl⟩)
  refine ⟨med, k1, k2, c0, c1, c2, _, _, _, hm, ?_, ?_, ?_, u1, u2, u3, u4⟩
  · rw [here 5 5 (by norm_num) (by norm_num) (by norm_num) (by norm_num)]; rfl
  · rw [here 12 5 (by norm_num) (by norm_num) (by norm_num) (by norm_num)]; rfl
  · have s4 : Real.sqrt 4 = 2 := by rw [show (4 : ℝ) = 2 ^ 2 by norm_num]; exact Real.sqrt_sq (by norm_num)
    unfold fresnelReflection at r
    rw [Real.sqrt_one, s4, gEx_dx] at r
    rw [gEx_dx]
    norm_num at r ⊢
    exact r

end Qbox.Props
