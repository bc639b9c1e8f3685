import Verif.Lemmas.MatterWave
import Verif.Props.FresnelProps
import Verif.Props.PolarProps
import Mathlib.Analysis.Complex.Polynomial.Basic
import Mathlib.Analysis.SpecialFunctions.Trigonometric.Bounds
import Mathlib.Analysis.SpecialFunctions.Arsinh

/-! # Media respond with their permittivity (C91) -/

namespace Qbox.Props
open Qbox Scalar Spec Complex

theorem suscept_flat {r : Response} {z : ℂ} (h : r = .plain → z = 0) : r.flow z.re = z.re := by
  cases r with
  | plain => simp [h rfl, Response.flow]
  | debye => rfl
  | drude => rfl

/-- **C91**, one medium. A rectangle beyond the layer is filled with media that share permittivity without delay, conductivity and at most one Debye or Drude pole.
A field `Re A exp(i(k·r - ω t))` with its magnetic field and its polarization current stays so after any number of updates, at all nodes that nothing from
outside the rectangle has reached, with any complex wave vector and frequency, provided `ε(Ω) ω'² = k'²`. Here `ε` is the permittivity of the textbooks, taken at the
frequency `Ω = (2 / dt) tan(ω dt / 2)`, and `ω'`, `k'` are frequency and wave vector as the differences see them. -/
theorem C91_wave (n : ℕ) (c : Core ℝ) (hc : c.Std) (med : ℤ → ℤ → Medium) (R : Box) (hp : Matter c med R) (ht : c.tfsf = none) (e s : ℝ) (r : Response)
    (hm : ∀ i j, R.Mem i j → (med i j).base.eps = e ∧ (med i j).base.conduc = s ∧ (med i j).res = r) (kx ky w : ℂ) (h0 : cellNumberC c.g.dt w ≠ 0)
    (hcos : cos (w * c.g.dt / 2) ≠ 0) (hr : r.Regular (warped c.g.dt w))
    (disp : permittivity e s r (warped c.g.dt w) * cellNumberC c.g.dt w ^ 2 = cellNumberC c.g.dx kx ^ 2 + cellNumberC c.g.dx ky ^ 2) (A : ℂ) (t0 : ℝ)
    (st : HasAll (fun i j => (carE c.g A kx ky w t0 0 i j).re) (fun i j => (carX c.g A kx ky w t0 0 i j).re) (fun i j => (carY c.g A kx ky w t0 0 i j).re)
      (fun i j => (carK c.g r A kx ky w t0 0 i j).re) c med R) :
    ∃ c', c.run n [] = .ok (c', []) ∧
      (∀ i j, (R.shrink n).Mem i j → c'.f.Ez.val i j = (carrier A kx ky w (i * c.g.dx) (j * c.g.dx) (t0 + n * c.g.dt)).re) ∧
      HasAll (fun i j => (carE c.g A kx ky w t0 n i j).re) (fun i j => (carX c.g A kx ky w t0 n i j).re) (fun i j => (carY c.g A kx ky w t0 n i j).re)
        (fun i j => (carK c.g r A kx ky w t0 n i j).re) c' med (R.shrink n) := by
  have hdt : c.g.dt ≠ 0 := hc.dt_pos.ne'
  have W := MatterWave.wave hc.law.dx.ne' hdt h0 hcos hr disp A t0
  have S : SolvesMatterC c.g (fun i j => (med i j).base.eps) (fun i j => (med i j).base.conduc) (fun i j => (med i j).res) R (carE c.g A kx ky w t0)
      (carX c.g A kx ky w t0) (carY c.g A kx ky w t0) (carK c.g r A kx ky w t0) := by
    refine ⟨fun n i j m => ?_, fun n i j m => ?_, fun n i j _ => W.faradayX n i j, fun n i j _ => W.faradayY n i j⟩
    · rw [(hm i j m).1, (hm i j m).2.1]; exact W.ampere n i j
    · rw [(hm i j m).2.2]; exact W.pole n i j
  obtain ⟨c', u, k⟩ := matter_run n hc hp ht S.re (fun n i j m => by
    rw [(hm i j m).2.2]
    exact suscept_flat fun h => by subst h; simp [carK, Response.suscept]) st
  exact ⟨c', u, fun i j h => k.fields.Ez i j h, k⟩

/-- **C91**, two media. The plane between them lies half a cell to the left of the nodes `i0`. A wave that meets the plane from the left, under any angle, together with
its reflection `mirrorBack` and its transmission `mirrorThrough`, stays so. Both media can be dielectrics, conductors, Debye or Drude media, and the wave
numbers can be complex: waves that enter a metal and total reflection are included. -/
theorem C91_plane (n : ℕ) (c : Core ℝ) (hc : c.Std) (med : ℤ → ℤ → Medium) (R : Box) (hp : Matter c med R) (ht : c.tfsf = none) (i0 : ℤ) (e1 e2 s1 s2 : ℝ)
    (r1 r2 : Response) (hm : ∀ i j, R.Mem i j → (med i j).base.eps = (if i < i0 then e1 else e2) ∧ (med i j).base.conduc = (if i < i0 then s1 else s2) ∧
      (med i j).res = (if i < i0 then r1 else r2)) (k1 k2 ky w : ℂ) (h0 : cellNumberC c.g.dt w ≠ 0)
    (hcos : cos (w * c.g.dt / 2) ≠ 0) (hr1 : r1.Regular (warped c.g.dt w)) (hr2 : r2.Regular (warped c.g.dt w)) (hs : sin ((k1 + k2) * c.g.dx / 2) ≠ 0)
    (d1 : permittivity e1 s1 r1 (warped c.g.dt w) * cellNumberC c.g.dt w ^ 2 = cellNumberC c.g.dx k1 ^ 2 + cellNumberC c.g.dx ky ^ 2)
    (d2 : permittivity e2 s2 r2 (warped c.g.dt w) * cellNumberC c.g.dt w ^ 2 = cellNumberC c.g.dx k2 ^ 2 + cellNumberC c.g.dx ky ^ 2) (A : ℂ) (t0 : ℝ)
    (st : HasAll (fun i j => (mirE c.g A k1 k2 ky w t0 i0 0 i j).re) (fun i j => (mirX c.g A k1 k2 ky w t0 i0 0 i j).re)
      (fun i j => (mirY c.g A k1 k2 ky w t0 i0 0 i j).re) (fun i j => (mirK c.g r1 r2 A k1 k2 ky w t0 i0 0 i j).re) c med R) :
    ∃ c', c.run n [] = .ok (c', []) ∧ ∀ i j, (R.shrink n).Mem i j →
      c'.f.Ez.val i j = (mirrored c.g.dx A k1 k2 ky w ((i0 - 1 / 2) * c.g.dx) (i * c.g.dx) (j * c.g.dx) (t0 + n * c.g.dt)).re := by
  obtain ⟨c', u, k⟩ := matter_run n hc hp ht (mirror_solves hc.law i0 hm h0 hcos hr1 hr2 hs d1 d2 A t0).re (fun n i j m => by
    rw [(hm i j m).2.2]
    exact suscept_flat fun h => by unfold mirK; rw [h]; simp [Response.suscept]) st
  exact ⟨c', u, k.fields.Ez⟩

/-- **C91**, the frequency. The frequency at which the media respond lies above that of the wave, by less than a part `(ω dt)² / 8` of itself. -/
theorem C91_frequency (dt w : ℝ) (hd : 0 < dt) (hw : 0 ≤ w) (h : w * dt < Real.pi) :
    ∃ Ω : ℝ, warped dt w = Ω ∧ w ≤ Ω ∧ Ω * (1 - (w * dt) ^ 2 / 8) ≤ w ∧ cos ((w : ℂ) * dt / 2) ≠ 0 ∧ (0 < w → cellNumberC dt w ≠ 0) := by
  have x0 : 0 ≤ w * dt / 2 := by positivity
  have x1 : w * dt / 2 < Real.pi / 2 := by linarith
  have cp := Real.cos_pos_of_mem_Ioo (x := w * dt / 2) ⟨by linarith [Real.pi_pos], x1⟩
  have re : (w : ℂ) * dt / 2 = ((w * dt / 2 : ℝ) : ℂ) := by push_cast; ring
  refine ⟨2 / dt * Real.tan (w * dt / 2), ?_, ?_, ?_, ?_, ?_⟩
  · unfold warped
    rw [re, ← ofReal_tan]
    push_cast
    ring
  · have := Real.le_tan x0 x1
    calc w = 2 / dt * (w * dt / 2) := by field_simp
      _ ≤ _ := mul_le_mul_of_nonneg_left this (by positivity)
  · rw [Real.tan_eq_sin_div_cos]
    set x := w * dt / 2 with hx
    have s1 := Real.sin_le x0
    have s0 := Real.sin_nonneg_of_nonneg_of_le_pi x0 (by linarith [Real.pi_pos])
    have c1 := Real.one_sub_sq_div_two_le_cos (x := x)
    have e : 1 - (w * dt) ^ 2 / 8 = 1 - x ^ 2 / 2 := by rw [hx]; ring
    rw [e]
    have : Real.sin x / Real.cos x * (1 - x ^ 2 / 2) ≤ x := by
      rw [div_mul_eq_mul_div, div_le_iff₀ cp]
      have a := mul_le_mul_of_nonneg_left c1 s0
      have b := mul_le_mul_of_nonneg_right s1 cp.le
      linarith
    calc 2 / dt * (Real.sin x / Real.cos x) * (1 - x ^ 2 / 2) = 2 / dt * (Real.sin x / Real.cos x * (1 - x ^ 2 / 2)) := by ring
      _ ≤ 2 / dt * x := mul_le_mul_of_nonneg_left this (by positivity)
      _ = w := by rw [hx]; field_simp
  · rw [re, ← ofReal_cos]
    exact_mod_cast cp.ne'
  · intro hw0
    unfold cellNumberC
    rw [re, ← ofReal_sin]
    have := Real.sin_pos_of_pos_of_lt_pi (x := w * dt / 2) (by positivity) (by linarith [Real.pi_pos])
    have h2 : (2 / (dt : ℂ)) ≠ 0 := div_ne_zero two_ne_zero (by exact_mod_cast hd.ne')
    exact mul_ne_zero h2 (by exact_mod_cast this.ne')

/-- **C91**, the wave number. What the differences over a cell make of a wave number or of a frequency differs from it in second order. -/
theorem C91_number (d : ℝ) (hd : 0 < d) (k : ℂ) (h : ‖k‖ * d ≤ 2) : ‖cellNumberC d k - k‖ ≤ ‖k‖ ^ 3 * d ^ 2 / 20 := by
  have hn : ‖k * d / 2‖ = ‖k‖ * d / 2 := by
    rw [norm_div, norm_mul, norm_real, Real.norm_of_nonneg hd.le]; norm_num
  have h1 : ‖k * d / 2‖ ≤ 1 := by rw [hn]; linarith
  have b := Complex.sin_bound h1
  set x := k * d / 2 with hx
  have s : ‖sin x - x‖ ≤ ‖x‖ ^ 3 / 5 := by
    have e : sin x - x = (sin x - (x - x ^ 3 / 6)) - x ^ 3 / 6 := by ring
    have t : ‖x ^ 3 / 6‖ = ‖x‖ ^ 3 / 6 := by rw [norm_div, norm_pow]; norm_num
    have n0 := norm_nonneg x
    have p : ‖x‖ ^ 5 ≤ ‖x‖ ^ 3 := pow_le_pow_of_le_one n0 h1 (by norm_num)
    have q := pow_nonneg n0 3
    rw [e]
    refine (norm_sub_le _ _).trans ?_
    rw [t]
    linarith
  have dne : (d : ℂ) ≠ 0 := by exact_mod_cast hd.ne'
  have e : cellNumberC d k - k = 2 / d * (sin x - x) := by
    unfold cellNumberC
    rw [← hx, mul_sub, hx]
    congr 1
    field_simp
  rw [e, norm_mul, norm_div, norm_real, Real.norm_of_nonneg hd.le]
  rw [hn] at s
  calc ‖(2 : ℂ)‖ / d * ‖sin x - x‖ ≤ 2 / d * ((‖k‖ * d / 2) ^ 3 / 5) := by
        rw [show ‖(2 : ℂ)‖ = 2 by norm_num]
        exact mul_le_mul_of_nonneg_left s (by positivity)
    _ = _ := by field_simp; ring

/-- The permittivity of a medium that takes up energy has a positive imaginary part. -/
theorem permittivity_im {e s Ω : ℝ} {r : Response} (hs : 0 ≤ s) (hr : r.Passive) (hΩ : 0 < Ω) :
    0 ≤ (permittivity e s r Ω).im ∧ (Absorbs s r → 0 < (permittivity e s r Ω).im) ∧ r.Regular Ω := by
  have c1 : (I * s / (Ω : ℂ)).im = s / Ω := by
    rw [div_ofReal_im]; simp
  have c0 : 0 ≤ s / Ω := by positivity
  cases r with
  | plain =>
    have : (permittivity e s .plain Ω).im = s / Ω := by
      unfold permittivity; simp only [Response.suscept, add_im, c1, ofReal_im]; simp
    rw [this]
    exact ⟨c0, fun h => div_pos h hΩ, trivial⟩
  | debye d t =>
    obtain ⟨hd, ht⟩ := hr
    have ne : (1 - I * Ω * t : ℂ) ≠ 0 := by
      intro h
      have := congrArg Complex.re h
      simp at this
    have : (permittivity e s (.debye d t) Ω).im = s / Ω + d * (Ω * t) / (1 + (Ω * t) ^ 2) := by
      unfold permittivity
      simp only [Response.suscept, add_im, c1, ofReal_im]
      rw [div_im]
      simp [normSq_apply]
      field_simp
    rw [this]
    have : 0 < d * (Ω * t) / (1 + (Ω * t) ^ 2) := by positivity
    exact ⟨by linarith, fun _ => by linarith, ne⟩
  | drude c o =>
    obtain ⟨hc, ho⟩ := hr
    have ne : (Ω + I * c : ℂ) ≠ 0 := by
      intro h
      have := congrArg Complex.re h
      simp at this
      exact hΩ.ne' this
    have : (permittivity e s (.drude c o) Ω).im = s / Ω + o ^ 2 * c / (Ω * (Ω ^ 2 + c ^ 2)) := by
      unfold permittivity
      simp only [Response.suscept, add_im, c1, ofReal_im]
      rw [show -(o : ℂ) ^ 2 / (Ω * (Ω + I * c)) = ((-(o ^ 2 / Ω) : ℝ) : ℂ) / (Ω + I * c) by push_cast; field_simp, div_im]
      simp only [ofReal_re, ofReal_im, normSq_apply, add_re, add_im, mul_re, mul_im, I_re, I_im]
      have p : 0 < Ω ^ 2 + c ^ 2 := by positivity
      rw [show (Ω + (0 * c - 1 * 0)) * (Ω + (0 * c - 1 * 0)) + (0 + (0 * 0 + 1 * c)) * (0 + (0 * 0 + 1 * c)) = Ω ^ 2 + c ^ 2 by ring]
      field_simp
      ring
    rw [this]
    have : 0 ≤ o ^ 2 * c / (Ω * (Ω ^ 2 + c ^ 2)) := by positivity
    refine ⟨by linarith, ?_, ne⟩
    rintro (⟨h, -⟩ | h)
    · have : 0 < o ^ 2 * c / (Ω * (Ω ^ 2 + c ^ 2)) := by positivity
      linarith
    · have : 0 < s / Ω := div_pos h hΩ
      linarith

theorem sin_sq_im (a b : ℝ) : (sin (a + b * I) ^ 2).im = Real.sin (2 * a) * Real.sinh (2 * b) / 2 := by
  have : sin (a + b * I) ^ 2 = 1 / 2 - cos (2 * a + 2 * b * I) / 2 := by
    rw [Complex.sin_sq, Complex.cos_sq, show 2 * ((a : ℂ) + b * I) = 2 * a + 2 * b * I by ring]; ring
  rw [this, show (2 * a + 2 * b * I : ℂ) = ((2 * a : ℝ) : ℂ) + ((2 * b : ℝ) : ℂ) * I by push_cast; ring, Complex.cos_add_mul_I, ← ofReal_cos, ← ofReal_cosh, ← ofReal_sin, ← ofReal_sinh,
    show ((1 : ℂ) / 2 - ((Real.cos (2 * a) : ℂ) * Real.cosh (2 * b) - Real.sin (2 * a) * Real.sinh (2 * b) * I) / 2) =
      ((1 / 2 - Real.cos (2 * a) * Real.cosh (2 * b) / 2 : ℝ) : ℂ) + ((Real.sin (2 * a) * Real.sinh (2 * b) / 2 : ℝ) : ℂ) * I by push_cast; ring,
    add_im, ofReal_im, im_ofReal_mul, I_im]
  ring

/-- **C91**, absorption. In a medium that takes up energy, at any frequency `0 < ω < π / dt`, every wave number that the grid admits belongs to a wave that decays in the
direction in which it travels; and there is one that travels and decays to the right. -/
theorem C91_decay (g : Grid ℝ) (hl : Lawful g) (e s : ℝ) (r : Response) (hs : 0 ≤ s) (hr : r.Passive) (ha : Absorbs s r) (w : ℝ) (hw : 0 < w)
    (h : w * g.dt < Real.pi) :
    (∀ k : ℂ, permittivity e s r (warped g.dt w) * cellNumberC g.dt w ^ 2 = cellNumberC g.dx k ^ 2 → 0 < k.im * Real.sin (k.re * g.dx)) ∧
      ∃ k : ℂ, permittivity e s r (warped g.dt w) * cellNumberC g.dt w ^ 2 = cellNumberC g.dx k ^ 2 ∧ 0 < k.im ∧ 0 < k.re ∧ k.re * g.dx < Real.pi := by
  have hx := hl.dx
  have hd : 0 < g.dt := by rw [hl.dt]; positivity
  obtain ⟨Ω, o1, o2, -, -, o5⟩ := C91_frequency g.dt w hd hw.le h
  have im := (permittivity_im (e := e) hs hr (lt_of_lt_of_le hw o2)).2.1 ha
  rw [← o1] at im
  have wr : cellNumberC g.dt w = ((2 / g.dt * Real.sin (w * g.dt / 2) : ℝ) : ℂ) := by
    unfold cellNumberC; push_cast; ring
  set ε := permittivity e s r (warped g.dt w) with hε
  have p2 : 0 < (2 / g.dt * Real.sin (w * g.dt / 2)) ^ 2 := by
    have := o5 hw
    rw [wr] at this
    have : 2 / g.dt * Real.sin (w * g.dt / 2) ≠ 0 := by exact_mod_cast this
    positivity
  set z : ℂ := ε * cellNumberC g.dt w ^ 2 with hz
  have zim : 0 < z.im := by
    rw [hz, wr, ← ofReal_pow, mul_comm, im_ofReal_mul]
    exact mul_pos p2 im
  have dne : (g.dx : ℂ) ≠ 0 := by exact_mod_cast hx.ne'
  have cell : ∀ k : ℂ, (cellNumberC g.dx k ^ 2).im = (2 / g.dx) ^ 2 * (Real.sin (k.re * g.dx) * Real.sinh (k.im * g.dx) / 2) := by
    intro k
    unfold cellNumberC
    rw [mul_pow, show ((2 : ℂ) / g.dx) ^ 2 = (((2 / g.dx) ^ 2 : ℝ) : ℂ) by push_cast; ring, im_ofReal_mul]
    congr 1
    have := sin_sq_im (k.re * g.dx / 2) (k.im * g.dx / 2)
    rw [show ((k.re * g.dx / 2 : ℝ) : ℂ) + ((k.im * g.dx / 2 : ℝ) : ℂ) * I = k * g.dx / 2 by
      conv_rhs => rw [← re_add_im k]
      push_cast; ring] at this
    rw [this, show 2 * (k.re * g.dx / 2) = k.re * g.dx by ring, show 2 * (k.im * g.dx / 2) = k.im * g.dx by ring]
  have all : ∀ k : ℂ, z = cellNumberC g.dx k ^ 2 → 0 < k.im * Real.sin (k.re * g.dx) := by
    intro k hk
    rw [hk, cell] at zim
    have pos : 0 < Real.sin (k.re * g.dx) * Real.sinh (k.im * g.dx) := by
      have q : 0 < (2 / g.dx) ^ 2 := by positivity
      have := (mul_pos_iff_of_pos_left q).mp zim
      linarith
    rcases pos_and_pos_or_neg_and_neg_of_mul_pos pos with ⟨a, b⟩ | ⟨a, b⟩
    · have : 0 < k.im * g.dx := Real.sinh_pos_iff.mp b
      exact mul_pos ((mul_pos_iff_of_pos_right hx).mp this) a
    · have : k.im * g.dx < 0 := Real.sinh_neg_iff.mp b
      exact mul_pos_of_neg_of_neg (by by_contra hn; have := mul_nonneg (not_lt.mp hn) hx.le; linarith) a
  refine ⟨all, ?_⟩
  -- some wave number
  obtain ⟨q, hq⟩ := IsAlgClosed.exists_pow_nat_eq (z * (g.dx / 2) ^ 2) (n := 2) (by norm_num)
  obtain ⟨θ, hθ⟩ := Complex.sin_surjective q
  have base : ∀ φ : ℂ, sin φ ^ 2 = sin θ ^ 2 → z = cellNumberC g.dx (2 / g.dx * φ) ^ 2 := by
    intro φ hφ
    unfold cellNumberC
    rw [show 2 / (g.dx : ℂ) * φ * g.dx / 2 = φ by field_simp, mul_pow, hφ, hθ, hq]
    field_simp
  have conv : ∀ φ : ℂ, ((2 / (g.dx : ℂ) * φ).im = 2 / g.dx * φ.im) ∧ ((2 / (g.dx : ℂ) * φ).re * g.dx = 2 * φ.re) := by
    intro φ
    rw [show (2 : ℂ) / g.dx = ((2 / g.dx : ℝ) : ℂ) by push_cast; ring, im_ofReal_mul, re_ofReal_mul]
    exact ⟨rfl, by field_simp⟩
  -- with positive imaginary part
  obtain ⟨φ, f1, f2⟩ : ∃ φ : ℂ, sin φ ^ 2 = sin θ ^ 2 ∧ 0 < φ.im := by
    have key := all _ (base θ rfl)
    rw [(conv θ).1] at key
    rcases lt_trichotomy θ.im 0 with hn | hn | hn
    · exact ⟨-θ, by rw [Complex.sin_neg, neg_sq], by simpa using hn⟩
    · rw [hn] at key; simp at key
    · exact ⟨θ, rfl, hn⟩
  -- and real part in the first period
  obtain ⟨m, hm⟩ : ∃ m : ℤ, 0 ≤ φ.re + m * Real.pi ∧ φ.re + m * Real.pi < Real.pi := by
    refine ⟨-⌊φ.re / Real.pi⌋, ?_, ?_⟩
    · have := Int.floor_le (φ.re / Real.pi)
      rw [le_div_iff₀ Real.pi_pos] at this
      push_cast; linarith
    · have := Int.lt_floor_add_one (φ.re / Real.pi)
      rw [div_lt_iff₀ Real.pi_pos] at this
      push_cast; linarith
  set ψ : ℂ := φ + m * (Real.pi : ℂ) with hψ
  have pre : ψ.re = φ.re + m * Real.pi := by
    rw [hψ, show (m : ℂ) * (Real.pi : ℂ) = ((m * Real.pi : ℝ) : ℂ) by push_cast; ring]; simp
  have pim : ψ.im = φ.im := by
    rw [hψ, show (m : ℂ) * (Real.pi : ℂ) = ((m * Real.pi : ℝ) : ℂ) by push_cast; ring]; simp
  have psq : sin ψ ^ 2 = sin θ ^ 2 := by
    rw [← f1, Complex.sin_sq, Complex.sin_sq φ, Complex.cos_sq, Complex.cos_sq φ, hψ, show 2 * (φ + m * (Real.pi : ℂ)) = 2 * φ + m * (2 * Real.pi) by ring,
      Complex.cos_add_int_mul_two_pi]
  have K := base ψ psq
  have sgn := all _ K
  obtain ⟨c1, c2⟩ := conv ψ
  rw [c1, c2, pim] at sgn
  have up : 0 < 2 / g.dx * φ.im := by positivity
  have spos : 0 < Real.sin (2 * ψ.re) := (mul_pos_iff_of_pos_left up).mp sgn
  rw [pre] at spos c2
  set x := φ.re + m * Real.pi
  have x0 : x ≠ 0 := by intro hx'; rw [hx'] at spos; simp at spos
  have x1 : 2 * x < Real.pi := by
    by_contra hn
    have := Real.sin_nonpos_of_nonpos_of_neg_pi_le (x := 2 * x - 2 * Real.pi) (by linarith [hm.2]) (by linarith [not_lt.mp hn])
    rw [Real.sin_sub_two_pi] at this
    linarith
  refine ⟨2 / g.dx * ψ, K, by rw [c1, pim]; exact up, ?_, by rw [c2]; exact x1⟩
  have : 0 < (2 / (g.dx : ℂ) * ψ).re * g.dx := by
    rw [c2]
    have := lt_of_le_of_ne hm.1 (Ne.symm x0)
    linarith
  exact (mul_pos_iff_of_pos_right hx).mp this

/-- **C91**, mirrors. A wave that cannot enter the second medium, with an imaginary wave number there (a Drude metal without losses below its plasma frequency, or total
reflection), is reflected entirely. -/
theorem C91_mirror (d k1 κ : ℝ) (h : sin ((k1 + I * κ) * d / 2) ≠ 0) : ‖mirrorBack d k1 (I * κ)‖ = 1 := by
  unfold mirrorBack
  have e : ((k1 : ℂ) - I * κ) * d / 2 = (starRingEnd ℂ) (((k1 : ℂ) + I * κ) * d / 2) := by
    rw [map_div₀, map_mul, map_add, map_mul, conj_ofReal, conj_ofReal, conj_ofReal, conj_I, show (starRingEnd ℂ) 2 = 2 from conj_ofReal 2]
    ring
  rw [norm_div, e, Complex.sin_conj, norm_conj, div_self]
  exact norm_ne_zero_iff.mpr h

/-- A Drude metal without losses below its plasma frequency admits no waves: there is an imaginary wave number. -/
theorem C91_metal (g : Grid ℝ) (hl : Lawful g) (e o w : ℝ) (hw : 0 < w) (h : w * g.dt < Real.pi) (Ω : ℝ) (hΩ : warped g.dt w = Ω)
    (below : e * Ω ^ 2 < o ^ 2) :
    ∃ κ : ℝ, 0 < κ ∧ permittivity e 0 (.drude 0 o) (warped g.dt w) * cellNumberC g.dt w ^ 2 = cellNumberC g.dx (I * κ) ^ 2 := by
  have hx := hl.dx
  have hd : 0 < g.dt := by rw [hl.dt]; positivity
  obtain ⟨Ω', o1, o2, -, -, o5⟩ := C91_frequency g.dt w hd hw.le h
  obtain rfl : Ω' = Ω := by rw [hΩ] at o1; exact_mod_cast o1.symm
  have Ω0 : 0 < Ω' := lt_of_lt_of_le hw o2
  have wr : cellNumberC g.dt w = ((2 / g.dt * Real.sin (w * g.dt / 2) : ℝ) : ℂ) := by
    unfold cellNumberC; push_cast; ring
  set W := 2 / g.dt * Real.sin (w * g.dt / 2) with hW
  have W0 : W ≠ 0 := by
    have := o5 hw
    rw [wr] at this
    exact_mod_cast this
  have pe : permittivity e 0 (.drude 0 o) Ω' = ((-((o ^ 2 - e * Ω' ^ 2) / Ω' ^ 2) : ℝ) : ℂ) := by
    unfold permittivity
    simp only [Response.suscept]
    push_cast
    have : (Ω' : ℂ) ≠ 0 := by exact_mod_cast Ω0.ne'
    rw [mul_zero, zero_div, add_zero, add_zero]
    field_simp
    ring
  set y := g.dx / 2 * Real.sqrt ((o ^ 2 - e * Ω' ^ 2) / Ω' ^ 2) * |W| with hy
  have yp : 0 < y := by
    have : 0 < (o ^ 2 - e * Ω' ^ 2) / Ω' ^ 2 := div_pos (by linarith) (by positivity)
    have := Real.sqrt_pos.mpr this
    have := abs_pos.mpr W0
    positivity
  refine ⟨2 / g.dx * Real.arsinh y, ?_, ?_⟩
  · have := Real.arsinh_pos_iff.mpr yp
    positivity
  · rw [hΩ, pe, wr]
    have dne : (g.dx : ℂ) ≠ 0 := by exact_mod_cast hx.ne'
    have c : cellNumberC g.dx (I * ((2 / g.dx * Real.arsinh y : ℝ) : ℂ)) = ((2 / g.dx * y : ℝ) : ℂ) * I := by
      unfold cellNumberC
      rw [show I * ((2 / g.dx * Real.arsinh y : ℝ) : ℂ) * g.dx / 2 = (Real.arsinh y : ℂ) * I by push_cast; field_simp, Complex.sin_mul_I, ← ofReal_sinh, Real.sinh_arsinh]
      push_cast
      ring
    rw [c, mul_pow, I_sq, ← ofReal_pow, ← ofReal_pow]
    have : (2 / g.dx * y) ^ 2 = (o ^ 2 - e * Ω' ^ 2) / Ω' ^ 2 * W ^ 2 := by
      rw [hy, show 2 / g.dx * (g.dx / 2 * Real.sqrt ((o ^ 2 - e * Ω' ^ 2) / Ω' ^ 2) * |W|) = Real.sqrt ((o ^ 2 - e * Ω' ^ 2) / Ω' ^ 2) * |W| by field_simp,
        mul_pow, sq_abs, Real.sq_sqrt (div_nonneg (by linarith) (by positivity))]
    rw [this]
    push_cast
    ring

theorem debye_with {P : DebyePol ℝ} {i j : ℤ} (K : ℤ → ℤ → ℝ) (h : DebyeQuiet P i j) : DebyeQuiet (debyeWith K P) i j := by
  intro N n0 n1
  obtain ⟨a, b⟩ := h N n0 n1
  refine ⟨?_, b⟩
  simp only [debyeWith, b, if_true]
  exact a

theorem drude_with {P : DrudePol ℝ} {i j : ℤ} (K : ℤ → ℤ → ℝ) (h : DrudeQuiet P i j) : DrudeQuiet (drudeWith K P) i j := by
  intro N n0 n1
  obtain ⟨a, b⟩ := h N n0 n1
  refine ⟨?_, b⟩
  simp only [drudeWith, b, if_true]
  exact a

/-- Other currents leave the media as they are. -/
theorem filled_with {c : Core ℝ} {i j : ℤ} {m : Medium} (K : ℤ → ℤ → ℝ) (h : Filled c i j m) : Filled (withCurrents c K) i j m := by
  cases m with
  | simple m =>
    have h' : InSimple c m i j := h
    refine ⟨fun q hq => ?_, fun q hq => ?_, h'.lorentz, h'.medium⟩
    · obtain ⟨q', h1, rfl⟩ := List.mem_map.mp hq
      exact debye_with K (h'.debye q' h1)
    · obtain ⟨q', h1, rfl⟩ := List.mem_map.mp hq
      exact drude_with K (h'.drude q' h1)
  | debye k m =>
    obtain ⟨n, P, b, a, h, rfl, rfl⟩ := h
    refine ⟨n, debyeWith K P, b.map fun q => (q.1, debyeWith K q.2), a.map fun q => (q.1, debyeWith K q.2), ⟨?_, fun q hq => ?_, fun q hq => ?_, h.lorentz, h.medium, h.strength⟩, by simp, rfl⟩
    · show c.debye.map _ = _
      rw [h.entry, List.map_append, List.map_cons]
    · rw [← List.map_append] at hq
      obtain ⟨q', h1, rfl⟩ := List.mem_map.mp hq
      exact debye_with K (h.others q' h1)
    · obtain ⟨q', h1, rfl⟩ := List.mem_map.mp hq
      exact drude_with K (h.drude q' h1)
  | drude k m =>
    obtain ⟨n, P, b, a, h, rfl, rfl⟩ := h
    refine ⟨n, drudeWith K P, b.map fun q => (q.1, drudeWith K q.2), a.map fun q => (q.1, drudeWith K q.2), ⟨?_, fun q hq => ?_, fun q hq => ?_, h.lorentz, h.medium, h.strength⟩, by simp, rfl⟩
    · show c.drude.map _ = _
      rw [h.entry, List.map_append, List.map_cons]
    · rw [← List.map_append] at hq
      obtain ⟨q', h1, rfl⟩ := List.mem_map.mp hq
      exact drude_with K (h.others q' h1)
    · obtain ⟨q', h1, rfl⟩ := List.mem_map.mp hq
      exact debye_with K (h.debye q' h1)

/-- The current at a node of a medium of one pole. -/
theorem cur_with {c : Core ℝ} {i j : ℤ} {m : Medium} (K : ℤ → ℤ → ℝ) (hd : 0 < c.g.dt) (hp : m.Passive) (hs : m.Single) (h : Filled c i j m) :
    m.res.flow (m.cur (withCurrents c K) i j) = m.res.flow (K i j) := by
  cases m with
  | simple m => rfl
  | debye k m =>
    obtain ⟨n, P, b, a, h, rfl, rfl⟩ := h
    have hp' : DebyePassive P.mat := hp
    have hs' : P.mat.poles.length ≤ 1 := hs
    have e : (withCurrents c K).debye[b.length]? = some (n, debyeWith K P) := by
      show (c.debye.map _)[b.length]? = _
      rw [List.getElem?_map, get_split h.entry]; rfl
    simp only [Medium.cur, Medium.res, e]
    match hq : P.mat.poles with
    | [] => rfl
    | [p] =>
      have st := h.strength 0 (by rw [hq]; simp)
      simp only [hq, List.getElem_cons_zero, Nat.cast_zero] at st
      have pos := pole_beta_pos (hp'.tau p (by rw [hq]; simp)) (hp'.dEps p (by rw [hq]; simp)) hd
      simp only [Response.flow, debyeWith, st, pos.ne', if_false]
    | p :: q :: l => rw [hq] at hs'; simp at hs'
  | drude k m =>
    obtain ⟨n, P, b, a, h, rfl, rfl⟩ := h
    have hp' : DrudePassive P.mat := hp
    have hs' : P.mat.poles.length ≤ 1 := hs
    have e : (withCurrents c K).drude[b.length]? = some (n, drudeWith K P) := by
      show (c.drude.map _)[b.length]? = _
      rw [List.getElem?_map, get_split h.entry]; rfl
    simp only [Medium.cur, Medium.res, e]
    match hq : P.mat.poles with
    | [] => rfl
    | [p] =>
      have st := h.strength 0 (by rw [hq]; simp)
      simp only [hq, List.getElem_cons_zero, Nat.cast_zero] at st
      have g0 := hp'.gamma p (by rw [hq]; simp)
      have o0 := hp'.omega p (by rw [hq]; simp)
      have pos : 0 < p.beta c.g.dt := by
        simp only [DrudePole.beta, npow_real, ofInt_real]
        push_cast
        positivity
      simp only [Response.flow, drudeWith, st, pos.ne', if_false]
    | p :: q :: l => rw [hq] at hs'; simp at hs'

theorem std_with {c : Core ℝ} (hc : c.Std) (E X Y K : ℤ → ℤ → ℝ) : (withCurrents (withFields c E X Y) K).Std := by
  refine hc.of_same { hc.wf with
    f := { hc.wf.f with Ez := hc.wf.f.Ez, Hx := hc.wf.f.Hx, Hy := hc.wf.f.Hy }
    hasE := ?_
    debye := ?_
    drude := ?_ } rfl rfl rfl rfl
  · intro h
    refine hc.wf.hasE ?_
    simpa [withCurrents, withFields] using h
  · intro q hq
    obtain ⟨q', h1, rfl⟩ := List.mem_map.mp hq
    have := hc.wf.debye q' h1
    exact ⟨this.np, this.J, this.beta⟩
  · intro q hq
    obtain ⟨q', h1, rfl⟩ := List.mem_map.mp hq
    have := hc.wf.drude q' h1
    exact ⟨this.np, this.J, this.beta⟩

/-- **C91** for programs: a new simulation with any layer, any objects that fill a rectangle with two media, one to each side of a plane, the fields and currents of the
three waves in it. -/
theorem C91_program (n : ℕ) (g : Grid ℝ) (hw : g.Wide) (hl : Lawful g) (hT : g.T = 0 ∨ 2 ≤ g.T) (objs : List (Object ℝ)) (hb : ∀ o ∈ objs, BoxSound o)
    (hc : ∀ o ∈ objs, ClearOfUnguardedEdges g o) (hp : ∀ o ∈ objs, PassiveKind o.mat.kind) (hnm : OneMeaning objs) (hu : Uncovered g objs)
    (eps sig : ℝ → ℝ → ℝ) (res : ℝ → ℝ → Response) (hmat : MatterOf objs eps sig res) (R : Box) (hR : ∀ i j, R.Mem i j → Beyond g i j) (i0 : ℤ)
    (e1 e2 s1 s2 : ℝ) (r1 r2 : Response)
    (hm : ∀ i j : ℤ, R.Mem i j → eps (i * g.dx) (j * g.dx) = (if i < i0 then e1 else e2) ∧ sig (i * g.dx) (j * g.dx) = (if i < i0 then s1 else s2) ∧
      res (i * g.dx) (j * g.dx) = (if i < i0 then r1 else r2)) (k1 k2 ky w : ℂ) (h0 : cellNumberC g.dt w ≠ 0)
    (hcos : cos (w * g.dt / 2) ≠ 0) (hr1 : r1.Regular (warped g.dt w)) (hr2 : r2.Regular (warped g.dt w)) (hs : sin ((k1 + k2) * g.dx / 2) ≠ 0)
    (d1 : permittivity e1 s1 r1 (warped g.dt w) * cellNumberC g.dt w ^ 2 = cellNumberC g.dx k1 ^ 2 + cellNumberC g.dx ky ^ 2)
    (d2 : permittivity e2 s2 r2 (warped g.dt w) * cellNumberC g.dt w ^ 2 = cellNumberC g.dx k2 ^ 2 + cellNumberC g.dx ky ^ 2) (A : ℂ) (E X Y K : ℤ → ℤ → ℝ)
    (st : ∀ i j, R.Mem i j → E i j = (mirE g A k1 k2 ky w 0 i0 0 i j).re ∧ X i j = (mirX g A k1 k2 ky w 0 i0 0 i j).re ∧
      Y i j = (mirY g A k1 k2 ky w 0 i0 0 i j).re ∧ K i j = (mirK g r1 r2 A k1 k2 ky w 0 i0 0 i j).re) :
    ∃ c0 c1 c2, Core.make g = .ok c0 ∧ forList objs c0 (fun o c => c.insertObject o) = .ok c1 ∧
      (withCurrents (withFields c1 E X Y) K).run n [] = .ok (c2, []) ∧ ∀ i j, (R.shrink n).Mem i j →
        c2.f.Ez.val i j = (mirrored g.dx A k1 k2 ky w ((i0 - 1 / 2) * g.dx) (i * g.dx) (j * g.dx) (n * g.dt)).re := by
  obtain ⟨c0, c1, h1, h2, h3, h4, h5, h6, h7⟩ := objects_filled hw hl hT objs hb hc hp hnm hu
  have pick : ∀ i j, ∃ m : Medium, R.Mem i j → m.Passive ∧ Filled c1 i j m ∧
        (∀ o, TopAt objs (g.toReal ⟨i, j⟩) o → Medium.Of o.mat.kind m) ∧ ((∀ o ∈ objs, o.inside (g.toReal ⟨i, j⟩) = false) → m = .simple Qbox.vacuum) := by
    intro i j
    by_cases h : R.Mem i j
    · obtain ⟨a1, a2, a3, a4⟩ := Beyond_mem hT (hR i j h)
      obtain ⟨m, hm⟩ := h7 i j a1 a2 a3 a4
      exact ⟨m, fun _ => hm⟩
    · exact ⟨.simple Qbox.vacuum, fun h' => absurd h' h⟩
  choose med hmed using pick
  have pt : ∀ i j : ℤ, g.toReal ⟨i, j⟩ = ⟨i * g.dx, j * g.dx⟩ := fun i j => by simp [Grid.toReal, mul_comm]
  have node : ∀ i j, R.Mem i j → (med i j).base.eps = eps (i * g.dx) (j * g.dx) ∧ (med i j).base.conduc = sig (i * g.dx) (j * g.dx) ∧
      (med i j).res = res (i * g.dx) (j * g.dx) ∧ (med i j).Single := by
    intro i j hm
    obtain ⟨-, -, k3, k4⟩ := hmed i j hm
    rcases C09_total objs (g.toReal ⟨i, j⟩) with hv | ⟨o, ho⟩
    · have := hmat.vacuum _ hv
      rw [pt] at this
      obtain ⟨a, b, c⟩ := this
      rw [k4 hv]
      simp only at a b c
      rw [a, b, c]
      exact ⟨by simp [Medium.base, Qbox.vacuum], by simp [Medium.base, Qbox.vacuum], rfl, trivial⟩
    · have := hmat.object _ o ho
      rw [pt] at this
      obtain ⟨a, b, c, d, -⟩ := Medium.of_kind (k3 o ho) this
      exact ⟨a, b, c, d⟩
  have keep : ∀ i j, R.Mem i j → Filled (withFields c1 E X Y) i j (med i j) := by
    intro i j h
    have := (hmed i j h).2.1
    revert this
    cases med i j with
    | simple m =>
      intro q
      have q : InSimple c1 m i j := q
      exact ⟨q.debye, q.drude, q.lorentz, ⟨q.medium.Ca, q.medium.Cb, q.medium.Da, q.medium.Db⟩⟩
    | debye k m =>
      rintro ⟨n, P, b, a, q, e1, e2⟩
      exact ⟨n, P, b, a, ⟨q.entry, q.others, q.drude, q.lorentz, ⟨q.medium.Ca, q.medium.Cb, q.medium.Da, q.medium.Db⟩, q.strength⟩, e1, e2⟩
    | drude k m =>
      rintro ⟨n, P, b, a, q, e1, e2⟩
      exact ⟨n, P, b, a, ⟨q.entry, q.others, q.debye, q.lorentz, ⟨q.medium.Ca, q.medium.Cb, q.medium.Da, q.medium.Db⟩, q.strength⟩, e1, e2⟩
  have M : Matter (withCurrents (withFields c1 E X Y) K) med R := by
    refine ⟨⟨fun i j h => ?_, fun i j h => filled_with K (keep i j h), fun i j h => (hmed i j h).1, h6⟩, fun i j h => (node i j h).2.2.2⟩
    show Beyond c1.g i j
    rw [h4]; exact hR i j h
  have eg : (withCurrents (withFields c1 E X Y) K).g = g := h4
  obtain ⟨c2, u, v⟩ := C91_plane n _ (std_with h3 E X Y K) med R M h5.tfsf i0 e1 e2 s1 s2 r1 r2 (fun i j h => by
      obtain ⟨a, b, c, -⟩ := node i j h
      rw [a, b, c]
      exact hm i j h) k1 k2 ky w (by rw [eg]; exact h0) (by rw [eg]; exact hcos) (by rw [eg]; exact hr1) (by rw [eg]; exact hr2) (by rw [eg]; exact hs)
    (by rw [eg]; exact d1) (by rw [eg]; exact d2) A 0 (by
      rw [eg]
      refine ⟨⟨fun i j h => (st i j h).1, fun i j h => (st i j h).2.1, fun i j h => (st i j h).2.2.1⟩, fun i j h => ?_⟩
      have d : 0 < (withFields c1 E X Y).g.dt := by
        show 0 < c1.g.dt
        rw [h4, hl.dt]
        have := hl.dx
        positivity
      rw [cur_with K d (hmed i j h).1 (node i j h).2.2.2 (keep i j h), (st i j h).2.2.2]
      refine suscept_flat fun hpl => ?_
      rw [(node i j h).2.2.1, (hm i j h).2.2] at hpl
      unfold mirK
      rw [hpl]
      simp [Response.suscept])
  rw [eg] at v
  refine ⟨c0, c1, c2, h1, h2, u, fun i j h => ?_⟩
  rw [v i j h, zero_add]

/-! ## A non-trivial case: a wave that enters a metal -/

/-- A block of metal that fills the right half of the example grid. -/
noncomputable def metalHalf : Object ℝ := ⟨"metalHalf", .block ⟨8, 18⟩, ⟨"metal", .drude ⟨1, [⟨2, 1 / 10⟩]⟩⟩, ⟨27 / 2, 19 / 2⟩, 0⟩

theorem metalHalf_inside (p : V2 ℝ) : metalHalf.inside p = true ↔ |p.x - 27 / 2| ≤ 4 ∧ |p.y - 19 / 2| ≤ 9 := by
  rw [inside_pullback]
  simp only [metalHalf, Geometry.block, V2.cabs, ltb_real, Real.cos_zero, Real.sin_zero]
  norm_num

theorem metal_matter : MatterOf [metalHalf] (fun _ _ => 1) (fun _ _ => 0)
    (fun x y => if |x - 27 / 2| ≤ 4 ∧ |y - 19 / 2| ≤ 9 then .drude (1 / 10) 2 else .plain) := by
  constructor
  · rintro p o ⟨b, a, e, h1, -⟩
    have : o = metalHalf := List.mem_singleton.mp (by rw [e]; simp)
    subst this
    rw [metalHalf_inside] at h1
    simp only [h1, and_self, if_true]
    exact KindIs.drude 1 ⟨2, 1 / 10⟩
  · intro p hp
    have := hp _ (List.mem_singleton_self _)
    rw [← Bool.not_eq_true, metalHalf_inside] at this
    rw [if_neg this]
    exact ⟨rfl, rfl, rfl⟩

theorem cellNumberC_ofReal (d k : ℝ) : cellNumberC d k = (cellNumber d k : ℝ) := by
  unfold cellNumberC cellNumber; push_cast; ring

/-- A non-trivial case of `C91_program`: the half of metal on the example grid with its layer, a wave straight onto it; the wave decays in the metal. -/
example (n : ℕ) : ∃ (k1 : ℝ) (k2 : ℂ) (c0 c1 c2 : Core ℝ) (E X Y K : ℤ → ℤ → ℝ), 0 < k1 ∧ 0 < k2.im ∧ 0 < k2.re ∧
    Core.make gEx = .ok c0 ∧ forList [metalHalf] c0 (fun o c => c.insertObject o) = .ok c1 ∧ (withCurrents (withFields c1 E X Y) K).run n [] = .ok (c2, []) ∧
      ∀ i j, (Box.shrink ⟨4, 15, 4, 15⟩ n).Mem i j →
        c2.f.Ez.val i j = (mirrored gEx.dx 1 k1 k2 0 (1 / 2 : ℝ) (((10 : ℤ) - 1 / 2) * gEx.dx) (i * gEx.dx) (j * gEx.dx) (n * gEx.dt)).re := by
  have fine : (4 : ℝ) * (1 / 2 * gEx.dx) ^ 2 ≤ 2 := by rw [gEx_dx]; norm_num
  obtain ⟨k1, -, p1, q1, -, -, h0, d1, -, -, -⟩ := C90_fresnel gEx gEx_lawful 1 4 4 (1 / 2) (by norm_num) (by norm_num) (by norm_num) (by norm_num) (by norm_num) fine
  have low : (1 / 2 : ℝ) * gEx.dt < Real.pi := by rw [gEx_lawful.dt, gEx_dx]; linarith [Real.two_le_pi]
  have hd : 0 < gEx.dt := by rw [gEx_lawful.dt, gEx_dx]; norm_num
  obtain ⟨-, k2, d2, m1, m2, m3⟩ := C91_decay gEx gEx_lawful 1 0 (.drude (1 / 10) 2) le_rfl ⟨by norm_num, by norm_num⟩ (.inl ⟨by norm_num, by norm_num⟩) (1 / 2)
    (by norm_num) low
  obtain ⟨Ω, o1, o2, -, o4, o5⟩ := C91_frequency gEx.dt (1 / 2) hd (by norm_num) low
  have z0 : cellNumberC gEx.dx 0 = 0 := by unfold cellNumberC; simp
  have z1 : cellNumber gEx.dx 0 = 0 := by unfold cellNumber; simp
  obtain ⟨c0, c1, c2, u1, u2, u3, u4⟩ := C91_program n gEx gEx_wide gEx_lawful (by rw [gEx_T]; norm_num) [metalHalf]
    (by intro o ho; rw [List.mem_singleton.mp ho]; exact boxSound_lib _ (.block _))
    (by
      intro o ho p h
      rw [List.mem_singleton.mp ho, metalHalf_inside, abs_le, abs_le] at h
      rw [gEx_Lx]
      constructor <;> linarith [h.1.1, h.1.2, h.2.1, h.2.2])
    (by
      intro o ho
      rw [List.mem_singleton.mp ho]
      exact ⟨le_rfl, by simp, by simp, by simp⟩)
    (by
      intro o ho o' ho' _ _ _
      rw [List.mem_singleton.mp ho, List.mem_singleton.mp ho'])
    (by
      rintro o ho - i j - o' ⟨b, a, e, -, -⟩
      have : o' = metalHalf := List.mem_singleton.mp (by rw [e]; simp)
      rw [List.mem_singleton.mp ho, this]) _ _ _ metal_matter ⟨4, 15, 4, 15⟩
    (by
      intro i j h
      unfold Box.Mem at h
      simp only at h
      exact gEx_beyond (by omega) (by omega) (by omega) (by omega)) 10 1 1 0 0 .plain (.drude (1 / 10) 2)
    (by
      intro i j h
      unfold Box.Mem at h
      simp only at h
      refine ⟨by simp, by simp, ?_⟩
      rw [gEx_dx]
      simp only [mul_one]
      have a1 : (i : ℝ) ≤ 15 := by exact_mod_cast (by omega : i ≤ 15)
      have a2 : (4 : ℝ) ≤ j := by exact_mod_cast (by omega : 4 ≤ j)
      have a3 : (j : ℝ) ≤ 15 := by exact_mod_cast (by omega : j ≤ 15)
      by_cases hi : i < 10
      · have : (i : ℝ) ≤ 9 := by exact_mod_cast (by omega : i ≤ 9)
        rw [if_pos hi, if_neg]
        rintro ⟨h, -⟩
        rw [abs_le] at h
        linarith [h.1]
      · have : (10 : ℝ) ≤ i := by exact_mod_cast (by omega : 10 ≤ i)
        rw [if_neg hi, if_pos]
        constructor <;> rw [abs_le] <;> constructor <;> linarith) k1 k2 0 (1 / 2 : ℝ) (o5 (by norm_num)) o4 trivial
    (by rw [o1]; exact (permittivity_im (e := 1) (s := 0) (r := .drude (1 / 10) 2) le_rfl ⟨by norm_num, by norm_num⟩ (lt_of_lt_of_le (by norm_num) o2)).2.2)
    (by
      intro h
      obtain ⟨m, hm⟩ := Complex.sin_eq_zero_iff.mp h
      have := congrArg Complex.im hm
      rw [gEx_dx] at this
      rw [show ((k1 : ℂ) + k2) * ((1 : ℝ) : ℂ) / 2 = ((1 / 2 : ℝ) : ℂ) * (k1 + k2) by push_cast; ring, im_ofReal_mul,
        show (m : ℂ) * (Real.pi : ℂ) = ((m * Real.pi : ℝ) : ℂ) by push_cast; ring, ofReal_im, add_im, ofReal_im] at this
      linarith)
    (by
      rw [z0, cellNumberC_ofReal, cellNumberC_ofReal]
      rw [z1] at d1
      have := congrArg (fun x : ℝ => (x : ℂ)) d1
      simp only [ofReal_add, ofReal_mul, ofReal_pow] at this
      unfold permittivity
      simp only [Response.suscept]
      rw [← ofReal_zero, ← this]
      simp)
    (by rw [z0, d2]; ring) 1 _ _ _ _ (fun i j _ => ⟨rfl, rfl, rfl, rfl⟩)
  exact ⟨k1, k2, c0, c1, c2, _, _, _, _, p1, m1, m2, u1, u2, u3, u4⟩

end Qbox.Props
