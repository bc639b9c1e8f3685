import Verif.Props.FarFieldProps

/-!
# C55, C56: what the far field is not
-/

namespace Qbox.Props
open Qbox Scalar Spec

/-! ## C55: dependence on the resolution -/

/-- The observer faces a vertical segment and the recorded field is the same at all its points: every point contributes the same. -/
theorem C55_facing (k dx : ℝ) (a b c : V2 ℝ) (hv : a.x = b.x) (r : ℝ) (hr : 0 < r) (n : ℕ) (φ : TM) :
    lineFar k dx a b c ⟨c.x + r, c.y⟩ n (fun _ => φ) = n * lineFar k dx a b c ⟨c.x + r, c.y⟩ 1 (fun _ => φ) := by
  have hz : (lineTangent a b).x = 0 := by simp [lineTangent, hv]
  unfold lineFar farField
  have e : ∀ i : ℕ, inner2 (⟨c.x + r, c.y⟩ - c) ⟨a.x + dx * (i * (lineTangent a b).x) - c.x, a.y + dx * (i * (lineTangent a b).y) - c.y⟩ = r * (a.x - c.x) := by
    intro i; simp [inner2, hz]
  simp only [e, Finset.sum_const, Finset.card_range, nsmul_eq_mul, Nat.cast_one, one_mul]
  ring

theorem lineFar_one (k dx : ℝ) (a b c : V2 ℝ) (hv : a.x = b.x) (hy : a.y < b.y) (r : ℝ) (hr : 0 < r) (hk : 0 < k) (z : ℂ) (hz : z ≠ 0) :
    lineFar k dx a b c ⟨c.x + r, c.y⟩ 1 (fun _ => ⟨0, 0, z⟩) ≠ 0 := by
  have hl : len (b - a) = b.y - a.y := by
    simp [len, hv]
    rw [Real.sqrt_sq (by linarith)]
  have ht : (lineTangent a b).y = 1 := by
    simp only [lineTangent, hl]; exact div_self (by linarith)
  have ht' : (lineTangent a b).x = 0 := by simp [lineTangent, hv]
  have hp : len (⟨c.x + r, c.y⟩ - c) = r := by simp [len, Real.sqrt_sq hr.le]
  unfold lineFar farField
  simp only [Finset.range_one, Finset.sum_singleton, hv, if_true, ht, ht', hp]
  refine mul_ne_zero (div_ne_zero (Complex.exp_ne_zero _) ?_) (mul_ne_zero ?_ (Complex.exp_ne_zero _))
  · rw [Complex.ofReal_ne_zero, Real.sqrt_ne_zero']
    have := Real.pi_pos
    positivity
  · have : (k : ℂ) ≠ 0 := by exact_mod_cast hk.ne'
    simp [this, hz]

/-- **C55 is false**: a vertical monitor and its twin on a grid twice as fine that have recorded the same non-zero field at all their points
report far fields that differ by a factor of two. -/
theorem C55_resolution_false (g g' : Grid ℝ) (m m' : SurfMon ℝ) (a b c : V2 ℝ) (sg : Sgn) (hs : Surf.make a b sg = .ok m.surf)
    (hs' : Surf.make a b sg = .ok m'.surf) (hv : a.x = b.x) (hy : a.y < b.y) (r : ℝ) (hr : 0 < r) (n : ℕ) (hn0 : 0 < n) (hn : m.length = n)
    (hn' : m'.length = (2 * n : ℕ)) (freq : List ℝ) (hf : m.fourier.freq = freq) (hf' : m'.fourier.freq = freq) (z : ℂ) (hz : z ≠ 0)
    (h : Recorded m a b n freq.length (fun _ _ => ⟨0, 0, z⟩)) (h' : Recorded m' a b (2 * n) freq.length (fun _ _ => ⟨0, 0, z⟩)) :
    ∃ S S', m.ntff g c ⟨c.x + r, c.y⟩ = .ok S ∧ m'.ntff g' c ⟨c.x + r, c.y⟩ = .ok S' ∧
      ∀ (j : ℕ) (hj : j < freq.length), 0 < freq[j] → toC (S j) ≠ 0 ∧ toC (S' j) = 2 * toC (S j) := by
  subst hf
  obtain ⟨S, k1, k2⟩ := C54_formula g m a b c ⟨c.x + r, c.y⟩ sg hs n _ hn h
  obtain ⟨S', k1', k2'⟩ := C54_formula g' m' a b c ⟨c.x + r, c.y⟩ sg hs' (2 * n) _ hn' (by rw [hf']; exact h')
  refine ⟨S, S', k1, k1', fun j hj hp => ?_⟩
  have e' := k2' j (by rw [hf']; exact hj)
  simp only [hf'] at e'
  have hk : 0 < 2 * Real.pi * m.fourier.freq[j] := by have := Real.pi_pos; positivity
  have same : lineFar (2 * Real.pi * m.fourier.freq[j]) g'.dx a b c ⟨c.x + r, c.y⟩ 1 (fun _ => ⟨0, 0, z⟩) =
      lineFar (2 * Real.pi * m.fourier.freq[j]) g.dx a b c ⟨c.x + r, c.y⟩ 1 (fun _ => ⟨0, 0, z⟩) := by
    simp [lineFar, farField]
  rw [k2 j hj, e', C55_facing _ g.dx _ _ _ hv r hr n, C55_facing _ g'.dx _ _ _ hv r hr (2 * n), same]
  refine ⟨mul_ne_zero (by exact_mod_cast hn0.ne') (lineFar_one _ _ _ _ _ hv hy r hr hk z hz), ?_⟩
  push_cast
  ring

/-- **C55**, what holds: far fields add up along a monitor. The first `n` and the next `n'` points of a monitor contribute what separate
monitors on the same grid would. -/
theorem C55_additive_partial (k dx : ℝ) (a b c p : V2 ℝ) (n n' : ℕ) (F : ℕ → TM) :
    lineFar k dx a b c p (n + n') F = lineFar k dx a b c p n F +
      farField k (p - c) n'
        (fun i => ((lineTangent a b).x + (lineTangent a b).y : ℝ) * if a.x = b.x then (F (n + i)).Hy else (F (n + i)).Hx)
        (fun i => (-(lineTangent a b).x + (lineTangent a b).y : ℝ) * (F (n + i)).Ez)
        (fun _ => if a.x = b.x then ⟨1, 0⟩ else ⟨0, 1⟩)
        (fun i => ⟨a.x + dx * ((n + i) * (lineTangent a b).x) - c.x, a.y + dx * ((n + i) * (lineTangent a b).y) - c.y⟩) := by
  unfold lineFar farField
  rw [← mul_add, Finset.sum_range_add]
  push_cast
  rfl

/-! ## C56: direction of travel -/

/-- Sums of powers of a number that is not 1 but whose `n`-th power is. -/
theorem geom_zero (w : ℂ) (n : ℕ) (h : w ^ n = 1) (h1 : w ≠ 1) : ∑ i ∈ Finset.range n, w ^ i = 0 := by
  have := mul_neg_geom_sum w n
  rw [h, sub_self] at this
  exact (mul_eq_zero.mp this).resolve_left (sub_ne_zero.mpr (Ne.symm h1))

/-- The spectrum of a wave `cos (2π f t - φ)` sampled over whole half periods is `exp (i φ)` times half the number of samples: with the
sign convention of the transforms a wave that travels towards larger `x` (`φ = k x`) has a spectrum that turns as `exp (i k x)`. -/
theorem C56_travelling (f dt φ : ℝ) (N : ℕ) (h : ∃ m : ℤ, 2 * f * dt * N = m) (h1 : ¬ ∃ m : ℤ, 2 * f * dt = m) (i : ℤ) :
    fourierSum f "Ez" i ((List.range N).map fun m : ℕ => (⟨m * dt, fun _ _ => Real.cos (2 * Real.pi * f * (m * dt) - φ)⟩ : Sample ℝ ℤ)) =
      N / 2 * Complex.exp (φ * Complex.I) := by
  set w : ℂ := Complex.exp (2 * Real.pi * (2 * f * dt) * Complex.I) with hw
  have hN : w ^ N = 1 := by
    obtain ⟨m, hm⟩ := h
    rw [hw, ← Complex.exp_nat_mul, Complex.exp_eq_one_iff]
    have hm' : (2 * f * dt * N : ℂ) = m := by exact_mod_cast hm
    exact ⟨m, by rw [← hm']; ring⟩
  have hw1 : w ≠ 1 := by
    rw [hw, Ne, Complex.exp_eq_one_iff]
    rintro ⟨m, hm⟩
    refine h1 ⟨m, ?_⟩
    have : (2 * Real.pi * Complex.I : ℂ) ≠ 0 := Complex.two_pi_I_ne_zero
    have hm' : (2 * f * dt : ℂ) = m := mul_right_cancel₀ this (by rw [← hm]; ring)
    exact_mod_cast hm'
  have term : ∀ m : ℕ, ((Real.cos (2 * Real.pi * f * (m * dt) - φ) : ℝ) : ℂ) * Complex.exp (2 * Real.pi * f * ((m * dt : ℝ) : ℂ) * Complex.I) =
      Complex.exp (-(φ * Complex.I)) / 2 * w ^ m + Complex.exp (φ * Complex.I) / 2 := by
    intro m
    rw [Complex.ofReal_cos, Complex.cos, hw, ← Complex.exp_nat_mul, add_div, add_mul]
    congr 1
    · rw [div_mul_eq_mul_div, ← Complex.exp_add, div_mul_eq_mul_div, ← Complex.exp_add]
      congr 2
      push_cast
      ring
    · rw [div_mul_eq_mul_div, ← Complex.exp_add]
      congr 2
      push_cast
      ring
  have sum : ∀ (N : ℕ) (g : ℕ → ℂ), ((List.range N).map g).sum = ∑ m ∈ Finset.range N, g m := by
    intro N g
    induction N with
    | zero => simp
    | succ n ih => simp [List.range_succ, Finset.sum_range_succ, ih]
  unfold fourierSum
  rw [List.map_map, sum]
  simp only [Function.comp_apply, term]
  rw [Finset.sum_add_distrib, ← Finset.mul_sum, geom_zero w N hN hw1]
  simp
  ring

/-- A horizontal monitor along which a wave travels towards larger `x`, seen from its first point: the sum of the contributions in the
direction of travel turns with twice the wave number. -/
theorem lineFar_forward (k dx : ℝ) (a b : V2 ℝ) (hx : a.x < b.x) (hy : a.y = b.y) (r : ℝ) (hr : 0 < r) (n : ℕ) (F : ℕ → TM)
    (hF : ∀ i, F i = ⟨0, Complex.exp ((k * (dx * i) : ℝ) * Complex.I), 0⟩) :
    lineFar k dx a b a ⟨a.x + r, a.y⟩ n F = Complex.exp ((Real.pi / 4 - k * r : ℝ) * Complex.I) / (Real.sqrt (8 * r * Real.pi * k) : ℝ) *
      (k * ∑ i ∈ Finset.range n, Complex.exp ((2 * k * dx : ℝ) * Complex.I) ^ i) ∧
    lineFar k dx a b a ⟨a.x - r, a.y⟩ n F = Complex.exp ((Real.pi / 4 - k * r : ℝ) * Complex.I) / (Real.sqrt (8 * r * Real.pi * k) : ℝ) * (k * n) := by
  have hl : len (b - a) = b.x - a.x := by
    simp [len, hy]
    rw [Real.sqrt_sq (by linarith)]
  have ht : (lineTangent a b).x = 1 := by
    simp only [lineTangent, hl]; exact div_self (by linarith)
  have ht' : (lineTangent a b).y = 0 := by simp [lineTangent, hy]
  have hp : len (⟨a.x + r, a.y⟩ - a) = r := by simp [len, Real.sqrt_sq hr.le]
  have hp' : len (⟨a.x - r, a.y⟩ - a) = r := by simp [len, Real.sqrt_sq hr.le]
  have hne : ¬ a.x = b.x := hx.ne
  constructor
  · unfold lineFar farField
    simp only [hp, hne, if_false, ht, ht']
    congr 1
    rw [Finset.mul_sum]
    refine Finset.sum_congr rfl fun i _ => ?_
    have e : inner2 (⟨a.x + r, a.y⟩ - a) ⟨a.x + dx * (i * 1) - a.x, a.y + dx * (i * 0) - a.y⟩ / r = dx * i := by
      simp only [inner2, V2.sub_x, V2.sub_y]
      field_simp
      ring
    have e' : inner2 (⟨a.x + r, a.y⟩ - a) ⟨0, 1⟩ = 0 := by simp [inner2]
    rw [e, e', hF, ← Complex.exp_nat_mul]
    simp only [zero_div, Complex.ofReal_zero, mul_zero, add_zero, Complex.ofReal_one, one_mul]
    rw [mul_assoc, ← Complex.exp_add]
    congr 2
    push_cast
    ring
  · unfold lineFar farField
    simp only [hp', hne, if_false, ht, ht']
    congr 1
    have e' : inner2 (⟨a.x - r, a.y⟩ - a) ⟨0, 1⟩ = 0 := by simp [inner2]
    rw [show (k * n : ℂ) = ∑ _i ∈ Finset.range n, (k : ℂ) by simp [mul_comm]]
    refine Finset.sum_congr rfl fun i _ => ?_
    have e : inner2 (⟨a.x - r, a.y⟩ - a) ⟨a.x + dx * (i * 1) - a.x, a.y + dx * (i * 0) - a.y⟩ / r = -(dx * i) := by
      simp only [inner2, V2.sub_x, V2.sub_y]
      field_simp
      ring
    rw [e, e', hF]
    simp only [zero_div, Complex.ofReal_zero, mul_zero, add_zero, Complex.ofReal_one, one_mul]
    rw [mul_assoc, ← Complex.exp_add]
    have : ((k * (dx * i) : ℝ) : ℂ) * Complex.I + ((k * -(dx * i) : ℝ) : ℂ) * Complex.I = 0 := by push_cast; ring
    rw [this, Complex.exp_zero, mul_one]

/-- **C56 is false**: a wave that travels along a horizontal monitor towards larger `x` is collected in phase by an observer behind it and
cancels for the observer it travels to, when the monitor is half a wavelength long (`2 f n dx = 1`, at least two points). -/
theorem C56_direction_false (g : Grid ℝ) (hg : 0 < g.dx) (m : SurfMon ℝ) (a b : V2 ℝ) (sg : Sgn) (hs : Surf.make a b sg = .ok m.surf)
    (hx : a.x < b.x) (r : ℝ) (hr : 0 < r) (n : ℕ) (hn2 : 2 ≤ n) (hn : m.length = n) (f : ℝ) (hf : m.fourier.freq = [f])
    (hw : 2 * f * (n * g.dx) = 1)
    (h : Recorded m a b n 1 (fun i _ => ⟨0, Complex.exp ((2 * Real.pi * f * (g.dx * i) : ℝ) * Complex.I), 0⟩)) :
    ∃ S S', m.ntff g a ⟨a.x + r, a.y⟩ = .ok S ∧ m.ntff g a ⟨a.x - r, a.y⟩ = .ok S' ∧ toC (S 0) = 0 ∧
      Complex.normSq (toC (S' 0)) = n ^ 2 * f / (4 * r) := by
  obtain ⟨-, -, -, -, h5, -, -⟩ := surf_make a b sg m.surf hs
  have hy : a.y = b.y := h5.resolve_left hx.ne
  have hlen : m.fourier.freq.length = 1 := by rw [hf]; rfl
  obtain ⟨S, k1, k2⟩ := C54_formula g m a b a ⟨a.x + r, a.y⟩ sg hs n _ hn (by rw [hlen]; exact h)
  obtain ⟨S', k1', k2'⟩ := C54_formula g m a b a ⟨a.x - r, a.y⟩ sg hs n _ hn (by rw [hlen]; exact h)
  have e := k2 0 (by rw [hlen]; exact one_pos)
  have e' := k2' 0 (by rw [hlen]; exact one_pos)
  simp only [hf, Nat.cast_zero, List.getElem_cons_zero] at e e'
  obtain ⟨l1, l2⟩ := lineFar_forward (2 * Real.pi * f) g.dx a b hx hy r hr n
    (fun i => ⟨0, Complex.exp ((2 * Real.pi * f * (g.dx * i) : ℝ) * Complex.I), 0⟩) (fun i => rfl)
  rw [l1] at e
  rw [l2] at e'
  have hnpos : (0 : ℝ) < n := by exact_mod_cast (by omega : 0 < n)
  have hfp : 0 < f := by
    by_contra hc
    push Not at hc
    have : 0 < n * g.dx := by positivity
    nlinarith
  refine ⟨S, S', k1, k1', ?_, ?_⟩
  · rw [e]
    have hprim := Complex.isPrimitiveRoot_exp n (by omega)
    have hwz : Complex.exp ((2 * (2 * Real.pi * f) * g.dx : ℝ) * Complex.I) = Complex.exp (2 * Real.pi * Complex.I / n) := by
      congr 1
      have hn0 : (n : ℂ) ≠ 0 := by exact_mod_cast hnpos.ne'
      have hwc : (2 * f * (n * g.dx) : ℂ) = 1 := by exact_mod_cast hw
      rw [eq_div_iff hn0]
      push_cast
      linear_combination (2 * Real.pi * Complex.I) * hwc
    rw [hwz, hprim.geom_sum_eq_zero (by omega)]
    simp
  · rw [e']
    have hpi := Real.pi_pos
    have hex : Complex.normSq (Complex.exp ((Real.pi / 4 - 2 * Real.pi * f * r : ℝ) * Complex.I)) = 1 := by
      rw [Complex.normSq_eq_norm_sq, Complex.norm_exp_ofReal_mul_I]; norm_num
    rw [Complex.normSq_mul, Complex.normSq_div, hex, Complex.normSq_ofReal, Complex.normSq_mul, Complex.normSq_ofReal,
      Complex.normSq_natCast, Real.mul_self_sqrt (by positivity)]
    field_simp
    ring

/-- A monitor that has recorded a given field. -/
theorem recorded_exists (a b : V2 ℝ) (sg : Sgn) (s : Surf ℝ) (hs : Surf.make a b sg = .ok s) (n : ℕ) (freq : List ℝ) (F : ℕ → ℕ → TM) :
    ∃ m : SurfMon ℝ, m.surf = s ∧ m.length = n ∧ m.fourier.freq = freq ∧ Recorded m a b n freq.length F := by
  refine ⟨⟨"m", s, .tangent, n, .const n 0, ⟨0, freq,
    [("Ez", ⟨intRange 0 n, fun i j => (F i.toNat j.toNat).Ez.re, fun i j => (F i.toNat j.toNat).Ez.im⟩),
     (if a.x = b.x then "Hy" else "Hx", ⟨intRange 0 n, fun i j => (if a.x = b.x then (F i.toNat j.toNat).Hy else (F i.toNat j.toNat).Hx).re,
      fun i j => (if a.x = b.x then (F i.toNat j.toNat).Hy else (F i.toNat j.toNat).Hx).im⟩)]⟩⟩, rfl, rfl, rfl, ?_⟩
  refine ⟨⟨intRange 0 n, fun i j => (F i.toNat j.toNat).Ez.re, fun i j => (F i.toNat j.toNat).Ez.im⟩,
    ⟨intRange 0 n, fun i j => (if a.x = b.x then (F i.toNat j.toNat).Hy else (F i.toNat j.toNat).Hx).re,
      fun i j => (if a.x = b.x then (F i.toNat j.toNat).Hy else (F i.toNat j.toNat).Hx).im⟩, ?_, ?_, ?_, ?_, ?_⟩
  · simp [get_find, accFind]
  · simp [length_intRange]
  · intro i _ j _; simp
  · by_cases hv : a.x = b.x <;> simp [get_find, accFind, hv]
  · intro i _ j _; simp

/-- the hypotheses of `C56_direction_false` can be met: twenty cells, wavelength 40 -/
example : ∃ (m : SurfMon ℝ), Surf.make (⟨0, 5⟩ : V2 ℝ) ⟨20, 5⟩ .Positive = .ok m.surf ∧ m.length = (20 : ℕ) ∧ m.fourier.freq = [1 / 40] ∧
    (2 : ℝ) * (1 / 40) * ((20 : ℕ) * unitGrid.dx) = 1 ∧
    Recorded m ⟨0, 5⟩ ⟨20, 5⟩ 20 1 (fun i _ => ⟨0, Complex.exp ((2 * Real.pi * (1 / 40) * (unitGrid.dx * i) : ℝ) * Complex.I), 0⟩) := by
  obtain ⟨s, hs⟩ : ∃ s, Surf.make (⟨0, 5⟩ : V2 ℝ) ⟨20, 5⟩ .Positive = .ok s := by
    unfold Surf.make
    simp [V2.cabs]
  obtain ⟨m, h1, h2, h3, h4⟩ := recorded_exists _ _ _ s hs 20 [1 / 40]
    (fun i _ => ⟨0, Complex.exp ((2 * Real.pi * (1 / 40) * (unitGrid.dx * i) : ℝ) * Complex.I), 0⟩)
  exact ⟨m, by rw [h1]; exact hs, h2, h3, by simp [unitGrid]; norm_num, h4⟩

/-- **C56**, what holds: the directions are exchanged. A wave that travels towards smaller `x` is collected in phase by an observer at
larger `x`. -/
theorem C56_reversed_partial (k dx : ℝ) (a b : V2 ℝ) (hx : a.x < b.x) (hy : a.y = b.y) (r : ℝ) (hr : 0 < r) (n : ℕ) :
    lineFar k dx a b a ⟨a.x + r, a.y⟩ n (fun i => ⟨0, Complex.exp ((-(k * (dx * i)) : ℝ) * Complex.I), 0⟩) =
      Complex.exp ((Real.pi / 4 - k * r : ℝ) * Complex.I) / (Real.sqrt (8 * r * Real.pi * k) : ℝ) * (k * n) := by
  have hl : len (b - a) = b.x - a.x := by
    simp [len, hy]
    rw [Real.sqrt_sq (by linarith)]
  have ht : (lineTangent a b).x = 1 := by
    simp only [lineTangent, hl]; exact div_self (by linarith)
  have ht' : (lineTangent a b).y = 0 := by simp [lineTangent, hy]
  have hp : len (⟨a.x + r, a.y⟩ - a) = r := by simp [len, Real.sqrt_sq hr.le]
  have hne : ¬ a.x = b.x := hx.ne
  unfold lineFar farField
  simp only [hp, hne, if_false, ht, ht']
  congr 1
  have e' : inner2 (⟨a.x + r, a.y⟩ - a) ⟨0, 1⟩ = 0 := by simp [inner2]
  rw [show (k * n : ℂ) = ∑ _i ∈ Finset.range n, (k : ℂ) by simp [mul_comm]]
  refine Finset.sum_congr rfl fun i _ => ?_
  have e : inner2 (⟨a.x + r, a.y⟩ - a) ⟨a.x + dx * (i * 1) - a.x, a.y + dx * (i * 0) - a.y⟩ / r = dx * i := by
    simp only [inner2, V2.sub_x, V2.sub_y]
    field_simp
    ring
  rw [e, e']
  simp only [zero_div, Complex.ofReal_zero, mul_zero, add_zero, Complex.ofReal_one, one_mul]
  rw [mul_assoc, ← Complex.exp_add]
  have : ((-(k * (dx * i)) : ℝ) : ℂ) * Complex.I + ((k * (dx * i) : ℝ) : ℂ) * Complex.I = 0 := by push_cast; ring
  rw [this, Complex.exp_zero, mul_one]

end Qbox.Props
