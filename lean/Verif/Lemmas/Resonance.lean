import Verif.Spec.ResonanceSpec
import Mathlib.Analysis.SpecialFunctions.Trigonometric.Bounds
import Mathlib.Analysis.Convex.SpecificFunctions.Deriv

/-! # Sums of cosines, and a recursion in time -/

namespace Qbox
open Spec

/-- A standing wave at the nodes `1 … M` of a line, even about the place one half, zero at the node `M + 1`. -/
noncomputable def ripple (M p : ℕ) (i : ℤ) : ℝ := Real.cos ((2 * p + 1) * (2 * i - 1) * (Real.pi / (2 * (2 * M + 1))))

theorem cos_odd_sum (M : ℕ) (x : ℝ) : (∑ p ∈ Finset.range M, Real.cos ((2 * p + 1) * x)) * (2 * Real.sin x) = Real.sin (2 * M * x) := by
  induction M with
  | zero => simp
  | succ M ih =>
    rw [Finset.sum_range_succ, add_mul, ih]
    have e1 : (2 * (M : ℝ)) * x = (2 * M + 1) * x - x := by ring
    have e2 : (2 * ((M + 1 : ℕ) : ℝ)) * x = (2 * M + 1) * x + x := by push_cast; ring
    rw [e1, e2, Real.sin_add, Real.sin_sub]
    ring

theorem sin_node {M : ℕ} {m : ℤ} (h : m ≠ 0) (h1 : |m| ≤ 2 * M) : Real.sin (m * (Real.pi / (2 * M + 1))) ≠ 0 := by
  have hp := Real.pi_pos
  have hM : (0 : ℝ) < 2 * M + 1 := by positivity
  intro hs
  rw [Real.sin_eq_zero_iff] at hs
  obtain ⟨n, hn⟩ := hs
  have e : (n : ℝ) * (2 * M + 1) = m := by
    have : (n : ℝ) * Real.pi * (2 * M + 1) = m * Real.pi := by rw [hn]; field_simp
    have := mul_right_cancel₀ hp.ne' (show (n : ℝ) * (2 * M + 1) * Real.pi = m * Real.pi by linarith)
    exact this
  have e' : n * (2 * (M : ℤ) + 1) = m := by exact_mod_cast e
  rcases eq_or_ne n 0 with rfl | hn0
  · simp at e'; exact h e'.symm
  · have : (2 * (M : ℤ) + 1) ≤ |m| := by
      rw [← e', abs_mul]
      have h2 : 1 ≤ |n| := Int.one_le_abs hn0
      have h3 : |2 * (M : ℤ) + 1| = 2 * M + 1 := abs_of_nonneg (by positivity)
      rw [h3]
      nlinarith [show (0 : ℤ) ≤ 2 * M + 1 by positivity]
    omega

theorem cos_node_sum {M : ℕ} {m : ℤ} (h : m ≠ 0) (h1 : |m| ≤ 2 * M) :
    ∑ p ∈ Finset.range M, Real.cos ((2 * p + 1) * (m * (Real.pi / (2 * M + 1)))) = - (-1 : ℝ) ^ m / 2 := by
  have hM : (0 : ℝ) < 2 * M + 1 := by positivity
  have hs := sin_node h h1
  set x : ℝ := m * (Real.pi / (2 * M + 1)) with hx
  have k := cos_odd_sum M x
  have e : 2 * (M : ℝ) * x = m * Real.pi - x := by rw [hx]; field_simp; ring
  rw [e, Real.sin_int_mul_pi_sub] at k
  have : (∑ p ∈ Finset.range M, Real.cos ((2 * p + 1) * x)) * 2 = - (-1 : ℝ) ^ m := by
    apply mul_right_cancel₀ hs
    rw [mul_assoc, k]
    ring
  linarith

theorem div_sum (M : ℕ) (f : ℕ → ℝ) : ∑ p ∈ Finset.range M, f p / 2 = (∑ p ∈ Finset.range M, f p) / 2 := by
  simp only [div_eq_mul_inv, Finset.sum_mul]

/-- The standing waves are orthogonal. -/
theorem ripple_ortho {M : ℕ} {i k : ℤ} (hi : 1 ≤ i) (hi' : i ≤ M) (hk : 1 ≤ k) (hk' : k ≤ M) :
    ∑ p ∈ Finset.range M, ripple M p i * ripple M p k = if i = k then ((2 * M + 1) / 4 : ℝ) else 0 := by
  have hM : (0 : ℝ) < 2 * M + 1 := by positivity
  have split : ∀ p : ℕ, ripple M p i * ripple M p k =
      (Real.cos ((2 * p + 1) * ((i + k - 1 : ℤ) * (Real.pi / (2 * M + 1)))) + Real.cos ((2 * p + 1) * ((i - k : ℤ) * (Real.pi / (2 * M + 1))))) / 2 := by
    intro p
    have e1 : (2 * (p : ℝ) + 1) * ((i + k - 1 : ℤ) * (Real.pi / (2 * M + 1))) =
        (2 * p + 1) * (2 * i - 1) * (Real.pi / (2 * (2 * M + 1))) + (2 * p + 1) * (2 * k - 1) * (Real.pi / (2 * (2 * M + 1))) := by
      push_cast; field_simp; ring
    have e2 : (2 * (p : ℝ) + 1) * ((i - k : ℤ) * (Real.pi / (2 * M + 1))) =
        (2 * p + 1) * (2 * i - 1) * (Real.pi / (2 * (2 * M + 1))) - (2 * p + 1) * (2 * k - 1) * (Real.pi / (2 * (2 * M + 1))) := by
      push_cast; field_simp; ring
    rw [e1, e2, Real.cos_add, Real.cos_sub]
    unfold ripple
    ring
  rw [Finset.sum_congr rfl fun p _ => split p, div_sum, Finset.sum_add_distrib, cos_node_sum (M := M) (m := i + k - 1) (by omega) (by rw [abs_le]; omega)]
  split_ifs with h
  · subst h
    have o : (-1 : ℝ) ^ (i + i - 1 : ℤ) = -1 := Odd.neg_one_zpow ⟨i - 1, by ring⟩
    rw [o]
    simp
    ring
  · rw [cos_node_sum (M := M) (m := i - k) (by omega) (by rw [abs_le]; omega)]
    have o : (-1 : ℝ) ^ (i + k - 1 : ℤ) = - (-1 : ℝ) ^ (i - k : ℤ) := by
      rw [show i + k - 1 = (i - k) + (2 * k - 1) by ring, zpow_add₀ (by norm_num), Odd.neg_one_zpow (n := 2 * k - 1) ⟨k - 1, by ring⟩]
      ring
    rw [o]; ring

/-- Weight of a standing wave in values on a line. -/
noncomputable def weight (M : ℕ) (f : ℤ → ℝ) (p : ℕ) : ℝ := 4 / (2 * M + 1) * ∑ k ∈ Finset.Icc (1 : ℤ) M, f k * ripple M p k

/-- Any values on a line are a sum of standing waves. -/
theorem ripple_expand (M : ℕ) (f : ℤ → ℝ) {i : ℤ} (hi : 1 ≤ i) (hi' : i ≤ M) : f i = ∑ p ∈ Finset.range M, weight M f p * ripple M p i := by
  have hM : (0 : ℝ) < 2 * M + 1 := by positivity
  unfold weight
  have : ∀ p ∈ Finset.range M, 4 / (2 * (M : ℝ) + 1) * (∑ k ∈ Finset.Icc (1 : ℤ) M, f k * ripple M p k) * ripple M p i =
      ∑ k ∈ Finset.Icc (1 : ℤ) M, 4 / (2 * (M : ℝ) + 1) * f k * (ripple M p i * ripple M p k) := by
    intro p _
    rw [Finset.mul_sum, Finset.sum_mul]
    exact Finset.sum_congr rfl fun k _ => by ring
  rw [Finset.sum_congr rfl this, Finset.sum_comm]
  have : ∀ k ∈ Finset.Icc (1 : ℤ) M, ∑ p ∈ Finset.range M, 4 / (2 * (M : ℝ) + 1) * f k * (ripple M p i * ripple M p k) = if i = k then f i else 0 := by
    intro k hk
    rw [Finset.mem_Icc] at hk
    rw [← Finset.mul_sum, ripple_ortho hi hi' hk.1 hk.2]
    split_ifs with h
    · subst h; field_simp
    · ring
  rw [Finset.sum_congr rfl this, Finset.sum_ite_eq]
  rw [if_pos (Finset.mem_Icc.mpr ⟨hi, hi'⟩)]

theorem ripple_expand2 (M L : ℕ) (f : ℤ → ℤ → ℝ) : ∃ a : ℕ → ℕ → ℝ, ∀ i j : ℤ, 1 ≤ i → i ≤ M → 1 ≤ j → j ≤ L →
    f i j = ∑ p ∈ Finset.range M, ∑ q ∈ Finset.range L, a p q * (ripple M p i * ripple L q j) := by
  refine ⟨fun p q => weight L (fun j => weight M (fun i => f i j) p) q, fun i j h1 h2 h3 h4 => ?_⟩
  rw [ripple_expand M (fun i => f i j) h1 h2]
  refine Finset.sum_congr rfl fun p _ => ?_
  rw [ripple_expand L (fun j => weight M (fun i => f i j) p) h3 h4, Finset.sum_mul]
  exact Finset.sum_congr rfl fun q _ => by ring

theorem ripple_even (M p : ℕ) : ripple M p 0 = ripple M p 1 := by
  unfold ripple
  rw [← Real.cos_neg]
  congr 1
  push_cast
  ring

theorem ripple_end (M p : ℕ) : ripple M p (M + 1) = 0 := by
  have hM : (0 : ℝ) < 2 * M + 1 := by positivity
  unfold ripple
  rw [Real.cos_eq_zero_iff]
  exact ⟨p, by push_cast; field_simp; ring⟩

/-- The second difference of a standing wave. -/
theorem ripple_second (M p : ℕ) (i : ℤ) : ripple M p (i + 1) - 2 * ripple M p i + ripple M p (i - 1) =
    - (4 * Real.sin ((2 * p + 1) * (Real.pi / (2 * (2 * M + 1)))) ^ 2) * ripple M p i := by
  unfold ripple
  set h : ℝ := (2 * p + 1) * (Real.pi / (2 * (2 * M + 1))) with hh
  have e0 : ∀ z : ℝ, (2 * p + 1) * z * (Real.pi / (2 * (2 * M + 1))) = z * h := fun z => by rw [hh]; ring
  rw [e0, e0, e0]
  push_cast
  rw [show (2 * ((i : ℝ) + 1) - 1) * h = (2 * i - 1) * h + 2 * h by ring, show (2 * ((i : ℝ) - 1) - 1) * h = (2 * i - 1) * h - 2 * h by ring,
    Real.cos_add, Real.cos_sub, Real.cos_two_mul]
  have := Real.sin_sq_add_cos_sq h
  linear_combination (4 * Real.cos ((2 * i - 1) * h)) * this

/-- A leapfrog step of one standing wave with `A B = 4 sin²(θ / 2)` is an oscillation. -/
theorem tone_step {α c θ s A B : ℝ} (hα : α ≠ 0) (hc : α * c = 4 * Real.sin (θ / 2) ^ 2) :
    let a := A * Real.cos s + B * Real.sin s
    let a1 := A * Real.cos (s + θ) + B * Real.sin (s + θ)
    let a2 := A * Real.cos (s + θ + θ) + B * Real.sin (s + θ + θ)
    a + α * ((a1 - a) / α) = a1 ∧ (a1 - a) / α - c * a1 = (a2 - a1) / α := by
  intro a a1 a2
  refine ⟨by field_simp; ring, ?_⟩
  have h2 : Real.cos θ = 1 - 2 * Real.sin (θ / 2) ^ 2 := by
    have := Real.cos_two_mul (θ / 2)
    rw [mul_div_cancel₀ _ (by norm_num : (2 : ℝ) ≠ 0)] at this
    have := Real.sin_sq_add_cos_sq (θ / 2)
    linarith
  have key : a2 = 2 * Real.cos θ * a1 - a := by
    simp only [a, a1, a2]
    have e : s = (s + θ) - θ := by ring
    have c0 : Real.cos s = Real.cos (s + θ) * Real.cos θ + Real.sin (s + θ) * Real.sin θ := by
      conv_lhs => rw [e]
      rw [Real.cos_sub]
    have s0 : Real.sin s = Real.sin (s + θ) * Real.cos θ - Real.cos (s + θ) * Real.sin θ := by
      conv_lhs => rw [e]
      rw [Real.sin_sub]
    rw [Real.cos_add (s + θ), Real.sin_add (s + θ), c0, s0]
    ring
  rw [key, h2]
  field_simp
  linear_combination (-a1) * hc

/-- The sine of a slower wave is larger in proportion. -/
theorem sin_scaled {r c : ℝ} (h0 : 0 ≤ r) (h1 : r ≤ Real.pi) (c0 : 0 ≤ c) (c1 : c ≤ 1) : c * Real.sin r ≤ Real.sin (c * r) := by
  have := strictConcaveOn_sin_Icc.concaveOn.2 (Set.left_mem_Icc.mpr Real.pi_pos.le) (Set.mem_Icc.mpr ⟨h0, h1⟩) (by linarith : (0 : ℝ) ≤ 1 - c) c0 (by ring)
  simpa using this

theorem sinc_anti {x y : ℝ} (h0 : 0 < x) (h1 : x ≤ y) (h2 : y ≤ Real.pi) : Real.sin y / y ≤ Real.sin x / x := by
  have hy : 0 < y := h0.trans_le h1
  have := sin_scaled (r := y) (c := x / y) hy.le h2 (by positivity) ((div_le_one hy).mpr h1)
  rw [div_mul_cancel₀ _ hy.ne'] at this
  rw [div_le_div_iff₀ hy h0]
  rw [div_mul_eq_mul_div, div_le_iff₀ hy] at this
  linarith

/-- The square of the sine is concave as a function of the square of the angle. -/
theorem sin_sq_concave : ConcaveOn ℝ (Set.Icc 0 ((Real.pi / 2) ^ 2)) fun u => Real.sin (Real.sqrt u) ^ 2 := by
  have hp := Real.pi_pos
  have der : ∀ u ∈ interior (Set.Icc (0 : ℝ) ((Real.pi / 2) ^ 2)),
      HasDerivAt (fun u => Real.sin (Real.sqrt u) ^ 2) (Real.sin (2 * Real.sqrt u) / (2 * Real.sqrt u)) u := by
    intro u hu
    rw [interior_Icc] at hu
    have h1 := (Real.hasDerivAt_sqrt hu.1.ne').sin.pow 2
    refine h1.congr_deriv ?_
    rw [Real.sin_two_mul]
    have : Real.sqrt u ≠ 0 := (Real.sqrt_pos.mpr hu.1).ne'
    norm_num
    field_simp
  refine AntitoneOn.concaveOn_of_deriv (convex_Icc _ _) (by fun_prop) (fun u hu => (der u hu).differentiableAt.differentiableWithinAt) ?_
  intro u hu v hv huv
  rw [(der u hu).deriv, (der v hv).deriv]
  rw [interior_Icc] at hu hv
  refine sinc_anti (by have := Real.sqrt_pos.mpr hu.1; positivity) (by have := Real.sqrt_le_sqrt huv; linarith) ?_
  have : Real.sqrt v ≤ Real.pi / 2 := by
    rw [Real.sqrt_le_left (by positivity)]
    exact hv.2.le
  linarith

/-- The discretisation never makes a wave faster. -/
theorem sin_pair {a b : ℝ} (ha : 0 ≤ a) (ha' : a ≤ Real.pi / 2) (hb : 0 ≤ b) (hb' : b ≤ Real.pi / 2) :
    Real.sin a ^ 2 + Real.sin b ^ 2 ≤ (2 * Real.sin (Real.sqrt (a ^ 2 + b ^ 2) / 2)) ^ 2 := by
  have hp := Real.pi_pos
  have k := sin_sq_concave.2 (Set.mem_Icc.mpr ⟨sq_nonneg a, pow_le_pow_left₀ ha ha' 2⟩) (Set.mem_Icc.mpr ⟨sq_nonneg b, pow_le_pow_left₀ hb hb' 2⟩)
    (by norm_num : (0 : ℝ) ≤ 1 / 2) (by norm_num : (0 : ℝ) ≤ 1 / 2) (by norm_num)
  simp only [smul_eq_mul] at k
  rw [Real.sqrt_sq ha, Real.sqrt_sq hb] at k
  set r := Real.sqrt (a ^ 2 + b ^ 2) with hr
  have hr2 : r ^ 2 = a ^ 2 + b ^ 2 := Real.sq_sqrt (by positivity)
  have h2 : Real.sqrt (1 / 2) ^ 2 = 1 / 2 := Real.sq_sqrt (by norm_num)
  set c := Real.sqrt (1 / 2) with hc
  have hc0 : 0 ≤ c := Real.sqrt_nonneg _
  have e : Real.sqrt (1 / 2 * a ^ 2 + 1 / 2 * b ^ 2) = c * r := by
    rw [← mul_add, Real.sqrt_mul (by norm_num)]
  rw [e] at k
  have hcr : c * r ≤ Real.pi / 2 := by
    rw [← e, Real.sqrt_le_left (by positivity)]
    have := pow_le_pow_left₀ ha ha' 2
    have := pow_le_pow_left₀ hb hb' 2
    linarith
  have hcr0 : 0 ≤ c * r := mul_nonneg hc0 (Real.sqrt_nonneg _)
  have s := sin_scaled (r := c * r) (c := c) hcr0 (by linarith) hc0 (by nlinarith)
  rw [show c * (c * r) = r / 2 by rw [← mul_assoc, ← sq, h2]; ring] at s
  have s0 : 0 ≤ Real.sin (c * r) := Real.sin_nonneg_of_nonneg_of_le_pi hcr0 (by linarith)
  have := pow_le_pow_left₀ (mul_nonneg hc0 s0) s 2
  rw [mul_pow, h2] at this
  rw [mul_pow]
  linarith

theorem sin_pair_low {a b : ℝ} (ha : 0 ≤ a) (ha' : a ≤ Real.pi / 2) (hb : 0 ≤ b) (hb' : b ≤ Real.pi / 2) :
    Real.sqrt (a ^ 2 + b ^ 2) * (1 - (a ^ 2 + b ^ 2) / 6) ≤ Real.sqrt (Real.sin a ^ 2 + Real.sin b ^ 2) := by
  rcases le_total (1 - (a ^ 2 + b ^ 2) / 6) 0 with h | h
  · exact (mul_nonpos_of_nonneg_of_nonpos (Real.sqrt_nonneg _) h).trans (Real.sqrt_nonneg _)
  · refine Real.le_sqrt_of_sq_le ?_
    rw [mul_pow, Real.sq_sqrt (by positivity), add_mul, ← mul_pow, ← mul_pow]
    have one : ∀ {x : ℝ}, 0 ≤ x → x ^ 2 ≤ a ^ 2 + b ^ 2 → (x * (1 - (a ^ 2 + b ^ 2) / 6)) ^ 2 ≤ Real.sin x ^ 2 := by
      intro x hx hx2
      refine pow_le_pow_left₀ (mul_nonneg hx h) (le_trans ?_ (Real.sin_ge_sub_cube hx)) 2
      nlinarith
    exact add_le_add (one ha (by nlinarith)) (one hb (by nlinarith))

end Qbox
