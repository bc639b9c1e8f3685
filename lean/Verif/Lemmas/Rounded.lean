import Verif.Lemmas.Converge
import Verif.Lemmas.Double

/-! # Error of one rounded step -/

namespace Qbox
open Scalar Spec Props

section
variable {A : Arith}

theorem Rnd.ext {x y : Rnd A} (h : x.val = y.val) : x = y := by
  cases x; cases y; simp only at h; subst h; rfl

@[simp] theorem fl_val (x : ℝ) : (A.fl x).val = A.r x := rfl
@[simp] theorem zero_rnd : ((0 : Rnd A)).val = 0 := rfl
@[simp] theorem one_rnd : ((1 : Rnd A)).val = 1 := rfl
@[simp] theorem add_rnd (x y : Rnd A) : (x + y).val = A.r (x.val + y.val) := rfl
@[simp] theorem sub_rnd (x y : Rnd A) : (x - y).val = A.r (x.val - y.val) := rfl
@[simp] theorem mul_rnd (x y : Rnd A) : (x * y).val = A.r (x.val * y.val) := rfl
@[simp] theorem div_rnd (x y : Rnd A) : (x / y).val = A.r (x.val / y.val) := rfl
@[simp] theorem neg_rnd (x : Rnd A) : (-x).val = -x.val := rfl
@[simp] theorem ofInt_rnd (n : ℤ) : (ofInt n : Rnd A).val = A.r n := rfl
@[simp] theorem ltb_rnd (x y : Rnd A) : ltb x y = decide (x.val < y.val) := rfl
@[simp] theorem leb_rnd (x y : Rnd A) : leb x y = decide (x.val ≤ y.val) := rfl
@[simp] theorem ceilI_rnd (x : Rnd A) : Scalar.ceilI x = ⌈x.val⌉ := rfl
@[simp] theorem roundI_rnd (x : Rnd A) : Scalar.roundI x = roundAway x.val := rfl

theorem mul_one_rnd (x : Rnd A) : x * 1 = x := Rnd.ext (by simp [x.fix])
theorem one_mul_rnd (x : Rnd A) : 1 * x = x := Rnd.ext (by simp [x.fix])
theorem add_zero_rnd (x : Rnd A) : x + 0 = x := Rnd.ext (by simp [x.fix])

/-- Rounding a value near `x`. -/
theorem Spec.Arith.near' (A : Arith) {x y B e : ℝ} (hB : |x| ≤ B) (h : |y - x| ≤ e) : |A.r y - x| ≤ e + A.u * (B + e) + A.tiny := by
  have h1 := A.near y
  have h2 : |y| ≤ B + e := by
    have := abs_add_le x (y - x)
    rw [add_sub_cancel] at this
    linarith
  have h3 := mul_le_mul_of_nonneg_left h2 A.u_nonneg
  have h4 := abs_add_le (A.r y - y) (y - x)
  rw [sub_add_sub_cancel] at h4
  linarith

theorem abs_sub_le' (a b : ℝ) : |a - b| ≤ |a| + |b| := abs_sub a b

end

/-- Rounding of the update of `Ez`. -/
theorem fl_ez (A : Arith) {E h1 h2 h3 h4 Ca Cb Ca' Cb' dx : ℝ} (hx : 0 < dx) (a1 : |Ca| ≤ 1) (b0 : 0 ≤ Cb) (b1 : Cb ≤ dx / 2) (a2 : |Ca' - Ca| ≤ 20 * A.u)
    (b2 : |Cb' - Cb| ≤ 20 * A.u * Cb) :
    |A.r (A.r (Ca' * E) + A.r (Cb' * A.r (A.r (A.r (h1 - h2) / dx) + A.r (A.r (h3 - h4) / dx)))) - (Ca * E + Cb * ((h1 - h2) / dx + (h3 - h4) / dx))| ≤
      24 * A.u * (|E| + (|h1| + |h2| + |h3| + |h4|)) + (8 + 5 * dx) * A.tiny := by
  have u0 := A.u_nonneg
  have u1 := A.u_le
  have t0 := A.tiny_nonneg
  obtain ⟨u, hu⟩ : ∃ u, u = A.u := ⟨_, rfl⟩
  obtain ⟨T, hT⟩ : ∃ T, T = A.tiny := ⟨_, rfl⟩
  obtain ⟨w, hw⟩ : ∃ w, w = 1 / dx := ⟨_, rfl⟩
  have w0 : 0 < w := by rw [hw]; positivity
  have wx : w * dx = 1 := by rw [hw]; field_simp
  have dw : ∀ z : ℝ, z / dx = w * z := fun z => by rw [hw]; ring
  -- a difference of two magnetic values over the cell size
  have q : ∀ a b : ℝ, |A.r (A.r (a - b) / dx) - w * (a - b)| ≤ w * (3 * u * (|a| + |b|) + 2 * T) + T := by
    intro a b
    have s := A.near' (x := a - b) (y := a - b) (e := 0) (abs_sub_le' a b) (by simp)
    rw [← hu, ← hT] at s
    have s' : |A.r (a - b) / dx - w * (a - b)| ≤ w * (u * (|a| + |b|) + T) := by
      rw [dw, ← mul_sub, abs_mul, abs_of_pos w0]
      refine mul_le_mul_of_nonneg_left ?_ w0.le
      linarith
    have B : |w * (a - b)| ≤ w * (|a| + |b|) := by
      rw [abs_mul, abs_of_pos w0]
      exact mul_le_mul_of_nonneg_left (abs_sub_le' a b) w0.le
    have r := A.near' B s'
    rw [← hu, ← hT] at r
    refine r.trans ?_
    have n1 : 0 ≤ w * (u * (|a| + |b|) + T) := by rw [hu, hT]; positivity
    have n2 : u * (w * (u * (|a| + |b|) + T)) ≤ 1 / 1000 * (w * (u * (|a| + |b|) + T)) := mul_le_mul_of_nonneg_right (by rw [hu]; exact u1) n1
    have n3 : 0 ≤ w * T := by rw [hT]; positivity
    have n4 : 0 ≤ w * (u * (|a| + |b|)) := by rw [hu]; positivity
    nlinarith
  obtain ⟨S, hS⟩ : ∃ S, S = |h1| + |h2| + |h3| + |h4| := ⟨_, rfl⟩
  have S0 : 0 ≤ S := by rw [hS]; positivity
  obtain ⟨C, hC⟩ : ∃ C, C = w * (h1 - h2) + w * (h3 - h4) := ⟨_, rfl⟩
  have CB : |C| ≤ w * S := by
    rw [hC, ← mul_add, abs_mul, abs_of_pos w0]
    refine mul_le_mul_of_nonneg_left ?_ w0.le
    have := abs_add_le (h1 - h2) (h3 - h4)
    have := abs_sub_le' h1 h2
    have := abs_sub_le' h3 h4
    rw [hS]
    linarith
  obtain ⟨p, hp⟩ : ∃ p, p = A.r (A.r (A.r (h1 - h2) / dx) + A.r (A.r (h3 - h4) / dx)) := ⟨_, rfl⟩
  have wT : 0 ≤ w * T := by rw [hT]; positivity
  have wS : 0 ≤ w * (u * S) := by rw [hu]; positivity
  have uT : u * T ≤ 1 / 1000 * T := mul_le_mul_of_nonneg_right (by rw [hu]; exact u1) (by rw [hT]; exact t0)
  have T0 : 0 ≤ T := by rw [hT]; exact t0
  have pb : |p - C| ≤ w * (5 * (u * S) + 5 * T) + 4 * T := by
    have e : |A.r (A.r (h1 - h2) / dx) + A.r (A.r (h3 - h4) / dx) - C| ≤ w * (3 * (u * S) + 4 * T) + 2 * T := by
      have := q h1 h2
      have := q h3 h4
      have := abs_add_le (A.r (A.r (h1 - h2) / dx) - w * (h1 - h2)) (A.r (A.r (h3 - h4) / dx) - w * (h3 - h4))
      rw [show A.r (A.r (h1 - h2) / dx) + A.r (A.r (h3 - h4) / dx) - C =
        A.r (A.r (h1 - h2) / dx) - w * (h1 - h2) + (A.r (A.r (h3 - h4) / dx) - w * (h3 - h4)) by rw [hC]; ring]
      refine this.trans (le_of_le_of_eq (add_le_add ‹_› ‹_›) ?_)
      rw [hS]; ring
    have r := A.near' CB e
    rw [← hu, ← hT, ← hp] at r
    refine r.trans ?_
    have n1 : 0 ≤ w * (3 * (u * S) + 4 * T) + 2 * T := by linarith
    have n2 : u * (w * (3 * (u * S) + 4 * T) + 2 * T) ≤ 1 / 1000 * (w * (3 * (u * S) + 4 * T) + 2 * T) := mul_le_mul_of_nonneg_right (by rw [hu]; exact u1) n1
    linarith
  have uS : u * (u * S) ≤ 1 / 1000 * (u * S) := mul_le_mul_of_nonneg_right (by rw [hu]; exact u1) (by rw [hu]; positivity)
  have uS0 : 0 ≤ u * S := by rw [hu]; positivity
  have xT : 0 ≤ dx * T := by rw [hT]; positivity
  -- the product with `Cb`
  have Cw : Cb * w ≤ 1 / 2 := by
    have := mul_le_mul_of_nonneg_right b1 w0.le
    linarith
  have CbE : Cb * |p - C| ≤ 5 / 2 * (u * S) + 5 / 2 * T + 2 * (dx * T) := by
    have := mul_le_mul_of_nonneg_left pb b0
    have s1 : Cb * w * (5 * (u * S) + 5 * T) ≤ 1 / 2 * (5 * (u * S) + 5 * T) := mul_le_mul_of_nonneg_right Cw (by linarith)
    have s2 : Cb * (4 * T) ≤ dx / 2 * (4 * T) := mul_le_mul_of_nonneg_right b1 (by linarith)
    linarith
  have CbC : Cb * |C| ≤ 1 / 2 * S := by
    have := mul_le_mul_of_nonneg_left CB b0
    have s1 : Cb * w * S ≤ 1 / 2 * S := mul_le_mul_of_nonneg_right Cw S0
    linarith
  have m0 : |Cb' * p - Cb * C| ≤ 13 * (u * S) + 3 * T + 3 * (dx * T) := by
    have e : Cb' * p - Cb * C = (Cb' - Cb) * p + Cb * (p - C) := by ring
    rw [e]
    refine (abs_add_le _ _).trans ?_
    rw [abs_mul, abs_mul, abs_of_nonneg b0]
    have pB : |p| ≤ |C| + |p - C| := by
      have := abs_add_le C (p - C)
      rwa [add_sub_cancel] at this
    have s1 : |Cb' - Cb| * |p| ≤ 20 * u * Cb * (|C| + |p - C|) := by
      rw [← hu] at b2
      exact mul_le_mul b2 pB (abs_nonneg _) (by rw [hu]; positivity)
    have s2 : 20 * u * (Cb * |C|) ≤ 20 * u * (1 / 2 * S) := mul_le_mul_of_nonneg_left CbC (by rw [hu]; positivity)
    have s3 : 20 * u * (Cb * |p - C|) ≤ 20 * (1 / 1000) * (Cb * |p - C|) :=
      mul_le_mul_of_nonneg_right (by rw [hu]; linarith) (mul_nonneg b0 (abs_nonneg _))
    linarith
  have m : |A.r (Cb' * p) - Cb * C| ≤ 14 * (u * S) + 5 * T + 4 * (dx * T) := by
    have B : |Cb * C| ≤ 1 / 2 * S := by rw [abs_mul, abs_of_nonneg b0]; exact CbC
    have r := A.near' B m0
    rw [← hu, ← hT] at r
    refine r.trans ?_
    have n2 : u * (13 * (u * S) + 3 * T + 3 * (dx * T)) ≤ 1 / 1000 * (13 * (u * S) + 3 * T + 3 * (dx * T)) :=
      mul_le_mul_of_nonneg_right (by rw [hu]; exact u1) (by linarith)
    linarith
  have uE0 : 0 ≤ u * |E| := by rw [hu]; positivity
  have n : |A.r (Ca' * E) - Ca * E| ≤ 22 * (u * |E|) + T := by
    have B : |Ca * E| ≤ |E| := by
      rw [abs_mul]
      have := mul_le_mul_of_nonneg_right a1 (abs_nonneg E)
      linarith
    have e : |Ca' * E - Ca * E| ≤ 20 * (u * |E|) := by
      rw [← sub_mul, abs_mul]
      have := mul_le_mul_of_nonneg_right a2 (abs_nonneg E)
      rw [hu]
      linarith
    have r := A.near' B e
    rw [← hu, ← hT] at r
    refine r.trans ?_
    have : u * (20 * (u * |E|)) ≤ 1 / 1000 * (20 * (u * |E|)) := mul_le_mul_of_nonneg_right (by rw [hu]; exact u1) (by linarith)
    linarith
  have B : |Ca * E + Cb * C| ≤ |E| + 1 / 2 * S := by
    refine (abs_add_le _ _).trans (add_le_add ?_ ?_)
    · rw [abs_mul]
      have := mul_le_mul_of_nonneg_right a1 (abs_nonneg E)
      linarith
    · rw [abs_mul, abs_of_nonneg b0]; exact CbC
  have e : |A.r (Ca' * E) + A.r (Cb' * p) - (Ca * E + Cb * C)| ≤ 22 * (u * |E|) + 14 * (u * S) + 6 * T + 4 * (dx * T) := by
    have := abs_add_le (A.r (Ca' * E) - Ca * E) (A.r (Cb' * p) - Cb * C)
    rw [show A.r (Ca' * E) + A.r (Cb' * p) - (Ca * E + Cb * C) = A.r (Ca' * E) - Ca * E + (A.r (Cb' * p) - Cb * C) by ring]
    linarith
  have r := A.near' B e
  rw [← hu, ← hT] at r
  rw [dw (h1 - h2), dw (h3 - h4), ← hC, ← hp, ← hS, ← hu, ← hT]
  refine r.trans ?_
  have : u * (22 * (u * |E|) + 14 * (u * S) + 6 * T + 4 * (dx * T)) ≤ 1 / 1000 * (22 * (u * |E|) + 14 * (u * S) + 6 * T + 4 * (dx * T)) :=
    mul_le_mul_of_nonneg_right (by rw [hu]; exact u1) (by linarith)
  linarith

/-- Rounding of the update of `Hx` and `Hy`. -/
theorem fl_h (A : Arith) {H e1 e0 dx s : ℝ} (hx : 0 < dx) (hs : s = 1 ∨ s = -1) :
    |A.r (H + s * A.r (A.r (dx / 2 * A.r (e1 - e0)) / dx)) - (H + s * ((e1 - e0) / 2))| ≤ 4 * A.u * (|H| + (|e1| + |e0|)) + (5 + 3 / dx) * A.tiny := by
  have u0 := A.u_nonneg
  have u1 := A.u_le
  have t0 := A.tiny_nonneg
  obtain ⟨u, hu⟩ : ∃ u, u = A.u := ⟨_, rfl⟩
  obtain ⟨T, hT⟩ : ∃ T, T = A.tiny := ⟨_, rfl⟩
  obtain ⟨w, hw⟩ : ∃ w, w = 1 / dx := ⟨_, rfl⟩
  have w0 : 0 < w := by rw [hw]; positivity
  have wx : w * dx = 1 := by rw [hw]; field_simp
  have dw : ∀ z : ℝ, z / dx = w * z := fun z => by rw [hw]; ring
  obtain ⟨B, hB⟩ : ∃ B, B = |e1| + |e0| := ⟨_, rfl⟩
  have B0 : 0 ≤ B := by rw [hB]; positivity
  have T0 : 0 ≤ T := by rw [hT]; exact t0
  have wT : 0 ≤ w * T := mul_nonneg w0.le T0
  have uB0 : 0 ≤ u * B := by rw [hu]; positivity
  have uB : u * (u * B) ≤ 1 / 1000 * (u * B) := mul_le_mul_of_nonneg_right (by rw [hu]; exact u1) uB0
  have uT : u * T ≤ 1 / 1000 * T := mul_le_mul_of_nonneg_right (by rw [hu]; exact u1) T0
  have uwT : u * (w * T) ≤ 1 / 1000 * (w * T) := mul_le_mul_of_nonneg_right (by rw [hu]; exact u1) wT
  have v := A.near' (x := e1 - e0) (y := e1 - e0) (e := 0) (abs_sub_le' e1 e0) (by simp)
  rw [← hu, ← hT, ← hB] at v
  have b : |e1 - e0| ≤ B := by rw [hB]; exact abs_sub_le' e1 e0
  have v' : |dx / 2 * A.r (e1 - e0) - dx / 2 * (e1 - e0)| ≤ dx / 2 * (u * B + T) := by
    rw [← mul_sub, abs_mul, abs_of_pos (by linarith : 0 < dx / 2)]
    refine mul_le_mul_of_nonneg_left ?_ (by linarith)
    linarith
  have z := A.near' (B := dx / 2 * B) (by
    rw [abs_mul, abs_of_pos (by linarith : 0 < dx / 2)]
    exact mul_le_mul_of_nonneg_left b (by linarith)) v'
  rw [← hu, ← hT] at z
  have z1 : |A.r (dx / 2 * A.r (e1 - e0)) / dx - (e1 - e0) / 2| ≤ 3 / 2 * (u * B) + T + w * T := by
    have e : A.r (dx / 2 * A.r (e1 - e0)) / dx - (e1 - e0) / 2 = w * (A.r (dx / 2 * A.r (e1 - e0)) - dx / 2 * (e1 - e0)) := by
      rw [mul_sub, ← dw, show w * (dx / 2 * (e1 - e0)) = (w * dx) * ((e1 - e0) / 2) by ring, wx, one_mul]
    rw [e, abs_mul, abs_of_pos w0]
    have := mul_le_mul_of_nonneg_left z w0.le
    have i : w * (dx / 2 * (u * B + T) + u * (dx / 2 * B + dx / 2 * (u * B + T)) + T) =
        (w * dx) * (1 / 2 * (u * B + T) + u * (1 / 2 * B + 1 / 2 * (u * B + T))) + w * T := by ring
    rw [i, wx, one_mul] at this
    linarith
  have z2 := A.near' (B := 1 / 2 * B) (by rw [abs_div, abs_of_pos (by norm_num : (0 : ℝ) < 2)]; linarith) z1
  rw [← hu, ← hT] at z2
  have z3 : |H + s * A.r (A.r (dx / 2 * A.r (e1 - e0)) / dx) - (H + s * ((e1 - e0) / 2))| ≤ 3 * (u * B) + 3 * T + 2 * (w * T) := by
    rw [add_sub_add_left_eq_sub, ← mul_sub, abs_mul]
    have : |s| = 1 := by rcases hs with h | h <;> rw [h] <;> norm_num
    rw [this, one_mul]
    have : u * (3 / 2 * (u * B) + T + w * T) ≤ 1 / 1000 * (3 / 2 * (u * B) + T + w * T) := by linarith
    linarith
  have uH : 0 ≤ u * |H| := by rw [hu]; positivity
  have r := A.near' (B := |H| + 1 / 2 * B) (by
    refine (abs_add_le _ _).trans ?_
    rw [abs_mul, abs_div, abs_of_pos (by norm_num : (0 : ℝ) < 2)]
    have : |s| = 1 := by rcases hs with h | h <;> rw [h] <;> norm_num
    rw [this]
    linarith) z3
  rw [← hu, ← hT] at r
  rw [← hu, ← hT, ← hB, show (5 + 3 / dx) * T = 5 * T + 3 * (w * T) by rw [hw]; ring]
  linarith

/-- A quotient of two perturbed numbers. -/
theorem quot_near {N N' D D' a b c : ℝ} (hD : 0 < D) (hN : |N' - N| ≤ a * D) (hD' : |D' - D| ≤ b * D) (hb : b ≤ 1 / 100) (hc : |N| ≤ c * D) :
    |N' / D' - N / D| ≤ 100 / 99 * (a + c * b) := by
  have d := abs_le.mp hD'
  have bD : b * D ≤ 1 / 100 * D := mul_le_mul_of_nonneg_right hb hD.le
  have p : 99 / 100 * D ≤ D' := by linarith
  have p' : 0 < D' := by linarith
  have c0 : 0 ≤ c := by
    by_contra h
    have := mul_neg_of_neg_of_pos (not_le.mp h) hD
    linarith [abs_nonneg N]
  have a0 : 0 ≤ a := by
    by_contra h
    have := mul_neg_of_neg_of_pos (not_le.mp h) hD
    linarith [abs_nonneg (N' - N)]
  have b0 : 0 ≤ b := by
    by_contra h
    have := mul_neg_of_neg_of_pos (not_le.mp h) hD
    linarith [abs_nonneg (D' - D)]
  have e : N' / D' - N / D = ((N' - N) - N / D * (D' - D)) / D' := by field_simp; ring
  rw [e, abs_div, abs_of_pos p', div_le_iff₀ p']
  have q : |N / D| ≤ c := by rw [abs_div, abs_of_pos hD, div_le_iff₀ hD]; exact hc
  have : |N' - N - N / D * (D' - D)| ≤ a * D + c * (b * D) := by
    refine (abs_sub_le' _ _).trans (add_le_add hN ?_)
    rw [abs_mul]
    exact mul_le_mul q hD' (abs_nonneg _) c0
  refine this.trans ?_
  have : 0 ≤ a + c * b := by positivity
  have := mul_le_mul_of_nonneg_left p this
  linarith

theorem exact_coef {m : Simple ℝ} {dx : ℝ} (hx : 0 < dx) (h1 : 1 ≤ m.eps) (h2 : 0 ≤ m.conduc) :
    |m.Ca (dx / 2)| ≤ 1 ∧ 0 < m.Cb (dx / 2) ∧ m.Cb (dx / 2) ≤ dx / 2 := by
  unfold Simple.Ca Simple.Cb
  simp only [ofInt_real, Int.cast_ofNat]
  have he : 0 < m.eps := by linarith
  obtain ⟨a, ha⟩ : ∃ a, a = m.conduc * (dx / 2) / (2 * m.eps) := ⟨_, rfl⟩
  have a0 : 0 ≤ a := by rw [ha]; positivity
  rw [← ha]
  refine ⟨?_, by positivity, ?_⟩
  · rw [abs_div, abs_of_pos (by linarith : 0 < 1 + a), div_le_one (by linarith), abs_le]
    constructor <;> linarith
  · rw [div_le_iff₀ (by linarith), div_le_iff₀ he]
    nlinarith [mul_nonneg a0 hx.le, mul_nonneg (sub_nonneg.mpr h1) hx.le, mul_nonneg (mul_nonneg a0 hx.le) he.le]

/-- Rounding of the coefficients of a simple medium. -/
theorem fl_coef {A : Arith} (m : Simple (Rnd A)) {dt : Rnd A} {dx : ℝ} (hd : dt.val = dx / 2) (hx : 0 < dx) (h1 : 1 ≤ m.eps.val) (h2 : 0 ≤ m.conduc.val)
    (hn : A.tiny ≤ A.u * (exactMed m).Cb (dx / 2)) :
    |(m.Ca dt).val - (exactMed m).Ca (dx / 2)| ≤ 20 * A.u ∧ |(m.Cb dt).val - (exactMed m).Cb (dx / 2)| ≤ 20 * A.u * (exactMed m).Cb (dx / 2) := by
  have u0 := A.u_nonneg
  have u1 := A.u_le
  have t0 := A.tiny_nonneg
  have t1 := A.tiny_le
  obtain ⟨-, c0, -⟩ := exact_coef (m := exactMed m) hx h1 h2
  unfold Simple.Ca Simple.Cb at *
  simp only [ofInt_real, Int.cast_ofNat, ofInt_rnd, sub_rnd, add_rnd, mul_rnd, div_rnd, one_rnd, A.two, hd, exactMed] at *
  obtain ⟨e, he⟩ : ∃ e, e = m.eps.val := ⟨_, rfl⟩
  obtain ⟨s, hs⟩ : ∃ s, s = m.conduc.val := ⟨_, rfl⟩
  obtain ⟨d, hd'⟩ : ∃ d, d = dx / 2 := ⟨_, rfl⟩
  obtain ⟨u, hu⟩ : ∃ u, u = A.u := ⟨_, rfl⟩
  obtain ⟨T, hT⟩ : ∃ T, T = A.tiny := ⟨_, rfl⟩
  have d0 : 0 < d := by rw [hd']; linarith
  rw [← he] at h1 hn c0 ⊢
  rw [← hs] at h2 hn c0 ⊢
  rw [← hd'] at hn c0 ⊢
  rw [← hu] at u0 u1 t1 hn ⊢
  rw [← hT] at t0 t1 hn
  have e0 : 0 < e := by linarith
  obtain ⟨a, ha⟩ : ∃ a, a = s * d / (2 * e) := ⟨_, rfl⟩
  have a0 : 0 ≤ a := by rw [ha]; positivity
  -- the loss term
  have ua0 : 0 ≤ u * a := mul_nonneg u0 a0
  have la : |A.r (A.r (s * d) / A.r (2 * e)) - a| ≤ 5 * u * (1 + a) := by
    have p := A.near (s * d)
    have q := A.near (2 * e)
    rw [abs_of_nonneg (mul_nonneg h2 d0.le), ← hu, ← hT] at p
    rw [abs_of_nonneg (by linarith : 0 ≤ 2 * e), ← hu, ← hT] at q
    have sa : s * d = a * (2 * e) := by rw [ha]; field_simp
    have k := quot_near (N := s * d) (N' := A.r (s * d)) (D := 2 * e) (D' := A.r (2 * e)) (a := u * a + T / 2) (b := 3 / 2 * u) (c := a) (by linarith)
      (by rw [sa] at p ⊢; nlinarith [mul_nonneg t0 (sub_nonneg.mpr h1)]) (by nlinarith [mul_nonneg u0 (sub_nonneg.mpr h1)]) (by linarith)
      (by rw [abs_of_nonneg (mul_nonneg h2 d0.le)]; exact sa.le)
    rw [← ha] at k
    have r := A.near' (x := a) (B := a) (abs_of_nonneg a0).le k
    rw [← hu, ← hT] at r
    refine r.trans ?_
    have n : 0 ≤ 100 / 99 * (u * a + T / 2 + a * (3 / 2 * u)) := by nlinarith
    have := mul_le_mul_of_nonneg_right u1 n
    nlinarith
  obtain ⟨a', ha'⟩ : ∃ a', a' = A.r (A.r (s * d) / A.r (2 * e)) := ⟨_, rfl⟩
  rw [← ha'] at la ⊢
  have v0 : 0 ≤ u * (1 + a) := mul_nonneg u0 (by linarith)
  have vv : u * (u * (1 + a)) ≤ 1 / 1000 * (u * (1 + a)) := mul_le_mul_of_nonneg_right u1 v0
  have Tv : T ≤ u * (1 + a) := by nlinarith
  have den : |A.r (1 + a') - (1 + a)| ≤ 8 * u * (1 + a) := by
    have r := A.near' (x := 1 + a) (y := 1 + a') (B := 1 + a) (e := 5 * u * (1 + a)) (abs_of_nonneg (by linarith)).le (by rw [add_sub_add_left_eq_sub]; exact la)
    rw [← hu, ← hT] at r
    nlinarith
  have num : |A.r (1 - a') - (1 - a)| ≤ 8 * u * (1 + a) := by
    have r := A.near' (x := 1 - a) (y := 1 - a') (B := 1 + a) (e := 5 * u * (1 + a)) (by rw [abs_le]; constructor <;> linarith)
      (by rw [sub_sub_sub_cancel_left, abs_sub_comm]; exact la)
    rw [← hu, ← hT] at r
    nlinarith
  rw [← ha] at hn c0 ⊢
  have D0 : 0 < 1 + a := by linarith
  constructor
  · have k := quot_near (c := 1) D0 num den (by linarith) (by rw [abs_le]; constructor <;> linarith)
    have r := A.near' (x := (1 - a) / (1 + a)) (B := 1) (by rw [abs_div, abs_of_pos D0, div_le_one D0, abs_le]; constructor <;> linarith) k
    rw [← hu, ← hT] at r
    have : u * (100 / 99 * (8 * u + 1 * (8 * u))) ≤ 1 / 1000 * (100 / 99 * (8 * u + 1 * (8 * u))) := mul_le_mul_of_nonneg_right u1 (by linarith)
    linarith
  · obtain ⟨c, hc⟩ : ∃ c, c = d / e / (1 + a) := ⟨_, rfl⟩
    rw [← hc] at hn c0 ⊢
    have de : d / e = c * (1 + a) := by rw [hc]; field_simp
    have n0 : 0 < d / e := by positivity
    have p := A.near (d / e)
    rw [abs_of_pos n0, ← hu, ← hT] at p
    have uc : 0 ≤ u * c := mul_nonneg u0 c0.le
    have k := quot_near (N := d / e) (N' := A.r (d / e)) (a := 2 * (u * c)) (c := c) D0 (by
      rw [de] at p ⊢
      nlinarith [mul_nonneg uc a0]) den (by linarith) (by rw [abs_of_pos n0]; exact de.le)
    rw [← hc] at k
    have r := A.near' (x := c) (B := c) (abs_of_pos c0).le k
    rw [← hu, ← hT] at r
    have : u * (100 / 99 * (2 * (u * c) + c * (8 * u))) ≤ 1 / 1000 * (100 / 99 * (2 * (u * c) + c * (8 * u))) :=
      mul_le_mul_of_nonneg_right u1 (by nlinarith)
    nlinarith

end Qbox
