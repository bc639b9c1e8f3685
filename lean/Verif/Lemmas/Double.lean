import Verif.Spec.RoundSpec
import Mathlib.Tactic.FieldSimp
import Mathlib.Tactic.Positivity

/-! # Rounding to double precision obeys the laws of `Arith` -/

namespace Qbox
open Spec

theorem nearestEven_int (n : ℤ) : nearestEven n = n := by
  unfold nearestEven
  rw [Int.floor_intCast, sub_self, if_pos (by norm_num)]

theorem nearestEven_abs (x : ℝ) : |(nearestEven x : ℝ) - x| ≤ 1 / 2 := by
  have h1 := Int.floor_le x
  have h2 := Int.lt_floor_add_one x
  unfold nearestEven
  rw [abs_le]
  split_ifs <;> push_cast <;> constructor <;> linarith

/-- The nearest integer is nearest. -/
theorem nearestEven_unique {x : ℝ} {n : ℤ} (h : |(n : ℝ) - x| < 1 / 2) : nearestEven x = n := by
  have h1 := nearestEven_abs x
  rw [abs_le] at h1
  rw [abs_lt] at h
  have a : (nearestEven x : ℝ) < n + 1 := by linarith
  have b : (n : ℝ) - 1 < nearestEven x := by linarith
  have a' : nearestEven x < n + 1 := by exact_mod_cast a
  have b' : n - 1 < nearestEven x := by exact_mod_cast b
  omega

theorem nearestEven_tie (n : ℤ) : nearestEven ((n : ℝ) + 1 / 2) = if Even n then n else n + 1 := by
  have e : ⌊(n : ℝ) + 1 / 2⌋ = n := by
    rw [Int.floor_eq_iff]
    constructor <;> linarith
  unfold nearestEven
  rw [e, if_neg (by linarith), if_neg (by linarith)]

theorem nearestEven_neg (x : ℝ) : nearestEven (-x) = - nearestEven x := by
  by_cases h : x - ⌊x⌋ = 1 / 2
  · obtain ⟨n, hn⟩ : ∃ n : ℤ, x = n + 1 / 2 := ⟨⌊x⌋, by linarith⟩
    have : -x = ((-n - 1 : ℤ) : ℝ) + 1 / 2 := by rw [hn]; push_cast; ring
    rw [this, hn, nearestEven_tie, nearestEven_tie]
    have : Even (-n - 1) ↔ ¬ Even n := by
      rw [Int.even_sub_one, even_neg]
    by_cases hE : Even n
    · rw [if_pos hE, if_neg (by rw [this]; simpa using hE)]; ring
    · rw [if_neg hE, if_pos (this.mpr hE)]; ring
  · have h1 := Int.floor_le x
    have h2 := Int.lt_floor_add_one x
    rcases lt_or_gt_of_ne h with h | h
    · rw [nearestEven_unique (x := x) (n := ⌊x⌋) (by rw [abs_lt]; constructor <;> linarith)]
      exact nearestEven_unique (by push_cast; rw [abs_lt]; constructor <;> linarith)
    · rw [nearestEven_unique (x := x) (n := ⌊x⌋ + 1) (by push_cast; rw [abs_lt]; constructor <;> linarith)]
      exact nearestEven_unique (by push_cast; rw [abs_lt]; constructor <;> linarith)

theorem lastBit_neg (x : ℝ) : lastBit (-x) = lastBit x := by unfold lastBit; rw [abs_neg]

theorem toDouble_neg (x : ℝ) : toDouble (-x) = - toDouble x := by
  unfold toDouble
  rw [lastBit_neg, neg_div, nearestEven_neg]
  push_cast
  ring

/-- A multiple of a power of two with at most 53 bits is a double. -/
theorem toDouble_dyadic {n e : ℤ} (hn : |n| < 2 ^ 53) (he : -1074 ≤ e) : toDouble ((n : ℝ) * 2 ^ e) = n * 2 ^ e := by
  by_cases h0 : n = 0
  · subst h0
    unfold toDouble
    rw [Int.cast_zero, zero_mul, zero_div]
    have := nearestEven_int 0
    rw [Int.cast_zero] at this
    rw [this, Int.cast_zero, zero_mul]
  · have hp : (0 : ℝ) < |(n : ℝ) * 2 ^ e| := by
      rw [abs_pos]
      exact mul_ne_zero (by exact_mod_cast h0) (by positivity)
    have hlt : |(n : ℝ) * 2 ^ e| < 2 ^ (53 + e) := by
      rw [abs_mul, abs_of_pos (by positivity : (0 : ℝ) < 2 ^ e), zpow_add₀ (by norm_num)]
      refine mul_lt_mul_of_pos_right ?_ (by positivity)
      have : ((|n| : ℤ) : ℝ) < ((2 ^ 53 : ℤ) : ℝ) := by exact_mod_cast hn
      push_cast at this
      have e : ((2 : ℝ) ^ (53 : ℤ)) = 2 ^ (53 : ℕ) := by norm_cast
      rw [e]
      norm_num at this ⊢
      exact this
    have hl : Int.log 2 |(n : ℝ) * 2 ^ e| < 53 + e := by
      have := (Int.lt_zpow_iff_log_lt (b := 2) (by norm_num) hp (x := 53 + e)).mp (by exact_mod_cast hlt)
      exact this
    have hb : lastBit ((n : ℝ) * 2 ^ e) ≤ e := by
      unfold lastBit
      exact max_le (by omega) he
    unfold toDouble
    set k := lastBit ((n : ℝ) * 2 ^ e)
    obtain ⟨d, hd⟩ : ∃ d : ℕ, e = k + d := ⟨(e - k).toNat, by omega⟩
    have e1 : (n : ℝ) * 2 ^ e / 2 ^ k = ((n * 2 ^ d : ℤ) : ℝ) := by
      rw [hd, zpow_add₀ (by norm_num)]
      push_cast
      rw [zpow_natCast]
      have : (2 : ℝ) ^ k ≠ 0 := by positivity
      field_simp
    rw [e1, nearestEven_int, ← e1]
    exact div_mul_cancel₀ _ (by positivity)

theorem lastBit_ge (x : ℝ) : -1074 ≤ lastBit x := le_max_right _ _

/-- Scaled to its last bit a number has at most 53 bits. -/
theorem scaled_lt (x : ℝ) : |x / 2 ^ lastBit x| < 2 ^ 53 := by
  by_cases h0 : x = 0
  · subst h0; simp
  · have hp : 0 < |x| := abs_pos.mpr h0
    rw [abs_div, abs_of_pos (by positivity : (0 : ℝ) < 2 ^ lastBit x), div_lt_iff₀ (by positivity)]
    have h1 := Int.lt_zpow_succ_log_self (b := 2) (by norm_num) |x|
    have h2 : Int.log 2 |x| + 1 ≤ 53 + lastBit x := by
      have : Int.log 2 |x| - 52 ≤ lastBit x := le_max_left _ _
      omega
    have h3 : (2 : ℝ) ^ (Int.log 2 |x| + 1) ≤ 2 ^ (53 + lastBit x) := zpow_le_zpow_right₀ (by norm_num) h2
    rw [zpow_add₀ (by norm_num) 53] at h3
    have e : ((2 : ℝ) ^ (53 : ℤ)) = 2 ^ (53 : ℕ) := by norm_cast
    rw [e] at h3
    have h1' : |x| < (2 : ℝ) ^ (Int.log 2 |x| + 1) := by exact_mod_cast h1
    linarith

/-- Every result is a multiple of a power of two with at most 53 bits. -/
theorem toDouble_form (x : ℝ) : ∃ n e : ℤ, |n| < 2 ^ 53 ∧ -1074 ≤ e ∧ toDouble x = n * 2 ^ e := by
  have hb : |nearestEven (x / 2 ^ lastBit x)| ≤ 2 ^ 53 := by
    have h1 := nearestEven_abs (x / 2 ^ lastBit x)
    have h2 := scaled_lt x
    rw [abs_le] at h1
    rw [abs_lt] at h2
    have a : (nearestEven (x / 2 ^ lastBit x) : ℝ) < ((2 ^ 53 + 1 : ℤ) : ℝ) := by push_cast; linarith
    have b : ((-(2 ^ 53 + 1) : ℤ) : ℝ) < nearestEven (x / 2 ^ lastBit x) := by push_cast; linarith
    have a' : nearestEven (x / 2 ^ lastBit x) < 2 ^ 53 + 1 := by exact_mod_cast a
    have b' : -(2 ^ 53 + 1) < nearestEven (x / 2 ^ lastBit x) := by exact_mod_cast b
    rw [abs_le]
    constructor <;> omega
  rcases lt_or_eq_of_le hb with h | h
  · exact ⟨_, _, h, lastBit_ge x, rfl⟩
  · have : ∀ n : ℤ, |n| = 2 ^ 53 → ∃ m : ℤ, |m| < 2 ^ 53 ∧ (n : ℝ) = m * 2 := by
      intro n hn
      rcases abs_choice n with h | h
      · exact ⟨2 ^ 52, by norm_num, by rw [← h, hn]; norm_num⟩
      · exact ⟨-2 ^ 52, by norm_num, by rw [show n = -|n| by rw [h]; ring, hn]; norm_num⟩
    obtain ⟨m, h1, h2⟩ := this _ h
    refine ⟨m, lastBit x + 1, h1, by have := lastBit_ge x; omega, ?_⟩
    unfold toDouble
    rw [h2, zpow_add₀ (by norm_num), zpow_one]
    ring

theorem toDouble_idem (x : ℝ) : toDouble (toDouble x) = toDouble x := by
  obtain ⟨n, e, h1, h2, h3⟩ := toDouble_form x
  rw [h3, toDouble_dyadic h1 h2]

theorem toDouble_near (x : ℝ) : |toDouble x - x| ≤ 2 ^ (-53 : ℤ) * |x| + 2 ^ (-1075 : ℤ) := by
  have t0 : (0 : ℝ) ≤ 2 ^ (-1075 : ℤ) := by positivity
  by_cases h0 : x = 0
  · subst h0
    have := toDouble_dyadic (n := 0) (e := 0) (by norm_num) (by norm_num)
    rw [Int.cast_zero, zero_mul] at this
    rw [this, sub_zero, abs_zero, mul_zero, zero_add]
    exact t0
  have hx : 0 < |x| := abs_pos.mpr h0
  have h1 := nearestEven_abs (x / 2 ^ lastBit x)
  have hp : (0 : ℝ) < 2 ^ lastBit x := by positivity
  have e : toDouble x - x = (nearestEven (x / 2 ^ lastBit x) - x / 2 ^ lastBit x) * 2 ^ lastBit x := by
    unfold toDouble
    rw [sub_mul, div_mul_cancel₀ _ hp.ne']
  rw [e, abs_mul, abs_of_pos hp]
  have h2 := mul_le_mul_of_nonneg_right h1 hp.le
  have half : ∀ k : ℤ, (1 / 2 : ℝ) * 2 ^ k = 2 ^ (k - 1) := by
    intro k
    rw [zpow_sub₀ (by norm_num), zpow_one]
    ring
  rw [half] at h2
  refine h2.trans ?_
  rcases le_total (Int.log 2 |x| - 52) (-1074) with h | h
  · have : lastBit x = -1074 := max_eq_right h
    rw [this]
    have : 0 ≤ (2 ^ (-53 : ℤ) : ℝ) * |x| := by positivity
    have e : (-1074 - 1 : ℤ) = -1075 := by norm_num
    rw [e]
    linarith
  · have hb : lastBit x = Int.log 2 |x| - 52 := max_eq_left h
    have h3 := Int.zpow_log_le_self (b := 2) (by norm_num) hx
    have h3' : (2 : ℝ) ^ Int.log 2 |x| ≤ |x| := by exact_mod_cast h3
    rw [hb, show Int.log 2 |x| - 52 - 1 = -53 + Int.log 2 |x| by ring, zpow_add₀ (by norm_num)]
    have := mul_le_mul_of_nonneg_left h3' (by positivity : (0 : ℝ) ≤ 2 ^ (-53 : ℤ))
    linarith

theorem toDouble_int {n : ℤ} (h : |n| < 2 ^ 53) : toDouble n = n := by
  have := toDouble_dyadic (e := 0) h (by norm_num)
  rwa [zpow_zero, mul_one] at this

/-- Halving is exact unless the number is among the smallest. -/
theorem toDouble_half {x : ℝ} (h : toDouble x = x) (hx : 2 ^ (-1021 : ℤ) ≤ |x|) : toDouble (x / 2) = x / 2 := by
  have hp : 0 < |x| := lt_of_lt_of_le (by positivity) hx
  have hl : -1021 ≤ Int.log 2 |x| := (Int.zpow_le_iff_le_log (b := 2) (by norm_num) hp).mp (by exact_mod_cast hx)
  have hb : -1073 ≤ lastBit x := by
    have : Int.log 2 |x| - 52 ≤ lastBit x := le_max_left _ _
    omega
  have hf : ∃ n e : ℤ, |n| < 2 ^ 53 ∧ -1073 ≤ e ∧ x = n * 2 ^ e := by
    have e : x = nearestEven (x / 2 ^ lastBit x) * 2 ^ lastBit x := h.symm
    refine ⟨_, lastBit x, ?_, hb, e⟩
    have h2 := scaled_lt x
    have e' : x / 2 ^ lastBit x = nearestEven (x / 2 ^ lastBit x) := by
      rw [div_eq_iff (by positivity)]
      exact e
    rw [e'] at h2
    have : ((|nearestEven (x / 2 ^ lastBit x)| : ℤ) : ℝ) < ((2 ^ 53 : ℤ) : ℝ) := by
      push_cast
      norm_num at h2 ⊢
      exact h2
    exact_mod_cast this
  obtain ⟨n, e, h1, h2, h3⟩ := hf
  have : x / 2 = n * 2 ^ (e - 1) := by
    rw [h3, zpow_sub₀ (by norm_num), zpow_one]
    ring
  rw [this]
  exact toDouble_dyadic h1 (by omega)

/-- Double precision, with any library functions. -/
noncomputable def double (sin cos exp : ℝ → ℝ) (pow : ℝ → ℕ → ℝ) (pi : ℝ) : Arith where
  r := toDouble
  u := 2 ^ (-53 : ℤ)
  tiny := 2 ^ (-1075 : ℤ)
  u_nonneg := by positivity
  u_le := by
    have : ((2 : ℝ) ^ (-53 : ℤ)) ≤ 2 ^ (-10 : ℤ) := zpow_le_zpow_right₀ (by norm_num) (by norm_num)
    refine this.trans ?_
    norm_num
  tiny_nonneg := by positivity
  tiny_le := zpow_le_zpow_right₀ (by norm_num) (by norm_num)
  near := toDouble_near
  idem := toDouble_idem
  odd := toDouble_neg
  one := by
    have := toDouble_int (n := 1) (by norm_num)
    rwa [Int.cast_one] at this
  two := by
    have := toDouble_int (n := 2) (by norm_num)
    rwa [Int.cast_ofNat] at this
  sin := sin
  cos := cos
  exp := exp
  pow := pow
  pi := pi

end Qbox
