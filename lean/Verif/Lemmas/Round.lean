import Verif.Model.Scalar
import Mathlib.Tactic.Linarith
import Mathlib.Algebra.Order.Floor.Ring

/-! Facts about C `round`. -/

namespace Qbox

theorem roundAway_int (n : ℤ) : roundAway (n : ℝ) = n := by
  unfold roundAway
  split
  · rw [Int.floor_eq_iff]; constructor <;> linarith
  · rw [Int.ceil_eq_iff]; constructor <;> linarith

theorem roundAway_abs_sub_le (x : ℝ) : |(roundAway x : ℝ) - x| ≤ 1 / 2 := by
  unfold roundAway
  rw [abs_le]
  split
  · have h1 := Int.floor_le (x + 1/2)
    have h2 := Int.lt_floor_add_one (x + 1/2)
    constructor <;> linarith
  · have h1 := Int.le_ceil (x - 1/2)
    have h2 := Int.ceil_lt_add_one (x - 1/2)
    constructor <;> linarith

theorem roundAway_mono {x y : ℝ} (h : x ≤ y) : roundAway x ≤ roundAway y := by
  unfold roundAway
  split_ifs with h1 h2 h2
  · exact Int.floor_le_floor (by linarith)
  · linarith
  · have a : ⌈x - 1/2⌉ ≤ 0 := by
      rw [Int.ceil_le]; push_cast; linarith
    have b : 0 ≤ ⌊y + 1/2⌋ := by
      rw [Int.le_floor]; push_cast; linarith
    omega
  · exact Int.ceil_le_ceil (by linarith)

theorem roundAway_neg (x : ℝ) : roundAway (-x) = - roundAway x := by
  unfold roundAway
  by_cases h0 : x = 0
  · subst h0; norm_num
  · rcases lt_or_gt_of_ne h0 with h | h
    · rw [if_pos (by linarith), if_neg (by linarith)]
      rw [← Int.floor_neg]; congr 1; ring
    · rw [if_neg (by linarith), if_pos (by linarith)]
      rw [← Int.ceil_neg]; congr 1; ring

/-- Nearest: if `|x - n| < 1/2` then `round x = n`. -/
theorem roundAway_eq_of_abs_lt {x : ℝ} {n : ℤ} (h : |x - n| < 1 / 2) : roundAway x = n := by
  have h1 := roundAway_abs_sub_le x
  rw [abs_le] at h1
  rw [abs_lt] at h
  have a : ((roundAway x : ℤ) : ℝ) < n + 1 := by linarith
  have b : (n : ℝ) - 1 < (roundAway x : ℤ) := by linarith
  have a' : roundAway x < n + 1 := by exact_mod_cast a
  have b' : n - 1 < roundAway x := by exact_mod_cast b
  omega

end Qbox
