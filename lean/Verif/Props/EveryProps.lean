import Verif.Model.TimeMonitors
import Mathlib.Tactic.Linarith

/-!
# C44: `every(n)` fires exactly every `n`-th time
-/

namespace Qbox.Props
open Qbox

/-- The answers of `m` consecutive calls of `check_repeat`. -/
def answers : ℕ → Every → M (List Bool × Every)
  | 0, e => .ok ([], e)
  | m + 1, e => do
    let (l, e) ← answers m e
    let (b, e) ← e.check
    pure (l ++ [b], e)

/-- The expected answers to the calls number `1, ..., m`. -/
def multiples (R m : ℕ) : List Bool := (List.range m).map (fun k => decide (R ∣ k + 1))

theorem multiples_succ (R m : ℕ) : multiples R (m + 1) = multiples R m ++ [decide (R ∣ m + 1)] := by
  simp [multiples, List.range_succ]

theorem answers_gen (e : Every) (R : ℕ) (h1 : 1 ≤ R) (h2 : R < 2 ^ 31) (hn : e.n = 1) (hv : e.never = false)
    (hr : e.nRepeat.natAbs = R) (m : ℕ) :
    answers m e = .ok (multiples R m, { e with n := ((m % R : ℕ) : ℤ) + 1 }) := by
  induction m with
  | zero => simp [answers, multiples, ← hn]
  | succ m ih =>
    simp only [answers, ih, Except.ok_bind]
    have hlt := Nat.mod_lt m (show R > 0 by omega)
    have r0 : e.nRepeat ≠ 0 := by intro h; rw [h] at hr; simp at hr; omega
    have hd : (((m % R : ℕ) : ℤ) + 1).tmod e.nRepeat = 0 ↔ R ∣ m % R + 1 := by
      rw [← Int.dvd_iff_tmod_eq_zero, ← Int.natAbs_dvd_natAbs, hr]
      have : (((m % R : ℕ) : ℤ) + 1).natAbs = m % R + 1 := by omega
      rw [this]
    have hd2 : R ∣ m % R + 1 ↔ R ∣ m + 1 := by
      have e1 : m + 1 = R * (m / R) + (m % R + 1) := by
        have := Nat.div_add_mod m R; omega
      rw [e1]
      exact (Nat.dvd_add_right (Dvd.intro _ rfl)).symm
    unfold Every.check
    simp only [hv, Bool.false_eq_true, if_false, r0, hd, hd2]
    by_cases h : R ∣ m + 1
    · have : (m + 1) % R = 0 := Nat.mod_eq_zero_of_dvd h
      simp [h, multiples_succ, this]
    · have hm : m % R + 1 < R := by
        have hle : m % R + 1 ≤ R := hlt
        rcases Nat.lt_or_ge (m % R + 1) R with h' | h'
        · exact h'
        · exact absurd (hd2.mp ⟨1, by omega⟩) h
      have h3 : ¬ ((m : ℤ) % (R : ℤ) + 1 = 2147483647) := by
        have : ((m % R : ℕ) : ℤ) = (m : ℤ) % (R : ℤ) := Int.natCast_mod m R
        omega
      have h4 : (m + 1) % R = m % R + 1 := by
        rw [Nat.add_mod, Nat.mod_eq_of_lt (show 1 < R by omega), Nat.mod_eq_of_lt hm]
      simp [h, multiples_succ, h3, h4]

/-- **C44**: `every(n)` with `1 <= n < 2^31` answers yes to exactly the calls whose ordinal is a multiple of `n`, for every number
of calls, without overflow or division by zero. -/
theorem C44_every (n : ℕ) (h1 : 1 ≤ n) (h2 : n < 2 ^ 31) (m : ℕ) :
    ∃ e, answers m (Every.make n) = .ok (multiples n m, e) := by
  have hn : (Every.make n).nRepeat.natAbs = n := by simp only [Every.make, toInt32, h2, if_true]; omega
  have := answers_gen (Every.make n) n h1 h2 rfl (by simp [Every.make]; omega) hn m
  exact ⟨_, this⟩

/-- **C44**: `every(0)` never fires. -/
theorem C44_never (m : ℕ) : answers m (Every.make 0) = .ok (List.replicate m false, Every.make 0) := by
  induction m with
  | zero => rfl
  | succ m ih =>
    simp only [answers, ih, Except.ok_bind]
    have : (Every.make 0).check = .ok (false, Every.make 0) := by simp [Every.check, Every.make]
    rw [this]
    simp [List.replicate_succ']

/-- Beyond the range of `int` the period is wrong: `every(r)` with `2^31 < r < 2^32` fires every `2^32 - r` calls. -/
theorem C44_wrapped (r : ℕ) (h1 : 2 ^ 31 < r) (h2 : r < 2 ^ 32) (m : ℕ) :
    ∃ e, answers m (Every.make r) = .ok (multiples (2 ^ 32 - r) m, e) := by
  have hn : (Every.make r).nRepeat.natAbs = 2 ^ 32 - r := by
    have : ¬ r < 2 ^ 31 := by omega
    simp only [Every.make, toInt32, this, if_false]; omega
  have := answers_gen (Every.make r) (2 ^ 32 - r) (by omega) (by omega) rfl (by simp [Every.make]; omega) hn m
  exact ⟨_, this⟩

/-- `every(2^31)` overflows its counter at the call number `2^31 - 1`. -/
theorem C44_overflow : ∃ e : Every, answers (2 ^ 31 - 2) (Every.make (2 ^ 31)) = .ok (List.replicate (2 ^ 31 - 2) false, e) ∧
    e.check = .error (.ub .overflow) := by
  have key : ∀ m : ℕ, m ≤ 2 ^ 31 - 2 →
      answers m (Every.make (2 ^ 31)) = .ok (List.replicate m false, ⟨-2 ^ 31, (m : ℤ) + 1, false⟩) := by
    intro m
    induction m with
    | zero => intro _; simp [answers, Every.make, toInt32]
    | succ m ih =>
      intro hm
      simp only [answers, ih (by omega), Except.ok_bind]
      have hd : ¬ (((m : ℤ) + 1).tmod (-2 ^ 31) = 0) := by
        rw [← Int.dvd_iff_tmod_eq_zero, ← Int.natAbs_dvd_natAbs]
        intro h
        have := Nat.le_of_dvd (by omega) h
        have e1 : ((-2 ^ 31 : ℤ)).natAbs = 2 ^ 31 := by norm_num
        have e2 : ((m : ℤ) + 1).natAbs = m + 1 := by omega
        rw [e1, e2] at this; omega
      have h3 : ¬ ((m : ℤ) + 1 = 2 ^ 31 - 1) := by omega
      have : (⟨-2 ^ 31, (m : ℤ) + 1, false⟩ : Every).check = .ok (false, ⟨-2 ^ 31, (m : ℤ) + 1 + 1, false⟩) := by
        simp only [Every.check, hd, h3]; simp
      rw [this]
      simp [List.replicate_succ']
  refine ⟨_, key _ le_rfl, ?_⟩
  have hd : ¬ ((((2 ^ 31 - 2 : ℕ) : ℤ) + 1).tmod (-2 ^ 31) = 0) := by
    rw [← Int.dvd_iff_tmod_eq_zero, ← Int.natAbs_dvd_natAbs]
    norm_num
  simp only [Every.check, hd]; norm_num

/-- Three calls of `every(2)`. -/
example : multiples 2 5 = [false, true, false, true, false] := by decide

end Qbox.Props
