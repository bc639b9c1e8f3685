import Mathlib.RingTheory.PowerSeries.Inverse
import Mathlib.RingTheory.PowerSeries.NoZeroDivisors
import Mathlib.Algebra.BigOperators.Ring.Finset
import Mathlib.Algebra.Order.BigOperators.Group.Finset
import Mathlib.Data.Real.Basic
import Mathlib.Tactic.LinearCombination

/-!
# Signals as power series, and summation by parts over the nodes of a grid
-/

namespace Qbox
open PowerSeries

/-- The sequence of the values at the successive instants. -/
noncomputable def ser (a : ℕ → ℝ) : PowerSeries ℝ := PowerSeries.mk a

theorem ser_add (a b : ℕ → ℝ) : ser (fun n => a n + b n) = ser a + ser b := by ext n; simp [ser]
theorem ser_sub (a b : ℕ → ℝ) : ser (fun n => a n - b n) = ser a - ser b := by ext n; simp [ser]
theorem ser_smul (k : ℝ) (a : ℕ → ℝ) : ser (fun n => k * a n) = C k * ser a := by ext n; simp [ser]
theorem ser_zero : ser (fun _ => 0) = 0 := by ext n; simp [ser]
theorem ser_congr {a b : ℕ → ℝ} (h : ∀ n, a n = b n) : ser a = ser b := by rw [funext h]
theorem ser_coeff (a : ℕ → ℝ) (n : ℕ) : coeff n (ser a) = a n := by simp [ser]

theorem ser_inj {a b : ℕ → ℝ} (h : ser a = ser b) (n : ℕ) : a n = b n := by
  rw [← ser_coeff a, h, ser_coeff]

/-- A sequence that begins with zero is the delayed sequence of its later values. -/
theorem ser_shift {a : ℕ → ℝ} (h : a 0 = 0) : ser a = X * ser (fun n => a (n + 1)) := by
  ext n
  cases n with
  | zero => simp [ser, h]
  | succ n => rw [coeff_succ_X_mul, ser_coeff, ser_coeff]

theorem ser_sum {ι : Type} (s : Finset ι) (a : ι → ℕ → ℝ) : ser (fun n => ∑ k ∈ s, a k n) = ∑ k ∈ s, ser (a k) := by
  classical
  induction s using Finset.induction_on with
  | empty => simp [ser_zero]
  | insert k s hk ih =>
    simp only [Finset.sum_insert hk]
    rw [ser_add, ih]

theorem series_ne {φ : PowerSeries ℝ} (h : constantCoeff φ ≠ 0) : φ ≠ 0 := by
  rintro rfl; exact h (by simp)

/-- Delay by one instant, solved for the memory. -/
theorem solve_one (b : ℝ) (m y : PowerSeries ℝ) (h : m = C b * (X * m) + y) : m = (1 - C b * X)⁻¹ * y := by
  have hc : constantCoeff (1 - C b * X : PowerSeries ℝ) ≠ 0 := by simp
  have h2 : (1 - C b * X) * m = y := by linear_combination h
  rw [← h2, ← mul_assoc, PowerSeries.inv_mul_cancel _ hc, one_mul]

section ring
variable {R : Type} [CommRing R]

/-- Summation by parts along a line of nodes whose two ends are held at zero. -/
theorem line_parts (e1 e2 h1 h2 : ℤ → R) (z1 : e1 0 = 0) (z2 : e2 0 = 0) : ∀ (M : ℕ)
    (_ : ∀ k : ℕ, k < M → h1 k * (e2 (k + 1) - e2 k) = h2 k * (e1 (k + 1) - e1 k)),
    ∑ k ∈ Finset.range M, (e2 (k + 1) * (h1 (k + 1) - h1 k) - e1 (k + 1) * (h2 (k + 1) - h2 k)) = e2 M * h1 M - e1 M * h2 M
  | 0, _ => by simp [z1, z2]
  | M + 1, h => by
    rw [Finset.sum_range_succ, line_parts e1 e2 h1 h2 z1 z2 M fun k hk => h k (by omega)]
    have := h M (by omega)
    push_cast
    linear_combination -this

theorem line_sum (e1 e2 h1 h2 : ℤ → R) (M : ℕ) (z1 : e1 0 = 0) (z2 : e2 0 = 0) (y1 : e1 (M + 1) = 0) (y2 : e2 (M + 1) = 0)
    (h : ∀ k : ℕ, k ≤ M → h1 k * (e2 (k + 1) - e2 k) = h2 k * (e1 (k + 1) - e1 k)) :
    ∑ k ∈ Finset.range M, (e2 (k + 1) * (h1 (k + 1) - h1 k) - e1 (k + 1) * (h2 (k + 1) - h2 k)) = 0 := by
  rw [line_parts e1 e2 h1 h2 z1 z2 M fun k hk => h k hk.le]
  have := h M le_rfl
  rw [y1, y2] at this
  linear_combination -this

/-- The discrete curl of stretched coordinates is symmetric with respect to the weights that undo the stretching. -/
theorem plane_sum (M L : ℕ) (e1 e2 hx1 hx2 hy1 hy2 : ℤ → ℤ → R) (ax ay ux uy : ℤ → R)
    (hu : ∀ k : ℕ, k < M → ux (k + 1) * ax (k + 1) = 1) (hv : ∀ l : ℕ, l < L → uy (l + 1) * ay (l + 1) = 1)
    (l1 : ∀ l : ℕ, l ≤ L + 1 → e1 0 l = 0) (l2 : ∀ l : ℕ, l ≤ L + 1 → e2 0 l = 0)
    (r1 : ∀ l : ℕ, l ≤ L + 1 → e1 (M + 1) l = 0) (r2 : ∀ l : ℕ, l ≤ L + 1 → e2 (M + 1) l = 0)
    (b1 : ∀ k : ℕ, k ≤ M + 1 → e1 k 0 = 0) (b2 : ∀ k : ℕ, k ≤ M + 1 → e2 k 0 = 0)
    (t1 : ∀ k : ℕ, k ≤ M + 1 → e1 k (L + 1) = 0) (t2 : ∀ k : ℕ, k ≤ M + 1 → e2 k (L + 1) = 0)
    (hy : ∀ k l : ℕ, k ≤ M → l < L → hy1 k (l + 1) * (e2 (k + 1) (l + 1) - e2 k (l + 1))
      = hy2 k (l + 1) * (e1 (k + 1) (l + 1) - e1 k (l + 1)))
    (hx : ∀ k l : ℕ, k < M → l ≤ L → hx1 (k + 1) l * (e2 (k + 1) (l + 1) - e2 (k + 1) l)
      = hx2 (k + 1) l * (e1 (k + 1) (l + 1) - e1 (k + 1) l)) :
    ∑ k ∈ Finset.range M, ∑ l ∈ Finset.range L, ux (k + 1) * uy (l + 1) *
      (e2 (k + 1) (l + 1) * (ax (k + 1) * (hy1 (k + 1) (l + 1) - hy1 k (l + 1)) - ay (l + 1) * (hx1 (k + 1) (l + 1) - hx1 (k + 1) l))
        - e1 (k + 1) (l + 1) * (ax (k + 1) * (hy2 (k + 1) (l + 1) - hy2 k (l + 1)) - ay (l + 1) * (hx2 (k + 1) (l + 1) - hx2 (k + 1) l)))
      = 0 := by
  have split : ∀ k ∈ Finset.range M, ∀ l ∈ Finset.range L, ux (k + 1) * uy (l + 1) *
      (e2 (k + 1) (l + 1) * (ax (k + 1) * (hy1 (k + 1) (l + 1) - hy1 k (l + 1)) - ay (l + 1) * (hx1 (k + 1) (l + 1) - hx1 (k + 1) l))
        - e1 (k + 1) (l + 1) * (ax (k + 1) * (hy2 (k + 1) (l + 1) - hy2 k (l + 1)) - ay (l + 1) * (hx2 (k + 1) (l + 1) - hx2 (k + 1) l)))
      = uy (l + 1) * (e2 (k + 1) (l + 1) * (hy1 (k + 1) (l + 1) - hy1 k (l + 1)) - e1 (k + 1) (l + 1) * (hy2 (k + 1) (l + 1) - hy2 k (l + 1)))
        - ux (k + 1) * (e2 (k + 1) (l + 1) * (hx1 (k + 1) (l + 1) - hx1 (k + 1) l) - e1 (k + 1) (l + 1) * (hx2 (k + 1) (l + 1) - hx2 (k + 1) l)) := by
    intro k hk l hl
    have h1 := hu k (Finset.mem_range.mp hk)
    have h2 := hv l (Finset.mem_range.mp hl)
    linear_combination (uy (l + 1) * (e2 (k + 1) (l + 1) * (hy1 (k + 1) (l + 1) - hy1 k (l + 1)) - e1 (k + 1) (l + 1) * (hy2 (k + 1) (l + 1) - hy2 k (l + 1)))) * h1
      - ux (k + 1) * (e2 (k + 1) (l + 1) * (hx1 (k + 1) (l + 1) - hx1 (k + 1) l) - e1 (k + 1) (l + 1) * (hx2 (k + 1) (l + 1) - hx2 (k + 1) l)) * h2
  rw [Finset.sum_congr rfl fun k hk => Finset.sum_congr rfl fun l hl => split k hk l hl]
  simp only [Finset.sum_sub_distrib]
  have p1 : ∑ k ∈ Finset.range M, ∑ l ∈ Finset.range L, uy (l + 1) * (e2 (k + 1) (l + 1) * (hy1 (k + 1) (l + 1) - hy1 k (l + 1))
      - e1 (k + 1) (l + 1) * (hy2 (k + 1) (l + 1) - hy2 k (l + 1))) = 0 := by
    rw [Finset.sum_comm]
    refine Finset.sum_eq_zero fun l hl => ?_
    have f : ∀ {u : ℤ → R}, (∀ l : ℕ, l ≤ L + 1 → u l = 0) → u (l + 1) = 0 := fun {u} h => by
      have hl := Finset.mem_range.mp hl
      have := h (l + 1) (by omega); push_cast at this; exact this
    rw [← Finset.mul_sum, line_sum (fun i => e1 i (l + 1)) (fun i => e2 i (l + 1)) (fun i => hy1 i (l + 1)) (fun i => hy2 i (l + 1)) M (f l1) (f l2) (f r1) (f r2)
      (fun k hk => hy k l hk (Finset.mem_range.mp hl)), mul_zero]
  have p2 : ∑ k ∈ Finset.range M, ∑ l ∈ Finset.range L, ux (k + 1) * (e2 (k + 1) (l + 1) * (hx1 (k + 1) (l + 1) - hx1 (k + 1) l)
      - e1 (k + 1) (l + 1) * (hx2 (k + 1) (l + 1) - hx2 (k + 1) l)) = 0 := by
    refine Finset.sum_eq_zero fun k hk => ?_
    have f : ∀ {u : ℤ → R}, (∀ k : ℕ, k ≤ M + 1 → u k = 0) → u (k + 1) = 0 := fun {u} h => by
      have hk := Finset.mem_range.mp hk
      have := h (k + 1) (by omega); push_cast at this; exact this
    rw [← Finset.mul_sum, line_sum (fun j => e1 (k + 1) j) (fun j => e2 (k + 1) j) (fun j => hx1 (k + 1) j) (fun j => hx2 (k + 1) j) L (f (u := fun i => e1 i 0) b1) (f (u := fun i => e2 i 0) b2)
      (f (u := fun i => e1 i (L + 1)) t1) (f (u := fun i => e2 i (L + 1)) t2)
      (fun l hl => hx k l (Finset.mem_range.mp hk) hl), mul_zero]
  rw [p1, p2, sub_zero]

end ring

end Qbox
