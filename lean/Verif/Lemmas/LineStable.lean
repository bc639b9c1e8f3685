import Mathlib.Algebra.BigOperators.Intervals
import Mathlib.Algebra.Order.BigOperators.Group.Finset
import Mathlib.Analysis.InnerProductSpace.Basic
import Mathlib.Analysis.SpecialFunctions.Pow.NNReal
import Mathlib.Tactic.LinearCombination
import Mathlib.Tactic.Linarith

/-!
# Stability of the line of the incident wave

The line without its drive: nodes `0 … j+1`, node 0 at rest, half a cell per step, and the open end, which repeats what its neighbour had two steps before.
The energy of the wave equation is not monotone at this end. A modified energy is: that of the wave and its average over two steps. It controls
the change over one step and the differences between neighbours.
-/

noncomputable section

namespace Qbox.LineStable
open Finset

/-- The second difference. -/
def lap (f : ℕ → ℝ) (k : ℕ) : ℝ := f (k + 2) - 2 * f (k + 1) + f k

theorem abel (f g : ℕ → ℝ) : ∀ j : ℕ, ∑ k ∈ range j, lap f k * g (k + 1) =
    - ∑ k ∈ range (j + 1), (f (k + 1) - f k) * (g (k + 1) - g k) + (f (j + 1) - f j) * g (j + 1) - (f 1 - f 0) * g 0
  | 0 => by simp; ring
  | j + 1 => by
    rw [sum_range_succ, abel f g j, sum_range_succ _ (j + 1)]
    unfold lap
    ring

/-- The modified energy, from the values at four successive times. -/
def weight (j : ℕ) (a b c d : ℕ → ℝ) : ℝ :=
  ∑ k ∈ range (j + 1), ((c (k + 1) - b (k + 1)) ^ 2 + (c (k + 1) - b (k + 1)) * ((d (k + 1) - c (k + 1)) + (b (k + 1) - a (k + 1))) -
      (d (k + 1) - c (k + 1)) * (b (k + 1) - a (k + 1))) +
    1 / 4 * ∑ k ∈ range (j + 1), ((d (k + 1) - d k) * (b (k + 1) - b k) + (c (k + 1) - c k) * (a (k + 1) - a k)) -
    1 / 8 * ((d (j + 1) - b (j + 1)) ^ 2 + (c (j + 1) - a (j + 1)) ^ 2)

/-- It does not grow. -/
theorem weight_le {j : ℕ} {a b c d e : ℕ → ℝ} (h : ∀ k < j, d (k + 1) + b (k + 1) - 2 * c (k + 1) = 1 / 4 * lap c k)
    (he : d (j + 1) + b (j + 1) - 2 * c (j + 1) = 1 / 4 * (a (j + 1) - 2 * c (j + 1) + c j)) (z : ∀ f ∈ [a, b, c, d, e], f 0 = 0) :
    weight j b c d e ≤ weight j a b c d := by
  have z1 : a 0 = 0 := z _ (by simp)
  have z5 : e 0 = 0 := z _ (by simp)
  have A := abel c (fun k => e k - a k) j
  have T : ∑ k ∈ range (j + 1), (d (k + 1) + b (k + 1) - 2 * c (k + 1)) * (e (k + 1) - a (k + 1)) =
      1 / 4 * (∑ k ∈ range j, lap c k * (e (k + 1) - a (k + 1))) + 1 / 4 * (a (j + 1) - 2 * c (j + 1) + c j) * (e (j + 1) - a (j + 1)) := by
    rw [sum_range_succ, he, mul_sum]
    congr 1
    refine sum_congr rfl fun k hk => ?_
    rw [h k (mem_range.mp hk)]
    ring
  rw [A] at T
  have T' : ∑ k ∈ range (j + 1), (d (k + 1) + b (k + 1) - 2 * c (k + 1)) * (e (k + 1) - a (k + 1)) =
      ∑ k ∈ range (j + 1), ((d (k + 1) - c (k + 1)) ^ 2 + (d (k + 1) - c (k + 1)) * ((e (k + 1) - d (k + 1)) + (c (k + 1) - b (k + 1))) -
        (e (k + 1) - d (k + 1)) * (c (k + 1) - b (k + 1))) -
      ∑ k ∈ range (j + 1), ((c (k + 1) - b (k + 1)) ^ 2 + (c (k + 1) - b (k + 1)) * ((d (k + 1) - c (k + 1)) + (b (k + 1) - a (k + 1))) -
        (d (k + 1) - c (k + 1)) * (b (k + 1) - a (k + 1))) := by
    rw [← sum_sub_distrib]
    exact sum_congr rfl fun k _ => by ring
  have X : ∑ k ∈ range (j + 1), (c (k + 1) - c k) * ((e (k + 1) - a (k + 1)) - (e k - a k)) =
      ∑ k ∈ range (j + 1), ((e (k + 1) - e k) * (c (k + 1) - c k) + (d (k + 1) - d k) * (b (k + 1) - b k)) -
      ∑ k ∈ range (j + 1), ((d (k + 1) - d k) * (b (k + 1) - b k) + (c (k + 1) - c k) * (a (k + 1) - a k)) := by
    rw [← sum_sub_distrib]
    exact sum_congr rfl fun k _ => by ring
  rw [X, T', z1, z5] at T
  unfold weight
  have sq := sq_nonneg (e (j + 1) - a (j + 1))
  have id : (c (j + 1) - c j) * (e (j + 1) - a (j + 1)) * (1 / 4) + 1 / 4 * (a (j + 1) - 2 * c (j + 1) + c j) * (e (j + 1) - a (j + 1)) -
      1 / 8 * ((e (j + 1) - c (j + 1)) ^ 2 - (c (j + 1) - a (j + 1)) ^ 2) = -(1 / 8) * (e (j + 1) - a (j + 1)) ^ 2 := by ring
  linarith

/-- The contribution of the end. -/
def endPart (d p q x : ℝ) : ℝ :=
  2 * d ^ 2 + 1 / 16 * x * (x / 4 - q - 2 * d) + 1 / 16 * (p * (x / 4 - q - 2 * d) + q * x) -
    1 / 8 * ((2 * d + 1 / 4 * (x / 4 - q - 2 * d)) ^ 2 + (2 * d - 1 / 4 * x) ^ 2)

/-- The modified energy, from two successive times and the value at the end one step before. -/
def form (j : ℕ) (v w : ℕ → ℝ) (γ : ℝ) : ℝ :=
  ∑ k ∈ range j, (2 * (w (k + 1) - v (k + 1)) ^ 2 - 1 / 16 * (lap v k * lap w k)) +
    ∑ k ∈ range (j + 1), (1 / 2 * ((v (k + 1) - v k) * (w (k + 1) - w k)) - 1 / 4 * ((w (k + 1) - v (k + 1)) - (w k - v k)) ^ 2) +
    endPart (w (j + 1) - v (j + 1)) (v (j + 1) - v j) (w (j + 1) - w j) (4 * (γ - 2 * v (j + 1) + w (j + 1)))

theorem abel' (v f : ℕ → ℝ) (j : ℕ) : ∑ k ∈ range (j + 1), (v (k + 1) - v k) * (f (k + 1) - f k) =
    - ∑ k ∈ range j, lap v k * f (k + 1) + (v (j + 1) - v j) * f (j + 1) - (v 1 - v 0) * f 0 := by
  rw [abel v f j]; ring

theorem weight_eq {j : ℕ} {a v w d : ℕ → ℝ} (h1 : ∀ k < j, w (k + 1) + a (k + 1) - 2 * v (k + 1) = 1 / 4 * lap v k)
    (h2 : ∀ k < j, d (k + 1) + v (k + 1) - 2 * w (k + 1) = 1 / 4 * lap w k)
    (he : d (j + 1) + v (j + 1) - 2 * w (j + 1) = 1 / 4 * (a (j + 1) - 2 * w (j + 1) + w j)) (z : ∀ f ∈ [a, v, w, d], f 0 = 0) :
    weight j a v w d = form j v w (a (j + 1)) := by
  have z1 : a 0 = 0 := z _ (by simp)
  have z2 : v 0 = 0 := z _ (by simp)
  have z3 : w 0 = 0 := z _ (by simp)
  have z4 : d 0 = 0 := z _ (by simp)
  set F : ℕ → ℝ := fun k => 4 * (a k + w k - 2 * v k) with hF
  set G : ℕ → ℝ := fun k => 4 * (d k + v k - 2 * w k) with hG
  have T : ∑ k ∈ range (j + 1), ((w (k + 1) - v (k + 1)) ^ 2 + (w (k + 1) - v (k + 1)) * ((d (k + 1) - w (k + 1)) + (v (k + 1) - a (k + 1))) -
      (d (k + 1) - w (k + 1)) * (v (k + 1) - a (k + 1))) =
      ∑ k ∈ range j, (2 * (w (k + 1) - v (k + 1)) ^ 2 + 1 / 16 * (lap v k * lap w k)) +
        (2 * (w (j + 1) - v (j + 1)) ^ 2 + 1 / 16 * (F (j + 1) * G (j + 1))) := by
    rw [sum_range_succ]
    congr 1
    · refine sum_congr rfl fun k hk => ?_
      have e1 : lap v k = F (k + 1) := by have := h1 k (mem_range.mp hk); simp only [hF]; linarith
      have e2 : lap w k = G (k + 1) := by have := h2 k (mem_range.mp hk); simp only [hG]; linarith
      rw [e1, e2]
      simp only [hF, hG]
      ring
    · simp only [hF, hG]
      ring
  have X : ∑ k ∈ range (j + 1), ((d (k + 1) - d k) * (v (k + 1) - v k) + (w (k + 1) - w k) * (a (k + 1) - a k)) =
      ∑ k ∈ range (j + 1), (2 * ((v (k + 1) - v k) * (w (k + 1) - w k)) - ((w (k + 1) - v (k + 1)) - (w k - v k)) ^ 2) +
      1 / 4 * ∑ k ∈ range (j + 1), (v (k + 1) - v k) * (G (k + 1) - G k) + 1 / 4 * ∑ k ∈ range (j + 1), (w (k + 1) - w k) * (F (k + 1) - F k) := by
    rw [mul_sum, mul_sum, ← sum_add_distrib, ← sum_add_distrib]
    refine sum_congr rfl fun k _ => ?_
    simp only [hF, hG]
    ring
  have A1 := abel' v G j
  have A2 := abel' w F j
  have e1 : ∑ k ∈ range j, lap v k * G (k + 1) = ∑ k ∈ range j, lap v k * lap w k := sum_congr rfl fun k hk => by
    have := h2 k (mem_range.mp hk); simp only [hG]; rw [show lap w k = 4 * (d (k + 1) + v (k + 1) - 2 * w (k + 1)) by linarith]
  have e2 : ∑ k ∈ range j, lap w k * F (k + 1) = ∑ k ∈ range j, lap v k * lap w k := sum_congr rfl fun k hk => by
    have := h1 k (mem_range.mp hk); simp only [hF]; rw [show lap v k = 4 * (a (k + 1) + w (k + 1) - 2 * v (k + 1)) by linarith]; ring
  have f0 : F 0 = 0 := by simp only [hF]; rw [z1, z2, z3]; ring
  have g0 : G 0 = 0 := by simp only [hG]; rw [z2, z3, z4]; ring
  rw [e1, g0] at A1
  rw [e2, f0] at A2
  have x : F (j + 1) = 4 * (a (j + 1) - 2 * v (j + 1) + w (j + 1)) := by simp only [hF]; ring
  have y : G (j + 1) = F (j + 1) / 4 - (w (j + 1) - w j) - 2 * (w (j + 1) - v (j + 1)) := by
    rw [x]; simp only [hG]; linarith
  have dd : d (j + 1) = (G (j + 1)) / 4 - v (j + 1) + 2 * w (j + 1) := by simp only [hG]; ring
  have aa : a (j + 1) = (F (j + 1)) / 4 + 2 * v (j + 1) - w (j + 1) := by simp only [hF]; ring
  unfold weight form endPart
  rw [T, X, A1, A2, ← x, ← y]
  have S1 : ∑ k ∈ range j, (2 * (w (k + 1) - v (k + 1)) ^ 2 + 1 / 16 * (lap v k * lap w k)) =
      ∑ k ∈ range j, (2 * (w (k + 1) - v (k + 1)) ^ 2 - 1 / 16 * (lap v k * lap w k)) + 1 / 8 * ∑ k ∈ range j, lap v k * lap w k := by
    rw [mul_sum, ← sum_add_distrib]
    exact sum_congr rfl fun k _ => by ring
  have S2 : ∑ k ∈ range (j + 1), (2 * ((v (k + 1) - v k) * (w (k + 1) - w k)) - ((w (k + 1) - v (k + 1)) - (w k - v k)) ^ 2) =
      4 * ∑ k ∈ range (j + 1), (1 / 2 * ((v (k + 1) - v k) * (w (k + 1) - w k)) - 1 / 4 * ((w (k + 1) - v (k + 1)) - (w k - v k)) ^ 2) := by
    rw [mul_sum]
    exact sum_congr rfl fun k _ => by ring
  rw [S1, S2, dd, aa]
  ring

/-- One step without the drive. -/
theorem form_le {j : ℕ} {v w d : ℕ → ℝ} {γ : ℝ} (h : ∀ k < j, d (k + 1) + v (k + 1) - 2 * w (k + 1) = 1 / 4 * lap w k)
    (he : d (j + 1) + v (j + 1) - 2 * w (j + 1) = 1 / 4 * (γ - 2 * w (j + 1) + w j)) (z1 : v 0 = 0) (z2 : w 0 = 0) (z3 : d 0 = 0) :
    form j w d (v (j + 1)) ≤ form j v w γ := by
  set a : ℕ → ℝ := fun k => if k = 0 then 0 else if k = j + 1 then γ else 2 * v k - w k + 1 / 4 * lap v (k - 1) with ha
  set e : ℕ → ℝ := fun k => if k = 0 then 0 else if k = j + 1 then 2 * d k - w k + 1 / 4 * (v k - 2 * d k + d j) else
    2 * d k - w k + 1 / 4 * lap d (k - 1) with hE
  have a0 : a 0 = 0 := by simp [ha]
  have e0 : e 0 = 0 := by simp [hE]
  have aJ : a (j + 1) = γ := by simp [ha]
  have eJ : e (j + 1) = 2 * d (j + 1) - w (j + 1) + 1 / 4 * (v (j + 1) - 2 * d (j + 1) + d j) := by simp [hE]
  have ak : ∀ k < j, a (k + 1) = 2 * v (k + 1) - w (k + 1) + 1 / 4 * lap v k := fun k hk => by simp [ha, hk.ne]
  have ek : ∀ k < j, e (k + 1) = 2 * d (k + 1) - w (k + 1) + 1 / 4 * lap d k := fun k hk => by simp [hE, hk.ne]
  have w1 := weight_eq (j := j) (a := a) (v := v) (w := w) (d := d) (fun k hk => by rw [ak k hk]; ring) h (by rw [aJ]; exact he) (by simp [a0, z1, z2, z3])
  have w2 := weight_eq (j := j) (a := v) (v := w) (w := d) (d := e) h (fun k hk => by rw [ek k hk]; ring) (by rw [eJ]; ring) (by simp [e0, z1, z2, z3])
  have w3 := weight_le (j := j) (a := a) (b := v) (c := w) (d := d) (e := e) h (by rw [aJ]; exact he) (by simp [a0, e0, z1, z2, z3])
  rw [w1, w2, aJ] at w3
  exact w3

theorem endPart_ge (d p q x dj : ℝ) (h : q - p = d - dj) : d ^ 2 - 5 / 16 * ((p + q) / 2) ^ 2 - 1 / 4 * dj ^ 2 ≤ endPart d p q x := by
  obtain ⟨μ, rfl, rfl⟩ : ∃ μ, p = μ - (d - dj) / 2 ∧ q = μ + (d - dj) / 2 := ⟨(p + q) / 2, by linarith, by linarith⟩
  unfold endPart
  nlinarith [sq_nonneg (x + 4 / 15 * (4 * (μ - (d - dj) / 2) + (μ + (d - dj) / 2) - 6 * d)), sq_nonneg d, sq_nonneg dj, sq_nonneg μ, sq_nonneg (d + dj),
    sq_nonneg (d - dj), sq_nonneg (d + μ), sq_nonneg (d - μ), sq_nonneg (dj + μ), sq_nonneg (dj - μ)]

/-- What the modified energy controls. -/
theorem form_ge {j : ℕ} {v w : ℕ → ℝ} (γ : ℝ) (z1 : v 0 = 0) (z2 : w 0 = 0) :
    1 / 4 * ∑ k ∈ range (j + 1), (w (k + 1) - v (k + 1)) ^ 2 + 1 / 16 * ∑ k ∈ range (j + 1), (((v (k + 1) + w (k + 1)) - (v k + w k)) / 2) ^ 2 ≤
      form j v w γ := by
  set d : ℕ → ℝ := fun k => w k - v k with hd
  set m : ℕ → ℝ := fun k => ((v (k + 1) + w (k + 1)) - (v k + w k)) / 2 with hm
  have P1 : ∑ k ∈ range j, (2 * d (k + 1) ^ 2 - 1 / 8 * (m k ^ 2 + m (k + 1) ^ 2)) ≤ ∑ k ∈ range j, (2 * (w (k + 1) - v (k + 1)) ^ 2 - 1 / 16 * (lap v k * lap w k)) := by
    refine sum_le_sum fun k _ => ?_
    have e : lap v k * lap w k = (m (k + 1) - m k) ^ 2 - 1 / 4 * (lap w k - lap v k) ^ 2 := by simp only [hm, lap]; ring
    rw [e]
    have s1 := sq_nonneg (lap w k - lap v k)
    have s2 := sq_nonneg (m (k + 1) + m k)
    simp only [hd]
    nlinarith
  have P2 : ∑ k ∈ range (j + 1), (1 / 2 * m k ^ 2 - 3 / 4 * (d k ^ 2 + d (k + 1) ^ 2)) ≤
      ∑ k ∈ range (j + 1), (1 / 2 * ((v (k + 1) - v k) * (w (k + 1) - w k)) - 1 / 4 * ((w (k + 1) - v (k + 1)) - (w k - v k)) ^ 2) := by
    refine sum_le_sum fun k _ => ?_
    have e : (v (k + 1) - v k) * (w (k + 1) - w k) = m k ^ 2 - 1 / 4 * (d (k + 1) - d k) ^ 2 := by simp only [hm, hd]; ring
    have e' : ((w (k + 1) - v (k + 1)) - (w k - v k)) = d (k + 1) - d k := by simp only [hd]
    rw [e, e']
    have s := sq_nonneg (d (k + 1) + d k)
    nlinarith
  have B := endPart_ge (w (j + 1) - v (j + 1)) (v (j + 1) - v j) (w (j + 1) - w j) (4 * (γ - 2 * v (j + 1) + w (j + 1))) (w j - v j) (by ring)
  have B' : d (j + 1) ^ 2 - 5 / 16 * m j ^ 2 - 1 / 4 * d j ^ 2 ≤
      endPart (w (j + 1) - v (j + 1)) (v (j + 1) - v j) (w (j + 1) - w j) (4 * (γ - 2 * v (j + 1) + w (j + 1))) := by
    refine le_trans (le_of_eq ?_) B
    simp only [hd, hm]
    ring
  have d0 : d 0 = 0 := by simp [hd, z1, z2]
  have Q1 : ∑ k ∈ range j, (2 * d (k + 1) ^ 2 - 1 / 8 * (m k ^ 2 + m (k + 1) ^ 2)) =
      2 * (∑ k ∈ range (j + 1), d (k + 1) ^ 2 - d (j + 1) ^ 2) - 1 / 8 * ((∑ k ∈ range (j + 1), m k ^ 2 - m j ^ 2) + (∑ k ∈ range (j + 1), m k ^ 2 - m 0 ^ 2)) := by
    rw [sum_range_succ, sum_range_succ, sum_sub_distrib, ← mul_sum, ← mul_sum, sum_add_distrib]
    have : ∑ k ∈ range j, m (k + 1) ^ 2 = ∑ k ∈ range j, m k ^ 2 + m j ^ 2 - m 0 ^ 2 := by
      rw [← sum_range_succ, sum_range_succ']; ring
    rw [this]
    ring
  have Q2 : ∑ k ∈ range (j + 1), (1 / 2 * m k ^ 2 - 3 / 4 * (d k ^ 2 + d (k + 1) ^ 2)) =
      1 / 2 * ∑ k ∈ range (j + 1), m k ^ 2 - 3 / 4 * ((∑ k ∈ range (j + 1), d (k + 1) ^ 2 - d (j + 1) ^ 2) + ∑ k ∈ range (j + 1), d (k + 1) ^ 2) := by
    rw [sum_sub_distrib, ← mul_sum, ← mul_sum, sum_add_distrib]
    have : ∑ k ∈ range (j + 1), d k ^ 2 = ∑ k ∈ range (j + 1), d (k + 1) ^ 2 - d (j + 1) ^ 2 := by
      rw [sum_range_succ', sum_range_succ, d0]; ring
    rw [this]
  have L : d (j + 1) ^ 2 + d j ^ 2 ≤ ∑ k ∈ range (j + 1), d (k + 1) ^ 2 := by
    rw [sum_range_succ]
    cases j with
    | zero => simp [d0]
    | succ i =>
      have := single_le_sum (f := fun k => d (k + 1) ^ 2) (fun k _ => sq_nonneg _) (mem_range.mpr (Nat.lt_succ_self i))
      linarith
  have K : m j ^ 2 ≤ ∑ k ∈ range (j + 1), m k ^ 2 := single_le_sum (f := fun k => m k ^ 2) (fun k _ => sq_nonneg _) (mem_range.mpr (Nat.lt_succ_self j))
  have m0 := sq_nonneg (m 0)
  rw [Q1] at P1
  rw [Q2] at P2
  unfold form
  show 1 / 4 * ∑ k ∈ range (j + 1), d (k + 1) ^ 2 + 1 / 16 * ∑ k ∈ range (j + 1), m k ^ 2 ≤ _
  linarith

/-- What a kick adds. -/
theorem form_kick {j : ℕ} {r : ℕ → ℝ} (z : r 0 = 0) : form j (fun _ => 0) r 0 ≤ 2 * ∑ k ∈ range (j + 1), r (k + 1) ^ 2 := by
  unfold form endPart lap
  have e : ∑ k ∈ range (j + 1), (1 / 2 * (((0 : ℝ) - 0) * (r (k + 1) - r k)) - 1 / 4 * ((r (k + 1) - 0) - (r k - 0)) ^ 2) ≤ 0 :=
    sum_nonpos fun k _ => by have := sq_nonneg ((r (k + 1) - 0) - (r k - 0)); linarith
  have e2 : ∑ k ∈ range j, (2 * (r (k + 1) - 0) ^ 2 - 1 / 16 * (((0 : ℝ) - 2 * 0 + 0) * (r (k + 2) - 2 * r (k + 1) + r k))) = 2 * ∑ k ∈ range j, r (k + 1) ^ 2 := by
    rw [mul_sum]; exact sum_congr rfl fun k _ => by ring
  beta_reduce
  rw [e2]
  have e3 : ∑ k ∈ range (j + 1), r (k + 1) ^ 2 = ∑ k ∈ range j, r (k + 1) ^ 2 + r (j + 1) ^ 2 := sum_range_succ ..
  have s1 := sq_nonneg (2 * (r (j + 1) - 0) + 1 / 4 * (4 * (0 - 2 * 0 + r (j + 1)) / 4 - (r (j + 1) - r j) - 2 * (r (j + 1) - 0)))
  have s2 := sq_nonneg (2 * (r (j + 1) - 0) - 1 / 4 * (4 * (0 - 2 * 0 + r (j + 1))))
  have s3 := sq_nonneg (r (j + 1))
  nlinarith

theorem form_mix (j : ℕ) (v w v' w' : ℕ → ℝ) (γ γ' t : ℝ) : form j (fun k => v k + t * v' k) (fun k => w k + t * w' k) (γ + t * γ') =
    (1 - t) * form j v w γ + t * form j (fun k => v k + v' k) (fun k => w k + w' k) (γ + γ') + (t ^ 2 - t) * form j v' w' γ' := by
  unfold form endPart lap
  simp only [mul_add, mul_sum]
  have c : ∀ a1 a2 a3 b1 b2 b3 e1 e2 e3 a b e : ℝ, a = a1 + a2 + a3 → b = b1 + b2 + b3 → e = e1 + e2 + e3 →
      a + b + e = a1 + b1 + e1 + (a2 + b2 + e2) + (a3 + b3 + e3) := fun _ _ _ _ _ _ _ _ _ _ _ _ h1 h2 h3 => by rw [h1, h2, h3]; ring
  refine c _ _ _ _ _ _ _ _ _ _ _ _ ?_ ?_ ?_
  · rw [← sum_add_distrib, ← sum_add_distrib]
    exact sum_congr rfl fun k _ => by ring
  · rw [← sum_add_distrib, ← sum_add_distrib]
    exact sum_congr rfl fun k _ => by ring
  · ring

theorem form_nonneg {j : ℕ} {v w : ℕ → ℝ} (γ : ℝ) (z1 : v 0 = 0) (z2 : w 0 = 0) : 0 ≤ form j v w γ :=
  le_trans (add_nonneg (mul_nonneg (by norm_num) (sum_nonneg fun _ _ => sq_nonneg _)) (mul_nonneg (by norm_num) (sum_nonneg fun _ _ => sq_nonneg _))) (form_ge γ z1 z2)

/-- A quadratic form that is nowhere negative obeys the triangle inequality. -/
theorem form_add {j : ℕ} {v w v' w' : ℕ → ℝ} (γ γ' : ℝ) (z1 : v 0 = 0) (z2 : w 0 = 0) (z3 : v' 0 = 0) (z4 : w' 0 = 0) :
    Real.sqrt (form j (fun k => v k + v' k) (fun k => w k + w' k) (γ + γ')) ≤ Real.sqrt (form j v w γ) + Real.sqrt (form j v' w' γ') := by
  set A := form j v w γ
  set C := form j v' w' γ'
  set S := form j (fun k => v k + v' k) (fun k => w k + w' k) (γ + γ') with hS
  have A0 : 0 ≤ A := form_nonneg γ z1 z2
  have C0 : 0 ≤ C := form_nonneg γ' z3 z4
  have all : ∀ t : ℝ, 0 ≤ C * (t * t) + (S - A - C) * t + A := by
    intro t
    have := form_nonneg (j := j) (v := fun k => v k + t * v' k) (w := fun k => w k + t * w' k) (γ + t * γ') (by simp [z1, z3]) (by simp [z2, z4])
    rw [form_mix] at this
    refine this.trans (le_of_eq ?_)
    ring
  have disc := discrim_le_zero all
  unfold discrim at disc
  have key : S - A - C ≤ 2 * (Real.sqrt A * Real.sqrt C) := by
    refine abs_le_of_sq_le_sq' ?_ (by positivity) |>.2
    rw [mul_pow, mul_pow, Real.sq_sqrt A0, Real.sq_sqrt C0]
    linarith
  rw [Real.sqrt_le_left (by positivity), add_sq, Real.sq_sqrt A0, Real.sq_sqrt C0]
  linarith

/-- **Stability.** A line at rest that is kicked by at most `R` at every node and every step. -/
theorem bounded {j : ℕ} {u r : ℕ → ℕ → ℝ} {R : ℝ} (rest : ∀ n < 3, ∀ k ≤ j + 1, u n k = 0) (fixed : ∀ n, u n 0 = 0)
    (inner : ∀ n, ∀ k < j, u (n + 2) (k + 1) + u n (k + 1) - 2 * u (n + 1) (k + 1) = 1 / 4 * lap (u (n + 1)) k + r (n + 2) (k + 1))
    (last : ∀ n, u (n + 3) (j + 1) + u (n + 1) (j + 1) - 2 * u (n + 2) (j + 1) = 1 / 4 * (u n (j + 1) - 2 * u (n + 2) (j + 1) + u (n + 2) j) + r (n + 3) (j + 1))
    (small : ∀ n k, k ≤ j → |r n (k + 1)| ≤ R) : ∀ n, Real.sqrt (form j (u (n + 1)) (u (n + 2)) (u n (j + 1))) ≤ n * (Real.sqrt (2 * (j + 1)) * R)
  | 0 => by
    have e : form j (u 1) (u 2) (u 0 (j + 1)) = 0 := by
      unfold form endPart lap
      rw [rest 0 (by omega) _ le_rfl, rest 1 (by omega) _ le_rfl, rest 2 (by omega) _ le_rfl, rest 1 (by omega) j (by omega), rest 2 (by omega) j (by omega),
        sum_eq_zero, sum_eq_zero]
      · norm_num
      · intro k hk
        have := mem_range.mp hk
        rw [rest 1 (by omega) (k + 1) (by omega), rest 2 (by omega) (k + 1) (by omega), rest 1 (by omega) k (by omega), rest 2 (by omega) k (by omega)]
        norm_num
      · intro k hk
        have := mem_range.mp hk
        rw [rest 1 (by omega) (k + 1) (by omega), rest 2 (by omega) (k + 1) (by omega), rest 1 (by omega) k (by omega), rest 2 (by omega) k (by omega),
          rest 1 (by omega) (k + 2) (by omega), rest 2 (by omega) (k + 2) (by omega)]
        norm_num
    simp [e]
  | n + 1 => by
    have R0 : 0 ≤ R := (abs_nonneg _).trans (small 0 0 (Nat.zero_le _))
    have ih := bounded rest fixed inner last small n
    set q : ℕ → ℝ := fun k => if k = 0 then 0 else r (n + 3) k with hq
    set d : ℕ → ℝ := fun k => u (n + 3) k - q k with hd
    have q0 : q 0 = 0 := by simp [hq]
    have qk : ∀ k, q (k + 1) = r (n + 3) (k + 1) := fun k => by simp [hq]
    have s1 := form_le (j := j) (v := u (n + 1)) (w := u (n + 2)) (d := d) (γ := u n (j + 1))
      (fun k hk => by have := inner (n + 1) k hk; simp only [hd]; rw [qk]; linarith)
      (by have := last n; simp only [hd]; rw [qk]; linarith) (fixed _) (fixed _) (by simp [hd, q0, fixed])
    have s2 := form_add (j := j) (v := u (n + 2)) (w := d) (v' := fun _ => 0) (w' := q) (u (n + 1) (j + 1)) 0 (fixed _) (by simp [hd, q0, fixed]) rfl q0
    have e : form j (fun k => u (n + 2) k + 0) (fun k => d k + q k) (u (n + 1) (j + 1) + 0) = form j (u (n + 2)) (u (n + 3)) (u (n + 1) (j + 1)) := by
      congr 1
      · funext k; ring
      · funext k; simp only [hd]; ring
      · ring
    rw [e] at s2
    have s3 : Real.sqrt (form j (fun _ => 0) q 0) ≤ Real.sqrt (2 * (j + 1)) * R := by
      refine (Real.sqrt_le_sqrt (form_kick q0)).trans ?_
      rw [Real.sqrt_le_left (by positivity), mul_pow, Real.sq_sqrt (by positivity)]
      have : ∑ k ∈ range (j + 1), q (k + 1) ^ 2 ≤ ∑ k ∈ range (j + 1), R ^ 2 := sum_le_sum fun k hk => by
        rw [qk]
        exact sq_le_sq' (abs_le.mp (small _ k (by have := mem_range.mp hk; omega))).1 (abs_le.mp (small _ k (by have := mem_range.mp hk; omega))).2
      rw [sum_const, card_range, nsmul_eq_mul] at this
      push_cast at this
      linarith
    have s4 := Real.sqrt_le_sqrt s1
    push_cast
    linarith

/-- Every value, from the modified energy. -/
theorem value_le {j : ℕ} {v w : ℕ → ℝ} {γ F : ℝ} (z1 : v 0 = 0) (z2 : w 0 = 0) (h : Real.sqrt (form j v w γ) ≤ F) {k : ℕ} (hk : k ≤ j + 1) :
    |w k| ≤ 5 * (Real.sqrt (j + 1) * F) := by
  have f0 := form_nonneg (j := j) γ z1 z2
  have F0 : 0 ≤ F := (Real.sqrt_nonneg _).trans h
  have fF : form j v w γ ≤ F ^ 2 := (Real.sqrt_le_left F0).mp h
  have G := form_ge (j := j) γ z1 z2
  set m : ℕ → ℝ := fun k => ((v (k + 1) + w (k + 1)) - (v k + w k)) / 2 with hm
  have S1 : 0 ≤ ∑ k ∈ range (j + 1), (w (k + 1) - v (k + 1)) ^ 2 := sum_nonneg fun _ _ => sq_nonneg _
  have S2 : 0 ≤ ∑ k ∈ range (j + 1), m k ^ 2 := sum_nonneg fun _ _ => sq_nonneg _
  have one : 1 ≤ Real.sqrt ((j : ℝ) + 1) := by
    rw [Real.one_le_sqrt]; have := Nat.cast_nonneg (α := ℝ) j; linarith
  have tel : ∀ k, (v k + w k) / 2 = ∑ i ∈ range k, m i := by
    intro k
    induction k with
    | zero => simp [z1, z2]
    | succ k ih => rw [sum_range_succ, ← ih]; simp only [hm]; ring
  have mean : |(v k + w k) / 2| ≤ Real.sqrt (j + 1) * (4 * F) := by
    rw [tel k]
    have c : (∑ i ∈ range k, |m i|) ^ 2 ≤ (Real.sqrt (j + 1) * (4 * F)) ^ 2 := by
      have c1 := sum_mul_sq_le_sq_mul_sq (range (j + 1)) (fun _ => (1 : ℝ)) (fun i => |m i|)
      have c2 : ∑ i ∈ range k, |m i| ≤ ∑ i ∈ range (j + 1), |m i| := sum_le_sum_of_subset_of_nonneg (range_mono hk) fun _ _ _ => abs_nonneg _
      have c3 : (∑ i ∈ range k, |m i|) ^ 2 ≤ (∑ i ∈ range (j + 1), |m i|) ^ 2 := pow_le_pow_left₀ (sum_nonneg fun _ _ => abs_nonneg _) c2 2
      simp only [one_mul, one_pow, sum_const, card_range, nsmul_eq_mul, mul_one, sq_abs] at c1
      rw [mul_pow, Real.sq_sqrt (by positivity)]
      push_cast at c1
      have : ∑ i ∈ range (j + 1), m i ^ 2 ≤ (4 * F) ^ 2 := by
        have : 1 / 16 * ∑ i ∈ range (j + 1), m i ^ 2 ≤ F ^ 2 := by linarith
        linarith
      have := mul_le_mul_of_nonneg_left this (show (0 : ℝ) ≤ (j : ℝ) + 1 by positivity)
      linarith
    exact (abs_sum_le_sum_abs _ _).trans (abs_le_of_sq_le_sq' c (by positivity)).2
  have diff : |w k - v k| ≤ 2 * F := by
    rcases Nat.eq_zero_or_pos k with rfl | hp
    · rw [z1, z2]; simp; linarith
    · obtain ⟨i, rfl⟩ := Nat.exists_eq_succ_of_ne_zero hp.ne'
      have := single_le_sum (f := fun k => (w (k + 1) - v (k + 1)) ^ 2) (fun k _ => sq_nonneg _) (mem_range.mpr (show i < j + 1 by omega))
      have this : (w (i + 1) - v (i + 1)) ^ 2 ≤ ∑ k ∈ range (j + 1), (w (k + 1) - v (k + 1)) ^ 2 := this
      have : (w (i + 1) - v (i + 1)) ^ 2 ≤ (2 * F) ^ 2 := by linarith
      exact abs_le_of_sq_le_sq this (by positivity)
  have e : w k = (v k + w k) / 2 + (w k - v k) / 2 := by ring
  rw [e]
  refine (abs_add_le _ _).trans ?_
  rw [abs_div (w k - v k), abs_two]
  have := mul_le_mul_of_nonneg_right one F0
  linarith

/-- **Stability**, for every value. -/
theorem bounded_value {j : ℕ} {u r : ℕ → ℕ → ℝ} {R : ℝ} (rest : ∀ n < 3, ∀ k ≤ j + 1, u n k = 0) (fixed : ∀ n, u n 0 = 0)
    (inner : ∀ n, ∀ k < j, u (n + 2) (k + 1) + u n (k + 1) - 2 * u (n + 1) (k + 1) = 1 / 4 * lap (u (n + 1)) k + r (n + 2) (k + 1))
    (last : ∀ n, u (n + 3) (j + 1) + u (n + 1) (j + 1) - 2 * u (n + 2) (j + 1) = 1 / 4 * (u n (j + 1) - 2 * u (n + 2) (j + 1) + u (n + 2) j) + r (n + 3) (j + 1))
    (small : ∀ n k, k ≤ j → |r n (k + 1)| ≤ R) (n k : ℕ) (hk : k ≤ j + 1) : |u (n + 2) k| ≤ 8 * n * ((j + 1) * R) := by
  have R0 : 0 ≤ R := (abs_nonneg _).trans (small 0 0 (Nat.zero_le _))
  refine (value_le (fixed _) (fixed _) (bounded rest fixed inner last small n) hk).trans ?_
  have e : Real.sqrt (2 * ((j : ℝ) + 1)) ≤ 3 / 2 * Real.sqrt (j + 1) := by
    rw [Real.sqrt_mul (by norm_num)]
    refine mul_le_mul_of_nonneg_right ?_ (Real.sqrt_nonneg _)
    rw [Real.sqrt_le_left (by norm_num)]; norm_num
  have q : Real.sqrt ((j : ℝ) + 1) * Real.sqrt (j + 1) = j + 1 := Real.mul_self_sqrt (by positivity)
  have n0 := Nat.cast_nonneg (α := ℝ) n
  have k1 : Real.sqrt ((j : ℝ) + 1) * (n * (Real.sqrt (2 * (j + 1)) * R)) ≤ Real.sqrt (j + 1) * (n * (3 / 2 * Real.sqrt (j + 1) * R)) := by
    gcongr
  have k2 : Real.sqrt ((j : ℝ) + 1) * (n * (3 / 2 * Real.sqrt (j + 1) * R)) = 3 / 2 * n * ((j + 1) * R) := by
    calc _ = 3 / 2 * n * (Real.sqrt ((j : ℝ) + 1) * Real.sqrt (j + 1) * R) := by ring
      _ = _ := by rw [q]
  have : 0 ≤ (n : ℝ) * (((j : ℝ) + 1) * R) := by positivity
  linarith

end Qbox.LineStable
