import Verif.Props.DivergeProps

/-! # A standing wave in a Debye medium of eight poles -/

namespace Qbox.Props
open Qbox Scalar Spec

/-- One step of the wave amplitudes: electric field, curl of the magnetic field and the currents. -/
noncomputable def debyeMode (v : ℝ × ℝ × (ℕ → ℝ)) : ℝ × ℝ × (ℕ → ℝ) :=
  let e := v.1 + (v.2.1 - 999 / 1000 * ∑ M ∈ Finset.range 8, v.2.2 M) / 3
  (e, v.2.1 - e, fun N => 499 / 500 * v.2.2 N + (v.2.1 - 999 / 1000 * ∑ M ∈ Finset.range (N + 1), v.2.2 M) / 12)

noncomputable def debyeQuad (e h x0 x1 x2 x3 x4 x5 x6 x7 : ℝ) : ℝ :=
(-357315) * e ^ 2 + (10726) * e * h + (400) * e * x0 + (5866) * e * x1 + (12502) * e * x2 + (13818) * e * x3 + (6290) * e * x4 + (35088) * e * x5 +
    (391962) * e * x6 + (2439626) * e * x7 + (9) * h ^ 2 + (-354) * h * x0 + (-466) * h * x1 + (-150) * h * x2 + (864) * h * x3 + (2186) * h * x4 +
    (1604) * h * x5 + (-7046) * h * x6 + (-39418) * h * x7 + (148) * x0 ^ 2 + (436) * x0 * x1 + (66) * x0 * x2 + (-1094) * x0 * x3 + (-2898) * x0 * x4
    + (-4092) * x0 * x5 + (-2034) * x0 * x6 + (6202) * x0 * x7 + (485) * x1 ^ 2 + (1266) * x1 * x2 + (220) * x1 * x3 + (-3010) * x1 * x4 + (-7982) * x1
    * x5 + (-11236) * x1 * x6 + (-5776) * x1 * x7 + (1427) * x2 ^ 2 + (3566) * x2 * x3 + (664) * x2 * x4 + (-8090) * x2 * x5 + (-21182) * x2 * x6 +
    (-28976) * x2 * x7 + (3991) * x3 ^ 2 + (9690) * x3 * x4 + (1736) * x3 * x5 + (-20988) * x3 * x6 + (-51676) * x3 * x7 + (10510) * x4 ^ 2 + (23470) *
    x4 * x5 + (-1324) * x4 * x6 + (-63234) * x4 * x7 + (20911) * x5 ^ 2 + (6250) * x5 * x6 + (-188726) * x5 * x7 + (-97514) * x6 ^ 2 + (-1356964) * x6
    * x7 + (-4119183) * x7 ^ 2

noncomputable def debyeForm (v : ℝ × ℝ × (ℕ → ℝ)) : ℝ :=
  debyeQuad v.1 v.2.1 (v.2.2 0) (v.2.2 1) (v.2.2 2) (v.2.2 3) (v.2.2 4) (v.2.2 5) (v.2.2 6) (v.2.2 7)

theorem debyeForm_grows (v : ℝ × ℝ × (ℕ → ℝ)) : 103 / 100 * debyeForm v ≤ debyeForm (debyeMode v) := by
  obtain ⟨e, h, J⟩ := v
  unfold debyeForm debyeMode
  simp only [Finset.sum_range_succ, Finset.sum_range_zero, zero_add]
  obtain ⟨x0, h0⟩ : ∃ x, x = J 0 := ⟨_, rfl⟩
  obtain ⟨x1, h1⟩ : ∃ x, x = J 1 := ⟨_, rfl⟩
  obtain ⟨x2, h2⟩ : ∃ x, x = J 2 := ⟨_, rfl⟩
  obtain ⟨x3, h3⟩ : ∃ x, x = J 3 := ⟨_, rfl⟩
  obtain ⟨x4, h4⟩ : ∃ x, x = J 4 := ⟨_, rfl⟩
  obtain ⟨x5, h5⟩ : ∃ x, x = J 5 := ⟨_, rfl⟩
  obtain ⟨x6, h6⟩ : ∃ x, x = J 6 := ⟨_, rfl⟩
  obtain ⟨x7, h7⟩ : ∃ x, x = J 7 := ⟨_, rfl⟩
  simp only [← h0, ← h1, ← h2, ← h3, ← h4, ← h5, ← h6, ← h7]
  unfold debyeQuad
  rw [← sub_nonneg]
  refine le_of_le_of_eq (b := 17 / 300 * (e - h) ^ 2 + 233 / 400 * (e + x0) ^ 2 + 1599 / 4000 * (e + x1) ^ 2 + 437 / 4000 * (e + x2) ^ 2 + 1173 / 4000 * (e - x3) ^ 2 + 313 / 1000 *
    (e - x4) ^ 2 + 83 / 500 * (e + x5) ^ 2 + 607 / 2000 * (e + x6) ^ 2 + 31 / 2000 * (e + x7) ^ 2 + 2003 / 16000 * (h + x0) ^ 2 + 413 / 8000 * (h + x1)
    ^ 2 + 8777 / 24000 * (h - x2) ^ 2 + 8353 / 24000 * (h - x3) ^ 2 + 143 / 600 * (h - x4) ^ 2 + 1049 / 9600 * (h + x5) ^ 2 + 7 / 128 * (h - x6) ^ 2 +
    1549 / 8000 * (h - x7) ^ 2 + 2907129 / 8000000 * (x0 - x1) ^ 2 + 209529 / 8000000 * (x0 + x2) ^ 2 + 181563 / 8000000 * (x0 + x3) ^ 2 + 287991 /
    4000000 * (x0 - x4) ^ 2 + 4923009 / 16000000 * (x0 - x5) ^ 2 + 2452563 / 16000000 * (x0 - x6) ^ 2 + 546771 / 8000000 * (x0 - x7) ^ 2 + 788067 /
    16000000 * (x1 + x2) ^ 2 + 327 / 200000 * (x1 - x3) ^ 2 + 11697 / 3200000 * (x1 - x4) ^ 2 + 1013799 / 3200000 * (x1 - x5) ^ 2 + 2455203 / 16000000
    * (x1 - x6) ^ 2 + 191283 / 3200000 * (x1 - x7) ^ 2 + 1615209 / 4000000 * (x2 + x3) ^ 2 + 1304457 / 3200000 * (x2 + x4) ^ 2 + 233871 / 8000000 * (x2
    + x5) ^ 2 + 1530903 / 16000000 * (x2 + x6) ^ 2 + 3018513 / 16000000 * (x2 + x7) ^ 2 + 5637429 / 16000000 * (x3 + x4) ^ 2 + 38667 / 1600000 * (x3 -
    x5) ^ 2 + 460287 / 8000000 * (x3 + x6) ^ 2 + 2941377 / 16000000 * (x3 + x7) ^ 2 + 226617 / 1600000 * (x4 - x5) ^ 2 + 122583 / 8000000 * (x4 + x6) ^
    2 + 2681667 / 16000000 * (x4 + x7) ^ 2 + 1182783 / 3200000 * (x5 - x6) ^ 2 + 648123 / 4000000 * (x5 - x7) ^ 2 + 84387 / 3200000 * (x6 + x7) ^ 2 +
    2527 / 12000 * e ^ 2 + 237907 / 144000 * h ^ 2 + 13688099 / 16000000 * x0 ^ 2 + 10058251 / 8000000 * x1 ^ 2 + 8443583 / 4800000 * x2 ^ 2 + 84987547
    / 48000000 * x3 ^ 2 + 37128193 / 24000000 * x4 ^ 2 + 44367479 / 48000000 * x5 ^ 2 + 325969 / 200000 * x6 ^ 2 + 8296949 / 4000000 * x7 ^ 2) ?_ ?_
  · positivity
  · ring

theorem debyeForm_le (v : ℝ × ℝ × (ℕ → ℝ)) : debyeForm v ≤ 7000000 * (v.1 ^ 2 + v.2.1 ^ 2 + v.2.2 0 ^ 2 + v.2.2 1 ^ 2 + v.2.2 2 ^ 2 + v.2.2 3 ^ 2 + v.2.2 4 ^ 2
    + v.2.2 5 ^ 2 + v.2.2 6 ^ 2 + v.2.2 7 ^ 2) := by
  obtain ⟨e, h, J⟩ := v
  unfold debyeForm
  simp only
  obtain ⟨x0, h0⟩ : ∃ x, x = J 0 := ⟨_, rfl⟩
  obtain ⟨x1, h1⟩ : ∃ x, x = J 1 := ⟨_, rfl⟩
  obtain ⟨x2, h2⟩ : ∃ x, x = J 2 := ⟨_, rfl⟩
  obtain ⟨x3, h3⟩ : ∃ x, x = J 3 := ⟨_, rfl⟩
  obtain ⟨x4, h4⟩ : ∃ x, x = J 4 := ⟨_, rfl⟩
  obtain ⟨x5, h5⟩ : ∃ x, x = J 5 := ⟨_, rfl⟩
  obtain ⟨x6, h6⟩ : ∃ x, x = J 6 := ⟨_, rfl⟩
  obtain ⟨x7, h7⟩ : ∃ x, x = J 7 := ⟨_, rfl⟩
  simp only [← h0, ← h1, ← h2, ← h3, ← h4, ← h5, ← h6, ← h7]
  unfold debyeQuad
  rw [← sub_nonneg]
  refine le_of_le_of_eq (b := 5363 * (e - h) ^ 2 + 200 * (e - x0) ^ 2 + 2933 * (e - x1) ^ 2 + 6251 * (e - x2) ^ 2 + 6909 * (e - x3) ^ 2 + 3145 * (e - x4) ^ 2 + 17544 * (e - x5) ^ 2
    + 195981 * (e - x6) ^ 2 + 1219813 * (e - x7) ^ 2 + 177 * (h + x0) ^ 2 + 233 * (h + x1) ^ 2 + 75 * (h + x2) ^ 2 + 432 * (h - x3) ^ 2 + 1093 * (h -
    x4) ^ 2 + 802 * (h - x5) ^ 2 + 3523 * (h + x6) ^ 2 + 19709 * (h + x7) ^ 2 + 218 * (x0 - x1) ^ 2 + 33 * (x0 - x2) ^ 2 + 547 * (x0 + x3) ^ 2 + 1449 *
    (x0 + x4) ^ 2 + 2046 * (x0 + x5) ^ 2 + 1017 * (x0 + x6) ^ 2 + 3101 * (x0 - x7) ^ 2 + 633 * (x1 - x2) ^ 2 + 110 * (x1 - x3) ^ 2 + 1505 * (x1 + x4) ^
    2 + 3991 * (x1 + x5) ^ 2 + 5618 * (x1 + x6) ^ 2 + 2888 * (x1 + x7) ^ 2 + 1783 * (x2 - x3) ^ 2 + 332 * (x2 - x4) ^ 2 + 4045 * (x2 + x5) ^ 2 + 10591
    * (x2 + x6) ^ 2 + 14488 * (x2 + x7) ^ 2 + 4845 * (x3 - x4) ^ 2 + 868 * (x3 - x5) ^ 2 + 10494 * (x3 + x6) ^ 2 + 25838 * (x3 + x7) ^ 2 + 11735 * (x4
    - x5) ^ 2 + 662 * (x4 + x6) ^ 2 + 31617 * (x4 + x7) ^ 2 + 3125 * (x5 - x6) ^ 2 + 94363 * (x5 + x7) ^ 2 + 678482 * (x6 + x7) ^ 2 + 5899176 * e ^ 2 +
    6968584 * h ^ 2 + 6991064 * x0 ^ 2 + 6981386 * x1 ^ 2 + 6960342 * x2 ^ 2 + 6944183 * x3 ^ 2 + 6933107 * x4 ^ 2 + 6840570 * x5 ^ 2 + 6188021 * x6 ^
    2 + 9028884 * x7 ^ 2) ?_ ?_
  · positivity
  · ring

theorem debye_iterates (n : ℕ) : 9 * (103 / 100 : ℝ) ^ n ≤ debyeForm (debyeMode^[n] (0, 1, fun _ => 0)) := by
  induction n with
  | zero => simp [debyeForm, debyeQuad]
  | succ n ih =>
    rw [Function.iterate_succ_apply', pow_succ]
    have := debyeForm_grows (debyeMode^[n] (0, 1, fun _ => 0))
    linarith

/-- The fields of the wave are not bounded. -/
theorem debye_unbounded (B : ℝ) : ∃ n, B < (debyeMode^[n] (0, 1, fun _ => 0)).1 ^ 2 + (debyeMode^[n] (0, 1, fun _ => 0)).2.1 ^ 2 := by
  by_contra hcon
  push Not at hcon
  have hB : 0 ≤ B := le_trans (by positivity) (hcon 0)
  set K := B + 1 with hK
  have e1 : ∀ n, |(debyeMode^[n] (0, 1, fun _ => 0)).1| ≤ K := fun n => abs_le_of_sq_le_sq (by nlinarith [hcon n, sq_nonneg (debyeMode^[n] (0, 1, fun _ => 0)).2.1]) (by linarith)
  have h1 : ∀ n, |(debyeMode^[n] (0, 1, fun _ => 0)).2.1| ≤ K := fun n => abs_le_of_sq_le_sq (by nlinarith [hcon n, sq_nonneg (debyeMode^[n] (0, 1, fun _ => 0)).1]) (by linarith)
  have j : ∀ n N, |(debyeMode^[n] (0, 1, fun _ => 0)).2.2 N| ≤ 2 ^ N * K := by
    intro n
    induction n with
    | zero => intro N; simp; positivity
    | succ n ih =>
      intro N
      have b := abs_le.mp (h1 n)
      have c := abs_le.mp (ih N)
      have s : |∑ M ∈ Finset.range N, (debyeMode^[n] (0, 1, fun _ => 0)).2.2 M| ≤ (2 ^ N - 1) * K := by
        refine (Finset.abs_sum_le_sum_abs _ _).trans ((Finset.sum_le_sum fun M _ => ih M).trans (le_of_eq ?_))
        rw [← Finset.sum_mul]
        congr 1
        have := geom_sum_eq (x := (2 : ℝ)) (by norm_num) N
        rw [this]
        norm_num
      rw [Function.iterate_succ_apply']
      simp only [debyeMode]
      rw [Finset.sum_range_succ]
      have s' := abs_le.mp s
      have p : (1 : ℝ) ≤ 2 ^ N := one_le_pow₀ (by norm_num)
      have pk : K ≤ 2 ^ N * K := by nlinarith
      rw [abs_le]
      constructor <;> linarith [b.1, b.2, c.1, c.2, s'.1, s'.2]
  obtain ⟨n, hn⟩ := pow_unbounded_of_one_lt (7000000 * 20000 * K ^ 2) (show (1 : ℝ) < 103 / 100 by norm_num)
  have q1 := debye_iterates n
  have q2 := debyeForm_le (debyeMode^[n] (0, 1, fun _ => 0))
  have sq : ∀ N, (debyeMode^[n] (0, 1, fun _ => 0)).2.2 N ^ 2 ≤ (2 ^ N * K) ^ 2 := fun N => sq_le_sq' (abs_le.mp (j n N)).1 (abs_le.mp (j n N)).2
  have s0 := sq 0
  have s1 := sq 1
  have s2 := sq 2
  have s3 := sq 3
  have s4 := sq 4
  have s5 := sq 5
  have s6 := sq 6
  have s7 := sq 7
  have t1 := sq_le_sq' (abs_le.mp (e1 n)).1 (abs_le.mp (e1 n)).2
  have t2 := sq_le_sq' (abs_le.mp (h1 n)).1 (abs_le.mp (h1 n)).2
  norm_num [mul_pow] at s0 s1 s2 s3 s4 s5 s6 s7
  have k2 := sq_nonneg K
  linarith

/-- Eight equal poles that relax slowly. -/
noncomputable def choir : Debye ℝ := ⟨1, List.replicate 8 ⟨125 / 2, 999 / 4⟩⟩

theorem choir_Cb : choir.Cb (1 / 2) = 1 / 3 := by norm_num [choir, Debye.Cb, DebyePole.beta, sumL, List.replicate]
theorem choir_poles : choir.poles.length = 8 := by simp [choir]

theorem choir_kappa {N : ℕ} (h : N < 8) : (Arr.ofList (choir.poles.map (·.kappa (1 / 2)))).val N = 499 / 500 := by
  interval_cases N <;> norm_num [choir, DebyePole.kappa, Arr.ofList, List.replicate] <;> rfl

/-- The state of the simulation while the wave stands in the Debye medium. -/
structure DebyeWave (c : Core ℝ) (v : ℝ × ℝ × (ℕ → ℝ)) : Prop where
  std : c.Std
  grid : c.g = gSix
  tfsf : c.tfsf = none
  lorentz : c.lorentz = []
  edge : EdgeStill c
  frame : FrameQuiet c.f ⟨1, 4, 1, 4⟩
  wave : Standing c.f v.1 v.2.1
  medium : ∃ n P a, P.mat = choir ∧ ∀ i j, 1 ≤ i → i ≤ 4 → 1 ≤ j → j ≤ 4 → InDebye c n P [] a i j ∧
    ∀ N : ℕ, N < 8 → P.J.val i j N = v.2.2 N * (wa i * wa j)

theorem DebyeWave.step {c : Core ℝ} {v} (w : DebyeWave c v) : ∃ c', c.update [] = .ok (c', []) ∧ DebyeWave c' (debyeMode v) := by
  obtain ⟨c1, l1, E2, E3, E4, f, u, S⟩ := Core.update_step w.std [] (by simp)
  obtain rfl : l1 = [] := by have := S.same; cases this; rfl
  refine ⟨c1, u, ?_⟩
  obtain ⟨q1, s1, t1, lo⟩ := closed_still w.std (by rw [w.grid, gSix_T]) S w.tfsf w.lorentz w.edge (by rw [w.grid, gSix_nodes]; exact w.frame)
  rw [S.g, w.grid, gSix_nodes] at q1
  obtain ⟨n, P, a, hm, node⟩ := w.medium
  have nodes : ∀ i j, 1 ≤ i → i ≤ 4 → 1 ≤ j → j ≤ 4 → Beyond c.g i j := by
    intro i j i0 i1 j0 j1
    rw [w.grid]
    constructor <;> simp only [gSix_T, gSix_Nx, gSix_Ny] <;> omega
  have un : ∀ i j, Undriven c [] i j := fun i j => ⟨by simp, by rw [w.tfsf]; simp⟩
  have dt : c.g.dt = 1 / 2 := by rw [w.grid, gSix_dt]
  have dx : c.g.dx = 1 := by rw [w.grid, gSix_dx]
  have hl : P.mat.poles.length = 8 := by rw [hm, choir_poles]
  have bt : ∀ i j, 1 ≤ i → i ≤ 4 → 1 ≤ j → j ≤ 4 → ∀ N : ℕ, N < 8 → P.beta.val i j N = 1 / 8 := by
    intro i j i0 i1 j0 j1 N hN
    have h0 := (node i j i0 i1 j0 j1).1.strength N (by rw [hl]; exact hN)
    rw [h0]
    simp only [hm, dt]
    interval_cases N <;> norm_num [choir, DebyePole.beta, List.replicate]
  have key : ∀ i j, 1 ≤ i → i ≤ 4 → 1 ≤ j → j ≤ 4 → ∃ P' a', InDebye c1 n P' [] a' i j ∧ P'.mat = choir ∧ c1.f.Ez.val i j = (debyeMode v).1 * (wa i * wa j) ∧
      ∀ N : ℕ, N < 8 → P'.J.val i j N = (debyeMode v).2.2 N * (wa i * wa j) := by
    intro i j i0 i1 j0 j1
    obtain ⟨hin, J0⟩ := node i j i0 i1 j0 j1
    obtain ⟨P', b', a', k1, k2, k3, k4, k5⟩ := S.inDebye w.std (nodes i j i0 i1 j0 j1) (un i j) hin
    obtain rfl : b' = [] := List.length_eq_zero_iff.mp k2
    rw [hl] at k4 k5
    have sum : ∀ m : ℕ, m ≤ 8 → ∑ M ∈ Finset.range m, (1 + (Arr.ofList (P.mat.poles.map (·.kappa c.g.dt))).val M) * P.J.val i j M
        = 999 / 500 * (∑ M ∈ Finset.range m, v.2.2 M) * (wa i * wa j) := by
      intro m hm8
      rw [Finset.mul_sum, Finset.sum_mul]
      refine Finset.sum_congr rfl fun M hM => ?_
      have hM' : M < 8 := lt_of_lt_of_le (Finset.mem_range.mp hM) hm8
      rw [J0 M hM', hm, dt, choir_kappa hM']
      ring
    refine ⟨P', a', k1, k3.trans hm, ?_, fun N hN => ?_⟩
    · rw [k4, sum 8 le_rfl, w.wave.Ez i j i0 i1 j0 j1, dx, standing_curl w.wave w.frame i0 i1 j0 j1, hm, dt, choir_Cb]
      simp only [debyeMode]
      ring
    · rw [k5 N hN, sum (N + 1) (by omega), w.wave.Ez i j i0 i1 j0 j1, dx, standing_curl w.wave w.frame i0 i1 j0 j1, hm, dt, choir_Cb, choir_kappa hN,
        J0 N hN, bt i j i0 i1 j0 j1 N hN]
      simp only [debyeMode]
      ring
  have one : (1 : ℤ) ≤ 1 ∧ (1 : ℤ) ≤ 4 := by norm_num
  obtain ⟨P', a', r1, r2, -⟩ := key 1 1 one.1 one.2 one.1 one.2
  refine ⟨S.std, by rw [S.g, w.grid], t1, lo, s1, q1, ?_, n, P', a', r2, fun i j i0 i1 j0 j1 => ?_⟩
  · exact standing_step w.std w.grid S w.tfsf w.wave q1 (fun i j i0 i1 j0 j1 => (node i j i0 i1 j0 j1).1.medium)
      fun i j i0 i1 j0 j1 => by obtain ⟨_, _, -, -, h, -⟩ := key i j i0 i1 j0 j1; exact h
  · obtain ⟨P2, a2, x1, x2, -, x3⟩ := key i j i0 i1 j0 j1
    have e := r1.entry
    rw [x1.entry] at e
    obtain ⟨e1, rfl⟩ := List.cons.inj e
    obtain ⟨-, rfl⟩ := Prod.mk.inj e1
    exact ⟨x1, x3⟩

theorem DebyeWave.run {c : Core ℝ} {v} (w : DebyeWave c v) (n : ℕ) : ∃ c', c.run n [] = .ok (c', []) ∧ DebyeWave c' (debyeMode^[n] v) := by
  induction n generalizing c v with
  | zero => exact ⟨c, rfl, w⟩
  | succ n ih =>
    obtain ⟨c1, u, w1⟩ := w.step
    obtain ⟨c2, r, w2⟩ := ih w1
    exact ⟨c2, by unfold Core.run; rw [u]; exact r, w2⟩

/-- The magnetic wave at the start. -/
noncomputable def startX (i j : ℤ) : ℝ := if 1 ≤ i ∧ i ≤ 4 ∧ 1 ≤ j ∧ j ≤ 4 then 1 / 2 * (wa i * wb j) else 0
noncomputable def startY (i j : ℤ) : ℝ := if 1 ≤ i ∧ i ≤ 4 ∧ 1 ≤ j ∧ j ≤ 4 then - (1 / 2) * (wb i * wa j) else 0

theorem startH_off (i j : ℤ) (h : ¬ (updatedNodes gSix).Mem i j) : (0 : ℝ) = 0 ∧ startX i j = 0 ∧ startY i j = 0 := by
  have : ¬ (1 ≤ i ∧ i ≤ 4 ∧ 1 ≤ j ∧ j ≤ 4) := fun hh => h (by rw [gSix_nodes]; exact ⟨⟨hh.1, hh.2.1⟩, hh.2.2.1, hh.2.2.2⟩)
  exact ⟨rfl, if_neg this, if_neg this⟩

theorem startH_wave (c : Core ℝ) : Standing (withFields c (fun _ _ => 0) startX startY).f 0 1 ∧
    FrameQuiet (withFields c (fun _ _ => 0) startX startY).f ⟨1, 4, 1, 4⟩ := by
  refine ⟨⟨fun i j _ _ _ _ => ?_, fun i j i0 i1 j0 j1 => ?_, fun i j i0 i1 j0 j1 => ?_⟩, ⟨fun j => ?_, fun _ => rfl, fun i => ?_, fun _ => rfl⟩⟩
  · show (0 : ℝ) = _
    ring
  · show startX i j = _
    rw [startX, if_pos ⟨i0, i1, j0, j1⟩]
  · show startY i j = _
    rw [startY, if_pos ⟨i0, i1, j0, j1⟩]
  · show startY (1 - 1) j = 0
    exact if_neg (by omega)
  · show startX i (1 - 1) = 0
    exact if_neg (by omega)

end Qbox.Props
