import Verif.Props.DivergeProps

/-! # Two nodes, one of glass and one of a Debye medium of three poles -/

namespace Qbox.Props
open Qbox Scalar Spec

/-- One step: electric fields of both nodes, curls of the magnetic field there, three currents. -/
noncomputable def threeMode : ℝ × ℝ × ℝ × ℝ × ℝ × ℝ × ℝ → ℝ × ℝ × ℝ × ℝ × ℝ × ℝ × ℝ
  | (a, b, h, k, x, y, z) =>
    let a' := a + h / 40
    let b0 := b + k / 5 - 999 / 5000 * x
    let b1 := b0 - 999 / 5000 * y
    let b2 := b1 - 999 / 5000 * z
    (a', b2, h - (2 * a' - b2) / 2, k - (3 * b2 - a') / 2, 499 / 500 * x + 2 * (b0 - b), 499 / 500 * y + 2 * (b1 - b), 499 / 500 * z + 2 * (b2 - b))

noncomputable def threeForm : ℝ × ℝ × ℝ × ℝ × ℝ × ℝ × ℝ → ℝ
  | (a, b, h, k, x, y, z) => (84123) * a ^ 2 + (-67784) * a * b + (2460) * a * h + (1316) * a * k + (-1956) * a * x + (6444) * a * y + (30938) * a * z + (-5366912981) * b ^ 2 +
    (4286854) * b * h + (8577614) * b * k + (263394) * b * x + (39773428) * b * y + (5332235960) * b * z + (472) * h ^ 2 + (-6534) * h * k +
    (-746) * h * x + (-22584) * h * y + (-2125348) * h * z + (-7041) * k ^ 2 + (-484) * k * x + (-42932) * k * y + (-4254320) * k * z + (1) * x ^ 2 +
    (-1172) * x * y + (-130740) * x * z + (-81842) * y ^ 2 + (-19748372) * y * z + (-1324448735) * z ^ 2

theorem threeForm_grows (v : ℝ × ℝ × ℝ × ℝ × ℝ × ℝ × ℝ) : 501 / 500 * threeForm v ≤ threeForm (threeMode v) := by
  obtain ⟨a, b, h, k, x, y, z⟩ := v
  unfold threeForm threeMode
  simp only
  rw [← sub_nonneg]
  refine le_of_le_of_eq (b := 27 / 125 * (a - b) ^ 2 + 373 / 800 * (a - h) ^ 2 + 48 / 125 * (a + k) ^ 2 + 579 / 1250 * (a + x) ^ 2 + 151 / 2500 * (a - y) ^ 2 +
      577 / 2500 * (a - z) ^ 2 + 323 / 500 * (b + h) ^ 2 + 9 / 250 * (b + k) ^ 2 + 12827 / 20000 * (b - x) ^ 2 + 1247 / 4000 * (b - y) ^ 2 +
      8349 / 20000 * (b + z) ^ 2 + 253 / 2000 * (h + k) ^ 2 + 5911 / 50000 * (h - x) ^ 2 + 29611 / 100000 * (h - y) ^ 2 + 13411 / 50000 * (h - z) ^ 2 +
      33339 / 100000 * (k - x) ^ 2 + 1213 / 100000 * (k + y) ^ 2 + 18661 / 100000 * (k + z) ^ 2 + 54969293 / 100000000 * (x + y) ^ 2 +
      24042021 / 100000000 * (x + z) ^ 2 + 31447507 / 100000000 * (y - z) ^ 2 + 133667 / 20000 * a ^ 2 + 118869 / 20000 * b ^ 2 + 967527 / 160000 * h ^ 2 +
      681337 / 100000 * k ^ 2 + 642553427 / 100000000 * x ^ 2 + 644188541 / 100000000 * y ^ 2 + 120840121 / 20000000 * z ^ 2) ?_ ?_
  · positivity
  · ring

theorem threeForm_le (a b h k x y z : ℝ) : threeForm (a, b, h, k, x, y, z) ≤ 8000000000 * (a ^ 2 + b ^ 2 + h ^ 2 + k ^ 2 + x ^ 2 + y ^ 2 + z ^ 2) := by
  unfold threeForm
  simp only
  rw [← sub_nonneg]
  refine le_of_le_of_eq (b := 33892 * (a + b) ^ 2 + 1230 * (a - h) ^ 2 + 658 * (a - k) ^ 2 + 978 * (a + x) ^ 2 + 3222 * (a - y) ^ 2 + 15469 * (a - z) ^ 2 + 2143427 * (b - h) ^ 2 +
      4288807 * (b - k) ^ 2 + 131697 * (b - x) ^ 2 + 19886714 * (b - y) ^ 2 + 2666117980 * (b - z) ^ 2 + 3267 * (h + k) ^ 2 + 373 * (h + x) ^ 2 +
      11292 * (h + y) ^ 2 + 1062674 * (h + z) ^ 2 + 242 * (k + x) ^ 2 + 21466 * (k + y) ^ 2 + 2127160 * (k + z) ^ 2 + 586 * (x + y) ^ 2 +
      65370 * (x + z) ^ 2 + 9874186 * (y + z) ^ 2 + 7999860428 * a ^ 2 + 10674310464 * b ^ 2 + 7996777265 * h ^ 2 + 7993565441 * k ^ 2 + 7999800753 * x ^ 2 +
      7970284376 * y ^ 2 + 6645185896 * z ^ 2) ?_ ?_
  · positivity
  · ring

theorem three_iterates (n : ℕ) : (501 / 500 : ℝ) ^ n ≤ threeForm (threeMode^[n] (1, 0, 0, 0, 0, 0, 0)) := by
  induction n with
  | zero => norm_num [threeForm]
  | succ n ih =>
    rw [Function.iterate_succ_apply', pow_succ]
    have := threeForm_grows (threeMode^[n] (1, 0, 0, 0, 0, 0, 0))
    linarith

/-- The fields at the two nodes are not bounded. -/
theorem three_unbounded (B : ℝ) : ∃ n, B < (threeMode^[n] (1, 0, 0, 0, 0, 0, 0)).1 ^ 2 + (threeMode^[n] (1, 0, 0, 0, 0, 0, 0)).2.1 ^ 2 +
    (threeMode^[n] (1, 0, 0, 0, 0, 0, 0)).2.2.1 ^ 2 + (threeMode^[n] (1, 0, 0, 0, 0, 0, 0)).2.2.2.1 ^ 2 := by
  by_contra hcon
  push Not at hcon
  have hB : 0 ≤ B := le_trans (by positivity) (hcon 0)
  obtain ⟨K, hK⟩ : ∃ K, K = B + 1 := ⟨_, rfl⟩
  have hK0 : 0 < K := by linarith
  have hBK : B ≤ K ^ 2 := by nlinarith
  have main : ∀ n, ∃ a b h k x y z, threeMode^[n] (1, 0, 0, 0, 0, 0, 0) = (a, b, h, k, x, y, z) ∧ a ^ 2 + b ^ 2 + h ^ 2 + k ^ 2 ≤ K ^ 2 ∧ |x| ≤ K ∧ |y| ≤ 2 * K ∧
      |z| ≤ 4 * K := by
    intro n
    induction n with
    | zero =>
      have := hcon 0
      simp only [Function.iterate_zero, id_eq] at this
      refine ⟨1, 0, 0, 0, 0, 0, 0, rfl, by linarith, ?_, ?_, ?_⟩ <;> simp <;> linarith
    | succ n ih =>
      obtain ⟨a, b, h, k, x, y, z, e, s, hx, hy, hz⟩ := ih
      have c := hcon (n + 1)
      rw [Function.iterate_succ_apply', e] at c ⊢
      have hk : |k| ≤ K := abs_le_of_sq_le_sq (by nlinarith [sq_nonneg a, sq_nonneg b, sq_nonneg h]) hK0.le
      rw [abs_le] at hk hx hy hz
      refine ⟨_, _, _, _, _, _, _, rfl, le_trans c hBK, ?_, ?_, ?_⟩ <;> rw [abs_le] <;> constructor <;> linarith [hk.1, hk.2, hx.1, hx.2, hy.1, hy.2, hz.1, hz.2]
  obtain ⟨n, hn⟩ := pow_unbounded_of_one_lt (8000000000 * 22 * K ^ 2) (show (1 : ℝ) < 501 / 500 by norm_num)
  obtain ⟨a, b, h, k, x, y, z, e, s, hx, hy, hz⟩ := main n
  have q1 := three_iterates n
  rw [e] at q1
  have q2 := threeForm_le a b h k x y z
  have sx := sq_le_sq' (abs_le.mp hx).1 (abs_le.mp hx).2
  have sy := sq_le_sq' (abs_le.mp hy).1 (abs_le.mp hy).2
  have sz := sq_le_sq' (abs_le.mp hz).1 (abs_le.mp hz).2
  have e2 : (2 * K) ^ 2 = 4 * K ^ 2 := by ring
  have e4 : (4 * K) ^ 2 = 16 * K ^ 2 := by ring
  linarith

/-! ## The two nodes in the simulation -/

/-- Four by three nodes without absorbing layer. -/
noncomputable def gTwo : Grid ℝ := Grid.make 4 3 1 (-1)

theorem gTwo_Nx : gTwo.Nx = 4 := by simp [gTwo, Grid.make]
theorem gTwo_Ny : gTwo.Ny = 3 := by simp [gTwo, Grid.make]
theorem gTwo_T : gTwo.T = 0 := by simp [gTwo, Grid.make]
theorem gTwo_dx : gTwo.dx = 1 := by simp [gTwo, Grid.make]
theorem gTwo_dt : gTwo.dt = 1 / 2 := by simp [gTwo, Grid.make]
theorem gTwo_lawful : Lawful gTwo := lawful_make 4 3 1 (-1) one_pos
theorem gTwo_wide : gTwo.Wide := ⟨by rw [gTwo_T, gTwo_Nx]; norm_num, by rw [gTwo_T, gTwo_Ny]; norm_num⟩
theorem gTwo_nodes : updatedNodes gTwo = ⟨1, 2, 1, 1⟩ := by simp [updatedNodes, gTwo_Nx, gTwo_Ny]

/-- Three equal poles that relax slowly. -/
noncomputable def trio : Debye ℝ := ⟨1, [⟨500, 999 / 4⟩, ⟨500, 999 / 4⟩, ⟨500, 999 / 4⟩]⟩
/-- A dense glass. -/
noncomputable def heavyGlass : Simple ℝ := ⟨20, 1, 0⟩

theorem trio_Cb : trio.Cb (1 / 2) = 1 / 5 := by norm_num [trio, Debye.Cb, DebyePole.beta, sumL]
theorem trio_poles : trio.poles.length = 3 := by simp [trio]
theorem trio_kappa {N : ℕ} (h : N < 3) : (Arr.ofList (trio.poles.map (·.kappa (1 / 2)))).val N = 499 / 500 := by
  interval_cases N <;> norm_num [trio, DebyePole.kappa, Arr.ofList] <;> rfl

/-- The state of the simulation. -/
structure ThreeWave (c : Core ℝ) (v : ℝ × ℝ × ℝ × ℝ × ℝ × ℝ × ℝ) : Prop where
  std : c.Std
  grid : c.g = gTwo
  tfsf : c.tfsf = none
  lorentz : c.lorentz = []
  edge : EdgeStill c
  frame : FrameQuiet c.f ⟨1, 2, 1, 1⟩
  left : c.f.Ez.val 1 1 = v.1
  right : c.f.Ez.val 2 1 = v.2.1
  curlLeft : curlH c.f 1 1 1 = v.2.2.1
  curlRight : curlH c.f 1 2 1 = v.2.2.2.1
  glass : InSimple c heavyGlass 1 1
  medium : ∃ n P a, P.mat = trio ∧ InDebye c n P [] a 2 1 ∧ P.J.val 2 1 0 = v.2.2.2.2.1 ∧ P.J.val 2 1 1 = v.2.2.2.2.2.1 ∧ P.J.val 2 1 2 = v.2.2.2.2.2.2

theorem ThreeWave.step {c : Core ℝ} {v} (w : ThreeWave c v) : ∃ c', c.update [] = .ok (c', []) ∧ ThreeWave c' (threeMode v) := by
  obtain ⟨c1, l1, E2, E3, E4, f, u, S⟩ := Core.update_step w.std [] (by simp)
  obtain rfl : l1 = [] := by have := S.same; cases this; rfl
  refine ⟨c1, u, ?_⟩
  obtain ⟨q1, s1, t1, lo⟩ := closed_still w.std (by rw [w.grid, gTwo_T]) S w.tfsf w.lorentz w.edge (by rw [w.grid, gTwo_nodes]; exact w.frame)
  rw [S.g, w.grid, gTwo_nodes] at q1
  obtain ⟨a, b, h, k, x, y, z⟩ := v
  obtain ⟨n, P, aft, hm, hin, J0, J1, J2⟩ := w.medium
  have w1 := w.left
  have w2 := w.right
  have w3 := w.curlLeft
  have w4 := w.curlRight
  simp only at w1 w2 w3 w4 J0 J1 J2
  have un : ∀ i j, Undriven c [] i j := fun i j => ⟨by simp, by rw [w.tfsf]; simp⟩
  have dt : c.g.dt = 1 / 2 := by rw [w.grid, gTwo_dt]
  have dx : c.g.dx = 1 := by rw [w.grid, gTwo_dx]
  have b1 : Beyond c.g 1 1 := by rw [w.grid]; constructor <;> simp only [gTwo_T, gTwo_Nx, gTwo_Ny] <;> norm_num
  have b2 : Beyond c.g 2 1 := by rw [w.grid]; constructor <;> simp only [gTwo_T, gTwo_Nx, gTwo_Ny] <;> norm_num
  obtain ⟨g1, -, g3⟩ := S.inSimple w.std b1 (un 1 1) w.lorentz w.glass
  obtain ⟨P', b', a', k1, k2, k3, k4, k5⟩ := S.inDebye w.std b2 (un 2 1) hin
  obtain rfl : b' = [] := List.length_eq_zero_iff.mp k2
  have hl : P.mat.poles.length = 3 := by rw [hm, trio_poles]
  have bt : ∀ N : ℕ, N < 3 → P.beta.val 2 1 N = 1 := by
    intro N hN
    have h0 := hin.strength N (by rw [hl]; exact hN)
    rw [h0]
    simp only [hm, dt]
    interval_cases N <;> norm_num [trio, DebyePole.beta]
  rw [hl] at k4 k5
  have kap : ∀ N : ℕ, N < 3 → (Arr.ofList (P.mat.poles.map (·.kappa c.g.dt))).val N = 499 / 500 := fun N hN => by rw [hm, dt]; exact trio_kappa hN
  have kap0 := kap 0 (by norm_num)
  have kap1 := kap 1 (by norm_num)
  have kap2 := kap 2 (by norm_num)
  have j0 := k5 0 (by norm_num)
  have j1 := k5 1 (by norm_num)
  have j2 := k5 2 (by norm_num)
  rw [bt 0 (by norm_num)] at j0
  rw [bt 1 (by norm_num)] at j1
  rw [bt 2 (by norm_num)] at j2
  simp only [Finset.sum_range_succ, Finset.sum_range_zero, Nat.cast_zero, Nat.cast_one, Nat.cast_ofNat] at k4 j0 j1 j2 kap0 kap1 kap2
  rw [dx, dt, w1, w3] at g3
  rw [kap0, kap1, kap2, J0, J1, J2, dx, w4, w2, hm, dt, trio_Cb] at k4
  rw [dt] at kap0 kap1 kap2
  rw [hm] at kap0 kap1 kap2
  rw [J0, dx, w4, w2, hm, dt, trio_Cb, kap0] at j0
  rw [J0, J1, dx, w4, w2, hm, dt, trio_Cb, kap0, kap1] at j1
  rw [J0, J1, J2, dx, w4, w2, hm, dt, trio_Cb, kap0, kap1, kap2] at j2
  have eL : c1.f.Ez.val 1 1 = a + h / 40 := by
    rw [g3]
    norm_num [heavyGlass, Simple.Ca, Simple.Cb]
    ring
  have eR : c1.f.Ez.val 2 1 = b + k / 5 - 999 / 5000 * x - 999 / 5000 * y - 999 / 5000 * z := by
    rw [k4]
    ring
  obtain ⟨x1, y1⟩ := magnetic_any w.std S b1 (by simp) w.tfsf w.glass.medium
  obtain ⟨x2, y2⟩ := magnetic_any w.std S b2 (by simp) w.tfsf hin.medium
  have top1 : c1.f.Ez.val 1 2 = 0 := q1.top 1
  have top2 : c1.f.Ez.val 2 2 = 0 := q1.top 2
  have rt : c1.f.Ez.val 3 1 = 0 := q1.right 1
  have lf : c1.f.Hy.val 0 1 = 0 := q1.left 1
  have bo1 : c1.f.Hx.val 1 0 = 0 := q1.bottom 1
  have bo2 : c1.f.Hx.val 2 0 = 0 := q1.bottom 2
  have lf' : c.f.Hy.val 0 1 = 0 := w.frame.left 1
  have bo1' : c.f.Hx.val 1 0 = 0 := w.frame.bottom 1
  have bo2' : c.f.Hx.val 2 0 = 0 := w.frame.bottom 2
  rw [dt, dx, show (1 : ℤ) + 1 = 2 from rfl] at x1 y1 x2
  rw [dt, dx, show (2 : ℤ) + 1 = 3 from rfl] at y2
  unfold curlH at w3 w4
  rw [show (1 : ℤ) - 1 = 0 from rfl] at w3 w4
  rw [show (2 : ℤ) - 1 = 1 from rfl] at w4
  refine ⟨S.std, by rw [S.g, w.grid], t1, lo, s1, q1, eL, eR, ?_, ?_, g1, n, P', a', k3.trans hm, k1, ?_, ?_, ?_⟩
  · unfold curlH
    rw [show (1 : ℤ) - 1 = 0 from rfl, lf, bo1, x1, y1, top1, eL, eR]
    rw [lf', bo1'] at w3
    simp only [threeMode]
    linear_combination w3
  · unfold curlH
    rw [show (1 : ℤ) - 1 = 0 from rfl, show (2 : ℤ) - 1 = 1 from rfl, bo2, x2, y2, y1, top2, rt, eL, eR]
    rw [bo2'] at w4
    simp only [threeMode]
    linear_combination w4
  · rw [j0]; simp only [threeMode]; ring
  · rw [j1]; simp only [threeMode]; ring
  · rw [j2]; simp only [threeMode]; ring

theorem ThreeWave.run {c : Core ℝ} {v} (w : ThreeWave c v) (n : ℕ) : ∃ c', c.run n [] = .ok (c', []) ∧ ThreeWave c' (threeMode^[n] v) := by
  induction n generalizing c v with
  | zero => exact ⟨c, rfl, w⟩
  | succ n ih =>
    obtain ⟨c1, u, w1⟩ := w.step
    obtain ⟨c2, r, w2⟩ := ih w1
    exact ⟨c2, by unfold Core.run; rw [u]; exact r, w2⟩

theorem ThreeWave.size {c : Core ℝ} {v} (w : ThreeWave c v) : (v.1 ^ 2 + v.2.1 ^ 2 + v.2.2.1 ^ 2 + v.2.2.2.1 ^ 2) / 6 ≤ size gTwo c.f (updatedNodes gTwo) := by
  unfold Spec.size
  rw [gTwo_nodes, gTwo_dx]
  have e : Box.sum ⟨1, 2, 1, 1⟩ (fun i j => c.f.Ez.val i j ^ 2 + c.f.Hx.val i j ^ 2 + c.f.Hy.val i j ^ 2) = (c.f.Ez.val 1 1 ^ 2 + c.f.Hx.val 1 1 ^ 2 + c.f.Hy.val 1 1 ^ 2) +
      (c.f.Ez.val 2 1 ^ 2 + c.f.Hx.val 2 1 ^ 2 + c.f.Hy.val 2 1 ^ 2) := by
    unfold Box.sum
    simp only
    rw [show Finset.Icc (1 : ℤ) 2 = {1, 2} from rfl, show Finset.Icc (1 : ℤ) 1 = {1} from rfl]
    simp
  rw [e]
  have w3 := w.curlLeft
  have w4 := w.curlRight
  unfold curlH at w3 w4
  have lf' : c.f.Hy.val (1 - 1) 1 = 0 := w.frame.left 1
  have bo1' : c.f.Hx.val 1 (1 - 1) = 0 := w.frame.bottom 1
  have bo2' : c.f.Hx.val 2 (1 - 1) = 0 := w.frame.bottom 2
  rw [lf', bo1'] at w3
  rw [bo2', show (2 : ℤ) - 1 = 1 from rfl] at w4
  rw [← w.left, ← w.right, ← w3, ← w4]
  nlinarith [sq_nonneg (c.f.Ez.val 1 1), sq_nonneg (c.f.Ez.val 2 1), sq_nonneg (c.f.Hx.val 1 1), sq_nonneg (c.f.Hy.val 1 1), sq_nonneg (c.f.Hx.val 2 1), sq_nonneg (c.f.Hy.val 2 1),
    sq_nonneg (c.f.Hy.val 1 1 + c.f.Hx.val 1 1), sq_nonneg (c.f.Hy.val 2 1 + c.f.Hy.val 1 1), sq_nonneg (c.f.Hy.val 2 1 + c.f.Hx.val 2 1), sq_nonneg (c.f.Hy.val 1 1 - c.f.Hx.val 2 1)]

end Qbox.Props
