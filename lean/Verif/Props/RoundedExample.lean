import Verif.Props.RoundedProps

/-! # A program that meets the hypotheses of C74: double precision, a glass cylinder in a box of 20 by 20 nodes -/

namespace Qbox.Props
open Qbox Scalar Spec

/-- Double precision with the library functions rounded correctly. -/
noncomputable abbrev dbl : Arith := double Real.sin Real.cos Real.exp (fun x n => x ^ n) Real.pi

theorem td {x : ℝ} (n : ℤ) (h : x = n) (hn : |n| < 2 ^ 53) : toDouble x = n := by rw [h, toDouble_int hn]

/-- A whole number in double precision. -/
noncomputable def whole (n : ℤ) (h : |n| < 2 ^ 53) : Rnd dbl := ⟨n, toDouble_int h⟩

/-- `Field2D({20, 20}, 1, -1)` -/
noncomputable def gDbl : Grid (Rnd dbl) := Grid.make (whole 20 (by norm_num)) (whole 20 (by norm_num)) (whole 1 (by norm_num)) (-1)

theorem gDbl_dx : gDbl.dx.val = 1 := by
  show toDouble (1 / ((1 : ℤ) : ℝ)) = 1
  exact_mod_cast td 1 (by norm_num) (by norm_num)

theorem gDbl_dt : gDbl.dt.val = gDbl.dx.val / 2 := by
  show toDouble (gDbl.dx.val / toDouble ((2 : ℤ) : ℝ)) = _
  rw [gDbl_dx, toDouble_int (by norm_num), Int.cast_ofNat]
  exact toDouble_half (x := 1) (by exact_mod_cast td 1 (by norm_num) (by norm_num)) (by
    rw [abs_one]
    have : ((2 : ℝ) ^ (-1021 : ℤ)) ≤ 2 ^ (0 : ℤ) := zpow_le_zpow_right₀ (by norm_num) (by norm_num)
    rwa [zpow_zero] at this)

theorem gDbl_N : gDbl.Nx = 20 ∧ gDbl.Ny = 20 ∧ gDbl.T = 0 := by
  have : ⌈toDouble ((20 : ℤ) * (1 : ℤ) : ℝ)⌉ = 20 := by
    rw [td 20 (by norm_num) (by norm_num)]; exact Int.ceil_intCast _
  exact ⟨this, this, by norm_num [gDbl, Grid.make]⟩

/-- The cylinder with rounding. -/
noncomputable def rodDbl : Object (Rnd dbl) :=
  ⟨"rod", .cylinder (whole 3 (by norm_num)), ⟨"glass", .simple ⟨whole 2 (by norm_num), 1, 0⟩⟩, ⟨whole 10 (by norm_num), whole 10 (by norm_num)⟩, 0⟩
/-- The cylinder without rounding. -/
noncomputable def rodReal : Object ℝ := ⟨"rod", .cylinder 3, ⟨"glass", .simple ⟨2, 1, 0⟩⟩, ⟨10, 10⟩, 0⟩

theorem rotReal (v : V2 ℝ) : rotVec (-0 : ℝ) v = v := by
  cases v
  simp [rotVec]

theorem r0 : dbl.r 0 = 0 := by
  have := td 0 Int.cast_zero.symm (by norm_num)
  rwa [Int.cast_zero] at this

theorem rotDbl (v : V2 (Rnd dbl)) : rotVec (-0 : Rnd dbl) v = v := by
  have c : (Scalar.cos (-0 : Rnd dbl)).val = 1 := by
    show dbl.r (Real.cos (-0)) = 1
    rw [neg_zero, Real.cos_zero, dbl.one]
  have s : (Scalar.sin (-0 : Rnd dbl)).val = 0 := by
    show dbl.r (Real.sin (-0)) = 0
    rw [neg_zero, Real.sin_zero, r0]
  obtain ⟨x, y⟩ := v
  unfold rotVec
  congr 1 <;> refine Rnd.ext ?_
  · simp only [add_rnd, mul_rnd, neg_rnd, c, s]
    rw [one_mul, x.fix, neg_zero, zero_mul, r0, add_zero, x.fix]
  · simp only [add_rnd, mul_rnd, neg_rnd, c, s]
    rw [one_mul, y.fix, zero_mul, r0, zero_add, y.fix]

theorem rodReal_inside (i j : ℤ) : rodReal.inside ((exactGrid gDbl).toReal ⟨i, j⟩) = decide ((i - 10) ^ 2 + (j - 10) ^ 2 < 9) := by
  have t : rodReal.theta = 0 := rfl
  unfold Object.inside
  rw [t, rotReal, rotReal]
  show decide (((exactGrid gDbl).dx * (i : ℝ) + -10) * ((exactGrid gDbl).dx * (i : ℝ) + -10) +
    ((exactGrid gDbl).dx * (j : ℝ) + -10) * ((exactGrid gDbl).dx * (j : ℝ) + -10) < (3 : ℝ) ^ 2) = _
  have d : (exactGrid gDbl).dx = 1 := gDbl_dx
  rw [d, decide_eq_decide]
  have e : (1 * (i : ℝ) + -10) * (1 * (i : ℝ) + -10) + (1 * (j : ℝ) + -10) * (1 * (j : ℝ) + -10) = (((i - 10) ^ 2 + (j - 10) ^ 2 : ℤ) : ℝ) := by push_cast; ring
  rw [e, show (3 : ℝ) ^ 2 = ((9 : ℤ) : ℝ) by norm_num, Int.cast_lt]

theorem rodDbl_inside (i j : ℤ) (hi : |i| < 1000) (hj : |j| < 1000) : rodDbl.inside (gDbl.toReal ⟨i, j⟩) = decide ((i - 10) ^ 2 + (j - 10) ^ 2 < 9) := by
  have t : rodDbl.theta = 0 := rfl
  have node : ∀ k : ℤ, |k| < 1000 → dbl.r (dbl.r (gDbl.dx.val * dbl.r k) + -((10 : ℤ) : ℝ)) = ((k - 10 : ℤ) : ℝ) := by
    intro k hk
    rw [abs_lt] at hk
    have a : dbl.r k = k := toDouble_int (by rw [abs_lt]; constructor <;> linarith)
    rw [gDbl_dx, a, one_mul, a]
    exact td (k - 10) (by push_cast; ring) (by rw [abs_lt]; constructor <;> linarith)
  have sq : ∀ k : ℤ, |k| < 1000 → dbl.r (((k - 10 : ℤ) : ℝ) * ((k - 10 : ℤ) : ℝ)) = (((k - 10) ^ 2 : ℤ) : ℝ) ∧ 0 ≤ (k - 10) ^ 2 ∧ (k - 10) ^ 2 ≤ 2000000 := by
    intro k hk
    rw [abs_lt] at hk
    have b : (k - 10) ^ 2 ≤ 2000000 := by nlinarith
    exact ⟨td _ (by push_cast; ring) (by rw [abs_lt]; constructor <;> nlinarith [sq_nonneg (k - 10)]), sq_nonneg _, b⟩
  unfold Object.inside
  rw [t, rotDbl, rotDbl]
  show decide (dbl.r (dbl.r (dbl.r (dbl.r (gDbl.dx.val * dbl.r i) + -((10 : ℤ) : ℝ)) * dbl.r (dbl.r (gDbl.dx.val * dbl.r i) + -((10 : ℤ) : ℝ))) +
    dbl.r (dbl.r (dbl.r (gDbl.dx.val * dbl.r j) + -((10 : ℤ) : ℝ)) * dbl.r (dbl.r (gDbl.dx.val * dbl.r j) + -((10 : ℤ) : ℝ)))) < dbl.r (((3 : ℤ) : ℝ) ^ 2)) = _
  obtain ⟨a1, a2, a3⟩ := sq i hi
  obtain ⟨b1, b2, b3⟩ := sq j hj
  rw [node i hi, node j hj, a1, b1, decide_eq_decide]
  have e1 : dbl.r ((((i - 10) ^ 2 : ℤ) : ℝ) + (((j - 10) ^ 2 : ℤ) : ℝ)) = (((i - 10) ^ 2 + (j - 10) ^ 2 : ℤ) : ℝ) :=
    td _ (by push_cast; ring) (by rw [abs_lt]; constructor <;> linarith)
  have e2 : dbl.r (((3 : ℤ) : ℝ) ^ 2) = ((9 : ℤ) : ℝ) := td 9 (by norm_num) (by norm_num)
  rw [e1, e2, Int.cast_lt]

theorem clip_box {K : Type} [Scalar K] {g : Grid K} (h1 : g.Nx = 20) (h2 : g.Ny = 20) {v : IVol} (ha : v.a = ⟨7, 7⟩) (hb : v.b = ⟨13, 13⟩) :
    (g.clipI v).a = ⟨7, 7⟩ ∧ (g.clipI v).b = ⟨13, 13⟩ := by
  unfold Grid.clipI IVol.make
  rw [ha, hb, h1, h2]
  simp

theorem rodReal_box : (objBox (exactGrid gDbl) rodReal).a = ⟨7, 7⟩ ∧ (objBox (exactGrid gDbl) rodReal).b = ⟨13, 13⟩ := by
  refine clip_box gDbl_N.1 gDbl_N.2.1 ?_ ?_
  · show (⟨roundAway ((-3 + 10) / (exactGrid gDbl).dx), roundAway ((-3 + 10) / (exactGrid gDbl).dx)⟩ : V2 ℤ) = _
    rw [show (exactGrid gDbl).dx = 1 from gDbl_dx, show ((-3 : ℝ) + 10) / 1 = ((7 : ℤ) : ℝ) by norm_num, roundAway_int]
  · show (⟨roundAway ((3 + 10) / (exactGrid gDbl).dx), roundAway ((3 + 10) / (exactGrid gDbl).dx)⟩ : V2 ℤ) = _
    rw [show (exactGrid gDbl).dx = 1 from gDbl_dx, show ((3 : ℝ) + 10) / 1 = ((13 : ℤ) : ℝ) by norm_num, roundAway_int]

theorem rodDbl_box : (objBox gDbl rodDbl).a = ⟨7, 7⟩ ∧ (objBox gDbl rodDbl).b = ⟨13, 13⟩ := by
  refine clip_box gDbl_N.1 gDbl_N.2.1 ?_ ?_
  · show (⟨roundAway (dbl.r (dbl.r (-((3 : ℤ) : ℝ) + ((10 : ℤ) : ℝ)) / gDbl.dx.val)), roundAway (dbl.r (dbl.r (-((3 : ℤ) : ℝ) + ((10 : ℤ) : ℝ)) / gDbl.dx.val))⟩ : V2 ℤ) = _
    have e : dbl.r (-((3 : ℤ) : ℝ) + ((10 : ℤ) : ℝ)) = ((7 : ℤ) : ℝ) := td 7 (by norm_num) (by norm_num)
    rw [gDbl_dx, e, div_one, show dbl.r ((7 : ℤ) : ℝ) = ((7 : ℤ) : ℝ) from toDouble_int (by norm_num), roundAway_int]
  · show (⟨roundAway (dbl.r (dbl.r (((3 : ℤ) : ℝ) + ((10 : ℤ) : ℝ)) / gDbl.dx.val)), roundAway (dbl.r (dbl.r (((3 : ℤ) : ℝ) + ((10 : ℤ) : ℝ)) / gDbl.dx.val))⟩ : V2 ℤ) = _
    have e : dbl.r (((3 : ℤ) : ℝ) + ((10 : ℤ) : ℝ)) = ((13 : ℤ) : ℝ) := td 13 (by norm_num) (by norm_num)
    rw [gDbl_dx, e, div_one, show dbl.r ((13 : ℤ) : ℝ) = ((13 : ℤ) : ℝ) from toDouble_int (by norm_num), roundAway_int]

theorem in_disc {i j : ℤ} (h : (i - 10) ^ 2 + (j - 10) ^ 2 < 9) : (7 ≤ i ∧ i ≤ 13) ∧ 7 ≤ j ∧ j ≤ 13 := by
  refine ⟨⟨?_, ?_⟩, ?_, ?_⟩ <;> nlinarith [sq_nonneg (i - 10), sq_nonneg (j - 10)]

theorem rod_same : SameObject gDbl rodDbl rodReal := by
  obtain ⟨n1, n2, n3⟩ := gDbl_N
  have exm : exactMed (⟨whole 2 (by norm_num), 1, 0⟩ : Simple (Rnd dbl)) = ⟨2, 1, 0⟩ := by
    unfold exactMed
    congr 1
  refine ⟨⟨_, rfl, ?_⟩, ?_⟩
  · rw [exm]; rfl
  · intro i j i0 i1 j0 j1
    rw [rodReal_inside, rodDbl_inside i j (by rw [abs_lt]; constructor <;> linarith) (by rw [abs_lt]; constructor <;> linarith)]

theorem dbl_passive {m : Simple (Rnd dbl)} (h1 : m.eps.val = 2 ∨ m.eps.val = 1) (h2 : m.conduc.val = 0) : RoundPassive gDbl.dx.val 16 m := by
  have tiny : dbl.tiny ≤ dbl.u * (1 / 8) := by
    show ((2 : ℝ) ^ (-1075 : ℤ)) ≤ 2 ^ (-53 : ℤ) * (1 / 8)
    rw [show (1 / 8 : ℝ) = 2 ^ (-3 : ℤ) by norm_num, ← zpow_add₀ (by norm_num)]
    exact zpow_le_zpow_right₀ (by norm_num) (by norm_num)
  refine ⟨by rcases h1 with h | h <;> rw [h] <;> norm_num, by rcases h1 with h | h <;> rw [h] <;> norm_num, by rw [h2], ?_⟩
  rw [gDbl_dx]
  refine tiny.trans (mul_le_mul_of_nonneg_left ?_ dbl.u_nonneg)
  unfold Simple.Cb exactMed
  simp only [ofInt_real, Int.cast_ofNat, h2]
  rcases h1 with h | h <;> rw [h] <;> norm_num

theorem rodDbl_safe : rodDbl.Safe gDbl := by
  obtain ⟨n1, n2, n3⟩ := gDbl_N
  intro i j
  obtain ⟨ba, bb⟩ := rodDbl_box
  rw [ba, bb]
  intro h1 h2 h3 h4 _
  simp only at h1 h2 h3 h4
  omega

theorem rodReal_safe : rodReal.Safe (exactGrid gDbl) := by
  obtain ⟨n1, n2, n3⟩ := gDbl_N
  intro i j
  obtain ⟨ba, bb⟩ := rodReal_box
  rw [ba, bb]
  intro h1 h2 h3 h4 _
  simp only at h1 h2 h3 h4
  show 0 ≤ i ∧ i < gDbl.Nx ∧ 0 ≤ j ∧ j < gDbl.Ny
  omega

theorem rodDbl_covered : rodDbl.Covered gDbl := by
  obtain ⟨n1, n2, n3⟩ := gDbl_N
  intro i j i0 i1 j0 j1 hi
  rw [rodDbl_inside i j (by rw [abs_lt]; constructor <;> linarith) (by rw [abs_lt]; constructor <;> linarith), decide_eq_true_eq] at hi
  obtain ⟨ba, bb⟩ := rodDbl_box
  have := in_disc hi
  unfold scan
  rw [mem_rect, ba, bb]
  simp only
  omega

theorem rodReal_covered : rodReal.Covered (exactGrid gDbl) := by
  intro i j i0 i1 j0 j1 hi
  rw [rodReal_inside, decide_eq_true_eq] at hi
  obtain ⟨ba, bb⟩ := rodReal_box
  have := in_disc hi
  unfold scan
  rw [mem_rect, ba, bb]
  simp only
  omega

theorem mem_one {α : Type} {P : α → Prop} {a : α} (h : P a) : ∀ b ∈ [a], P b := fun b hb => by rw [List.mem_singleton.mp hb]; exact h

theorem rodDbl_passive : ∀ m, rodDbl.mat.kind = .simple m → RoundPassive gDbl.dx.val 16 m := by
  intro m hm
  cases hm
  exact dbl_passive (.inl (by norm_num [whole])) rfl

/-- **The hypotheses of C74 are met**: glass cylinder, double precision, start with any doubles inside the walls, a billion updates. -/
example (e x y : ℤ → ℤ → Rnd dbl) (out : ∀ i j, ¬ (updatedNodes (exactGrid gDbl)).Mem i j → (e i j).val = 0 ∧ (x i j).val = 0 ∧ (y i j).val = 0) :
    ∃ c0 c1 c2 r0 r1 r2, Core.make gDbl = .ok c0 ∧ forList [rodDbl] c0 (fun o c => c.insertObject o) = .ok c1 ∧ (setFields c1 e x y).run (10 ^ 9) [] = .ok (c2, []) ∧
      Core.make (exactGrid gDbl) = .ok r0 ∧ forList [rodReal] r0 (fun o c => c.insertObject o) = .ok r1 ∧
      (setFields r1 (fun i j => (e i j).val) (fun i j => (x i j).val) (fun i j => (y i j).val)).run (10 ^ 9) [] = .ok (r2, []) ∧
      Real.sqrt (roundGap gDbl.dx.val c2.f r2.f (updatedNodes (exactGrid gDbl))) ≤
        Real.sqrt (roundSize gDbl.dx.val (setFields c1 e x y).f (updatedNodes (exactGrid gDbl))) / 300 + ((10 ^ 9 : ℕ) : ℝ) * (27 * roundFloor gDbl) := by
  obtain ⟨n1, n2, n3⟩ := gDbl_N
  exact C74_double_partial Real.sin Real.cos Real.exp (fun x n => x ^ n) Real.pi (10 ^ 9) le_rfl gDbl ⟨by omega, by omega⟩ n3 (by rw [gDbl_dx]; norm_num) gDbl_dt
    [rodDbl] [rodReal] (.cons rod_same .nil) (mem_one rodDbl_safe) (mem_one rodReal_safe) (mem_one rodDbl_covered) (mem_one rodReal_covered)
    (dbl_passive (.inr rfl) rfl) (mem_one rodDbl_passive) e x y out

end Qbox.Props
