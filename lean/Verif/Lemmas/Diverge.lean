import Verif.Props.DispersiveProps

/-! # A standing wave in a filled domain -/

namespace Qbox.Props
open Qbox Scalar Spec

/-! ## Two growing recurrences -/

/-- One step of the wave amplitudes: electric field, curl of the magnetic field and the two currents of a Drude medium. -/
noncomputable def drudeMode (v : ℝ × ℝ × ℝ × ℝ) : ℝ × ℝ × ℝ × ℝ :=
  let e := (v.1 + v.2.1 - v.2.2.1 - v.2.2.2) / 3
  (e, v.2.1 - e, 2 / 3 * v.2.2.1 + 4 / 3 * v.1 + v.2.1 / 3, v.2.2.2 + v.1 + e)

noncomputable def drudeForm (v : ℝ × ℝ × ℝ × ℝ) : ℝ :=
  100 * v.1 ^ 2 - 64 * v.2.1 ^ 2 + 13 * v.2.2.1 ^ 2 - 8 * v.2.2.2 ^ 2 - 64 * v.1 * v.2.1 - 20 * v.1 * v.2.2.1 - 34 * v.1 * v.2.2.2
    - 36 * v.2.1 * v.2.2.1 - 100 * v.2.1 * v.2.2.2 + 26 * v.2.2.1 * v.2.2.2

theorem drudeForm_grows (v : ℝ × ℝ × ℝ × ℝ) : 51 / 50 * drudeForm v ≤ drudeForm (drudeMode v) := by
  obtain ⟨a, b, c, d⟩ := v
  unfold drudeForm drudeMode
  simp only
  have s0 := mul_nonneg (show (0 : ℝ) ≤ (2 / 3) by norm_num) (sq_nonneg ((1) * a + (23 / 50) * b + (-1 / 5) * c + (-97 / 300) * d))
  have s1 := mul_nonneg (show (0 : ℝ) ≤ (1007 / 1250) by norm_num) (sq_nonneg ((1) * b + (110 / 1007) * c + (-923 / 6042) * d))
  have s2 := mul_nonneg (show (0 : ℝ) ≤ (106297 / 151050) by norm_num) (sq_nonneg ((1) * c + (-30563 / 318891) * d))
  have s3 := mul_nonneg (show (0 : ℝ) ≤ (91259749 / 95667300) by norm_num) (sq_nonneg ((1) * d))
  linarith [s0, s1, s2, s3]

theorem drudeForm_le (v : ℝ × ℝ × ℝ × ℝ) : drudeForm v ≤ 200 * (v.1 ^ 2 + v.2.1 ^ 2 + v.2.2.1 ^ 2 + v.2.2.2 ^ 2) := by
  obtain ⟨a, b, c, d⟩ := v
  unfold drudeForm
  simp only
  nlinarith [sq_nonneg (a + b), sq_nonneg (a + c), sq_nonneg (a + d), sq_nonneg (b + c), sq_nonneg (b + d), sq_nonneg (c - d)]

theorem drude_iterates (n : ℕ) : 100 * (51 / 50 : ℝ) ^ n ≤ drudeForm (drudeMode^[n] (1, 0, 0, 0)) := by
  induction n with
  | zero => simp [drudeForm]
  | succ n ih =>
    rw [Function.iterate_succ_apply', pow_succ]
    have := drudeForm_grows (drudeMode^[n] (1, 0, 0, 0))
    linarith

/-- The fields of the wave are not bounded. -/
theorem drude_unbounded (B : ℝ) : ∃ n, B < (drudeMode^[n] (1, 0, 0, 0)).1 ^ 2 + (drudeMode^[n] (1, 0, 0, 0)).2.1 ^ 2 := by
  by_contra hcon
  push Not at hcon
  have hB : 0 ≤ B := le_trans (by positivity) (hcon 0)
  set K := B + 1 with hK
  have e1 : ∀ n, |(drudeMode^[n] (1, 0, 0, 0)).1| ≤ K := fun n => abs_le_of_sq_le_sq (by nlinarith [hcon n, sq_nonneg (drudeMode^[n] (1, 0, 0, 0)).2.1]) (by linarith)
  have h1 : ∀ n, |(drudeMode^[n] (1, 0, 0, 0)).2.1| ≤ K := fun n => abs_le_of_sq_le_sq (by nlinarith [hcon n, sq_nonneg (drudeMode^[n] (1, 0, 0, 0)).1]) (by linarith)
  have j0 : ∀ n, |(drudeMode^[n] (1, 0, 0, 0)).2.2.1| ≤ 5 * K := by
    intro n
    induction n with
    | zero => simp; linarith
    | succ n ih =>
      have a := abs_le.mp (e1 n)
      have b := abs_le.mp (h1 n)
      have c := abs_le.mp ih
      rw [Function.iterate_succ_apply']
      simp only [drudeMode]
      rw [abs_le]
      constructor <;> linarith [a.1, a.2, b.1, b.2, c.1, c.2]
  have j1 : ∀ n, |(drudeMode^[n] (1, 0, 0, 0)).2.2.2| ≤ 10 * K := by
    intro n
    have a := abs_le.mp (e1 n)
    have b := abs_le.mp (h1 n)
    have c := abs_le.mp (j0 n)
    have d := abs_le.mp (e1 (n + 1))
    rw [Function.iterate_succ_apply'] at d
    simp only [drudeMode] at d
    rw [abs_le]
    constructor <;> linarith [a.1, a.2, b.1, b.2, c.1, c.2, d.1, d.2]
  obtain ⟨n, hn⟩ := pow_unbounded_of_one_lt (1000 * K ^ 2) (show (1 : ℝ) < 51 / 50 by norm_num)
  have q1 := drude_iterates n
  have q2 := drudeForm_le (drudeMode^[n] (1, 0, 0, 0))
  have s1 := sq_le_sq' (abs_le.mp (e1 n)).1 (abs_le.mp (e1 n)).2
  have s2 := sq_le_sq' (abs_le.mp (h1 n)).1 (abs_le.mp (h1 n)).2
  have s3 := sq_le_sq' (abs_le.mp (j0 n)).1 (abs_le.mp (j0 n)).2
  have s4 := sq_le_sq' (abs_le.mp (j1 n)).1 (abs_le.mp (j1 n)).2
  nlinarith [sq_nonneg K]

/-- The same for a Lorentz medium: electric field, curl of the magnetic field, previous electric field, current and previous current. -/
noncomputable def lorentzMode (v : ℝ × ℝ × ℝ × ℝ × ℝ) : ℝ × ℝ × ℝ × ℝ × ℝ :=
  let e := 4 / 7 * v.1 + 2 / 7 * v.2.1 + 3 / 10 * v.2.2.1 - 1 / 7 * (2 * v.2.2.2.1 - v.2.2.2.2)
  (e, v.2.1 - e, v.1, v.2.2.2.1 - v.2.2.2.2 + 3 * (e - v.2.2.1), v.2.2.2.1)

noncomputable def lorentzForm (v : ℝ × ℝ × ℝ × ℝ × ℝ) : ℝ :=
  140 * v.1 ^ 2 + 7 * v.2.1 ^ 2 + 122 * v.2.2.1 ^ 2 + 41 * v.2.2.2.1 ^ 2 + 6 * v.2.2.2.2 ^ 2 + 2 * (7 * v.1 * v.2.1 - 200 * v.1 * v.2.2.1 + 11 * v.1 * v.2.2.2.1
    - 57 * v.1 * v.2.2.2.2 - 3 * v.2.1 * v.2.2.1 - 36 * v.2.1 * v.2.2.2.1 + 4 * v.2.1 * v.2.2.2.2 + 30 * v.2.2.1 * v.2.2.2.2 - 5 * v.2.2.2.1 * v.2.2.2.2)

theorem lorentzForm_grows (v : ℝ × ℝ × ℝ × ℝ × ℝ) : 27 / 25 * lorentzForm v ≤ lorentzForm (lorentzMode v) := by
  obtain ⟨a, b, c, d, f⟩ := v
  unfold lorentzForm lorentzMode
  simp only
  have s0 := mul_nonneg (show (0 : ℝ) ≤ (58 / 35) by norm_num) (sq_nonneg ((1) * a + (-49 / 145) * b + (-9 / 116) * c + (21 / 290) * d + (24 / 145) * f))
  have s1 := mul_nonneg (show (0 : ℝ) ≤ (38988 / 25375) by norm_num) (sq_nonneg ((1) * b + (4775 / 25992) * c + (16109 / 38988) * d + (-1442 / 9747) * f))
  have s2 := mul_nonneg (show (0 : ℝ) ≤ (30119 / 17328) by norm_num) (sq_nonneg ((1) * c + (-1810382 / 2258925) * d + (527504 / 2258925) * f))
  have s3 := mul_nonneg (show (0 : ℝ) ≤ (30463488 / 18824375) by norm_num) (sq_nonneg ((1) * d + (-1258987 / 10154496) * f))
  have s4 := mul_nonneg (show (0 : ℝ) ≤ (5923057 / 3384832) by norm_num) (sq_nonneg ((1) * f))
  linarith [s0, s1, s2, s3, s4]

theorem lorentzForm_le (v : ℝ × ℝ × ℝ × ℝ × ℝ) : lorentzForm v ≤ 500 * (v.1 ^ 2 + v.2.1 ^ 2 + v.2.2.1 ^ 2 + v.2.2.2.1 ^ 2 + v.2.2.2.2 ^ 2) := by
  obtain ⟨a, b, c, d, f⟩ := v
  unfold lorentzForm
  simp only
  nlinarith [sq_nonneg (a - b), sq_nonneg (a + c), sq_nonneg (a - d), sq_nonneg (a + f), sq_nonneg (b + c), sq_nonneg (b + d), sq_nonneg (b - f), sq_nonneg (c - f),
    sq_nonneg (d + f), sq_nonneg a, sq_nonneg b, sq_nonneg c, sq_nonneg d, sq_nonneg f]

theorem lorentz_iterates (n : ℕ) : 140 * (27 / 25 : ℝ) ^ n ≤ lorentzForm (lorentzMode^[n] (1, 0, 0, 0, 0)) := by
  induction n with
  | zero => simp [lorentzForm]
  | succ n ih =>
    rw [Function.iterate_succ_apply', pow_succ]
    have := lorentzForm_grows (lorentzMode^[n] (1, 0, 0, 0, 0))
    linarith

theorem lorentz_unbounded (B : ℝ) : ∃ n, B < (lorentzMode^[n] (1, 0, 0, 0, 0)).1 ^ 2 + (lorentzMode^[n] (1, 0, 0, 0, 0)).2.1 ^ 2 := by
  by_contra hcon
  push Not at hcon
  have hB : 0 ≤ B := le_trans (by positivity) (hcon 0)
  set K := B + 1 with hK
  have e1 : ∀ n, |(lorentzMode^[n] (1, 0, 0, 0, 0)).1| ≤ K := fun n => abs_le_of_sq_le_sq (by nlinarith [hcon n, sq_nonneg (lorentzMode^[n] (1, 0, 0, 0, 0)).2.1]) (by linarith)
  have h1 : ∀ n, |(lorentzMode^[n] (1, 0, 0, 0, 0)).2.1| ≤ K := fun n => abs_le_of_sq_le_sq (by nlinarith [hcon n, sq_nonneg (lorentzMode^[n] (1, 0, 0, 0, 0)).1]) (by linarith)
  have p1 : ∀ n, |(lorentzMode^[n] (1, 0, 0, 0, 0)).2.2.1| ≤ K := by
    intro n
    cases n with
    | zero => simp; linarith
    | succ n => rw [Function.iterate_succ_apply']; exact e1 n
  have j0 : ∀ n, |(lorentzMode^[n] (1, 0, 0, 0, 0)).2.2.2.1| ≤ 16 * K ∧ |(lorentzMode^[n] (1, 0, 0, 0, 0)).2.2.2.2| ≤ 16 * K := by
    intro n
    induction n with
    | zero => simp; linarith
    | succ n ih =>
      have a := abs_le.mp (e1 (n + 1))
      have b := abs_le.mp (h1 (n + 1))
      have p := abs_le.mp (p1 (n + 1))
      have d := abs_le.mp (e1 (n + 1 + 1))
      have q : (lorentzMode^[n + 1] (1, 0, 0, 0, 0)).2.2.2.2 = (lorentzMode^[n] (1, 0, 0, 0, 0)).2.2.2.1 := by rw [Function.iterate_succ_apply']; rfl
      have c := abs_le.mp ih.1
      rw [Function.iterate_succ_apply'] at d
      simp only [lorentzMode] at d
      rw [q] at d ⊢
      refine ⟨?_, ih.1⟩
      rw [abs_le]
      constructor <;> linarith [a.1, a.2, b.1, b.2, c.1, c.2, d.1, d.2, p.1, p.2]
  obtain ⟨n, hn⟩ := pow_unbounded_of_one_lt (2000 * K ^ 2) (show (1 : ℝ) < 27 / 25 by norm_num)
  have q1 := lorentz_iterates n
  have q2 := lorentzForm_le (lorentzMode^[n] (1, 0, 0, 0, 0))
  have s1 := sq_le_sq' (abs_le.mp (e1 n)).1 (abs_le.mp (e1 n)).2
  have s2 := sq_le_sq' (abs_le.mp (h1 n)).1 (abs_le.mp (h1 n)).2
  have s3 := sq_le_sq' (abs_le.mp (p1 n)).1 (abs_le.mp (p1 n)).2
  have s4 := sq_le_sq' (abs_le.mp (j0 n).1).1 (abs_le.mp (j0 n).1).2
  have s5 := sq_le_sq' (abs_le.mp (j0 n).2).1 (abs_le.mp (j0 n).2).2
  nlinarith [sq_nonneg K]

/-! ## The wave in the simulation -/

/-- Six by six nodes without absorbing layer. -/
noncomputable def gSix : Grid ℝ := Grid.make 6 6 1 (-1)

theorem gSix_Nx : gSix.Nx = 6 := by simp [gSix, Grid.make]
theorem gSix_Ny : gSix.Ny = 6 := by simp [gSix, Grid.make]
theorem gSix_T : gSix.T = 0 := by simp [gSix, Grid.make]
theorem gSix_dx : gSix.dx = 1 := by simp [gSix, Grid.make]
theorem gSix_dt : gSix.dt = 1 / 2 := by simp [gSix, Grid.make]
theorem gSix_Lx : gSix.Lx = 5 := by simp [gSix, Grid.make]
theorem gSix_lawful : Lawful gSix := lawful_make 6 6 1 (-1) one_pos
theorem gSix_wide : gSix.Wide := ⟨by rw [gSix_T, gSix_Nx]; norm_num, by rw [gSix_T, gSix_Ny]; norm_num⟩
theorem gSix_nodes : updatedNodes gSix = ⟨1, 4, 1, 4⟩ := by simp [updatedNodes, gSix_Nx, gSix_Ny]

/-- A quarter of a wave and its differences. -/
noncomputable def wa (i : ℤ) : ℝ := if i = 1 then 1 else if i = 3 then -1 else if i = 4 then -1 else 0
noncomputable def wb (i : ℤ) : ℝ := if i = 1 then -1 else if i = 2 then -1 else if i = 4 then 1 else 0

theorem wa_next {i : ℤ} (h : 1 ≤ i) (h' : i ≤ 4) : wa (i + 1) - wa i = wb i := by
  interval_cases i <;> norm_num [wa, wb]

theorem wb_back {i : ℤ} (h : 1 ≤ i) (h' : i ≤ 4) : wb i - wb (i - 1) = - wa i := by
  interval_cases i <;> norm_num [wa, wb]

/-- The standing wave of amplitudes `e` and `h`. -/
structure Standing (f : Flds ℝ) (e h : ℝ) : Prop where
  Ez : ∀ i j, 1 ≤ i → i ≤ 4 → 1 ≤ j → j ≤ 4 → f.Ez.val i j = e * (wa i * wa j)
  Hx : ∀ i j, 1 ≤ i → i ≤ 4 → 1 ≤ j → j ≤ 4 → f.Hx.val i j = h / 2 * (wa i * wb j)
  Hy : ∀ i j, 1 ≤ i → i ≤ 4 → 1 ≤ j → j ≤ 4 → f.Hy.val i j = - (h / 2) * (wb i * wa j)

theorem standing_curl {f : Flds ℝ} {e h : ℝ} (s : Standing f e h) (q : FrameQuiet f ⟨1, 4, 1, 4⟩) {i j : ℤ} (i0 : 1 ≤ i) (i1 : i ≤ 4) (j0 : 1 ≤ j) (j1 : j ≤ 4) :
    curlH f 1 i j = h * (wa i * wa j) := by
  have y : f.Hy.val (i - 1) j = - (h / 2) * (wb (i - 1) * wa j) := by
    by_cases hi : i = 1
    · subst hi
      have := q.left j
      simp only at this
      rw [this]
      norm_num [wb]
    · exact s.Hy _ _ (by omega) (by omega) j0 j1
  have x : f.Hx.val i (j - 1) = h / 2 * (wa i * wb (j - 1)) := by
    by_cases hj : j = 1
    · subst hj
      have := q.bottom i
      simp only at this
      rw [this]
      norm_num [wb]
    · exact s.Hx _ _ i0 i1 (by omega) (by omega)
  unfold curlH
  rw [s.Hx _ _ i0 i1 j0 j1, s.Hy _ _ i0 i1 j0 j1, x, y]
  have := wb_back i0 i1
  have := wb_back j0 j1
  linear_combination (- (h / 2) * wa j) * wb_back i0 i1 - h / 2 * wa i * wb_back j0 j1

theorem standing_step {c c' : Core ℝ} {E2 E3 E4 f} (hc : c.Std) (hg : c.g = gSix) (S : c.Step [] c' [] E2 E3 E4 f) (ht : c.tfsf = none) {e h e' : ℝ}
    (s : Standing c.f e h) (q' : FrameQuiet c'.f ⟨1, 4, 1, 4⟩) {k : MatKind ℝ}
    (hm : ∀ i j, 1 ≤ i → i ≤ 4 → 1 ≤ j → j ≤ 4 → HasMedium c.f k c.g.dt i j)
    (hE : ∀ i j, 1 ≤ i → i ≤ 4 → 1 ≤ j → j ≤ 4 → c'.f.Ez.val i j = e' * (wa i * wa j)) : Standing c'.f e' (h - e') := by
  have nodes : ∀ i j, 1 ≤ i → i ≤ 4 → 1 ≤ j → j ≤ 4 → Beyond c.g i j := by
    intro i j i0 i1 j0 j1
    rw [hg]
    constructor <;> simp only [gSix_T, gSix_Nx, gSix_Ny] <;> omega
  refine ⟨hE, fun i j i0 i1 j0 j1 => ?_, fun i j i0 i1 j0 j1 => ?_⟩
  · obtain ⟨x, -⟩ := magnetic_any hc S (nodes i j i0 i1 j0 j1) (by simp) ht (hm i j i0 i1 j0 j1)
    have up : c'.f.Ez.val i (j + 1) = e' * (wa i * wa (j + 1)) := by
      by_cases hj : j = 4
      · subst hj
        have := q'.top i
        simp only at this
        rw [this]
        norm_num [wa]
      · exact hE _ _ i0 i1 (by omega) (by omega)
    rw [x, up, hE i j i0 i1 j0 j1, s.Hx i j i0 i1 j0 j1, hg, gSix_dx, gSix_dt]
    linear_combination - (1 / 2) * e' * wa i * wa_next j0 j1
  · obtain ⟨-, y⟩ := magnetic_any hc S (nodes i j i0 i1 j0 j1) (by simp) ht (hm i j i0 i1 j0 j1)
    have up : c'.f.Ez.val (i + 1) j = e' * (wa (i + 1) * wa j) := by
      by_cases hi : i = 4
      · subst hi
        have := q'.right j
        simp only at this
        rw [this]
        norm_num [wa]
      · exact hE _ _ (by omega) (by omega) j0 j1
    rw [y, up, hE i j i0 i1 j0 j1, s.Hy i j i0 i1 j0 j1, hg, gSix_dx, gSix_dt]
    linear_combination (1 / 2) * e' * wa j * wa_next i0 i1

/-- The wave is seen in the size of the field. -/
theorem standing_size {f : Flds ℝ} {e h : ℝ} (s : Standing f e h) : (e ^ 2 + h ^ 2) / 4 ≤ size gSix f (updatedNodes gSix) := by
  unfold size
  rw [gSix_nodes, gSix_dx]
  have nn : ∀ i j, 0 ≤ f.Ez.val i j ^ 2 + f.Hx.val i j ^ 2 + f.Hy.val i j ^ 2 := fun i j => by positivity
  have one : f.Ez.val 1 1 ^ 2 + f.Hx.val 1 1 ^ 2 + f.Hy.val 1 1 ^ 2 ≤ Box.sum ⟨1, 4, 1, 4⟩ fun i j => f.Ez.val i j ^ 2 + f.Hx.val i j ^ 2 + f.Hy.val i j ^ 2 := by
    unfold Box.sum
    refine le_trans ?_ (Finset.single_le_sum (f := fun i => ∑ j ∈ Finset.Icc (1 : ℤ) 4, (f.Ez.val i j ^ 2 + f.Hx.val i j ^ 2 + f.Hy.val i j ^ 2))
      (fun i _ => Finset.sum_nonneg fun j _ => nn i j) (show (1 : ℤ) ∈ Finset.Icc 1 4 by simp))
    exact Finset.single_le_sum (f := fun j => f.Ez.val 1 j ^ 2 + f.Hx.val 1 j ^ 2 + f.Hy.val 1 j ^ 2) (fun j _ => nn 1 j) (show (1 : ℤ) ∈ Finset.Icc 1 4 by simp)
  rw [s.Ez 1 1 (by norm_num) (by norm_num) (by norm_num) (by norm_num), s.Hx 1 1 (by norm_num) (by norm_num) (by norm_num) (by norm_num),
    s.Hy 1 1 (by norm_num) (by norm_num) (by norm_num) (by norm_num)] at one
  norm_num [wa, wb] at one
  nlinarith [sq_nonneg e, sq_nonneg h]

/-! ## Drude medium of two poles -/

/-- Two equal poles without damping. -/
noncomputable def twins : Drude ℝ := ⟨1, [⟨2, 0⟩, ⟨2, 0⟩]⟩

theorem twins_Ca : twins.Ca (1 / 2) = 1 / 3 := by norm_num [twins, Drude.Ca, DrudePole.beta, sumL]
theorem twins_Cb : twins.Cb (1 / 2) = 1 / 3 := by norm_num [twins, Drude.Cb, DrudePole.beta, sumL]

/-- The state of the simulation while the wave stands in a Drude medium. -/
structure DrudeWave (c : Core ℝ) (v : ℝ × ℝ × ℝ × ℝ) : Prop where
  std : c.Std
  grid : c.g = gSix
  tfsf : c.tfsf = none
  lorentz : c.lorentz = []
  edge : EdgeStill c
  frame : FrameQuiet c.f ⟨1, 4, 1, 4⟩
  wave : Standing c.f v.1 v.2.1
  medium : ∃ n P a, P.mat = twins ∧ ∀ i j, 1 ≤ i → i ≤ 4 → 1 ≤ j → j ≤ 4 → InDrude c n P [] a i j ∧ P.J.val i j 0 = v.2.2.1 * (wa i * wa j) ∧
    P.J.val i j 1 = v.2.2.2 * (wa i * wa j)

theorem DrudeWave.step {c : Core ℝ} {v} (w : DrudeWave c v) : ∃ c', c.update [] = .ok (c', []) ∧ DrudeWave c' (drudeMode v) := by
  obtain ⟨c1, l1, E2, E3, E4, f, u, S⟩ := Core.update_step w.std [] (by simp)
  obtain rfl : l1 = [] := by have := S.same; cases this; rfl
  refine ⟨c1, u, ?_⟩
  obtain ⟨q1, s1, t1, lo⟩ := closed_still w.std (by rw [w.grid, gSix_T]) S w.tfsf w.lorentz w.edge (by rw [w.grid, gSix_nodes]; exact w.frame)
  rw [S.g, w.grid, gSix_nodes] at q1
  obtain ⟨n, P, a, hm, node⟩ := w.medium
  have nodes : ∀ i j, 1 ≤ i → i ≤ 4 → 1 ≤ j → j ≤ 4 → Beyond c.g i j := by
    intro i j i0 i1 j0 j1
    rw [w.grid]
    constructor <;> simp only [gSix_T, gSix_Nx, gSix_Ny] <;> omega
  have un : ∀ i j, Undriven c [] i j := fun i j => ⟨by simp, by rw [w.tfsf]; simp⟩
  have dt : c.g.dt = 1 / 2 := by rw [w.grid, gSix_dt]
  have dx : c.g.dx = 1 := by rw [w.grid, gSix_dx]
  have bt : ∀ i j, 1 ≤ i → i ≤ 4 → 1 ≤ j → j ≤ 4 → P.beta.val i j 0 = 1 ∧ P.beta.val i j 1 = 1 := by
    intro i j i0 i1 j0 j1
    have h0 := (node i j i0 i1 j0 j1).1.strength 0 (by rw [hm]; simp [twins])
    have h1 := (node i j i0 i1 j0 j1).1.strength 1 (by rw [hm]; simp [twins])
    simp only [hm, dt] at h0 h1
    constructor
    · rw [show ((0 : ℤ)) = ((0 : ℕ) : ℤ) from rfl, h0]; norm_num [twins, DrudePole.beta]
    · rw [show ((1 : ℤ)) = ((1 : ℕ) : ℤ) from rfl, h1]; norm_num [twins, DrudePole.beta]
  have key : ∀ i j, 1 ≤ i → i ≤ 4 → 1 ≤ j → j ≤ 4 → ∃ P' a', InDrude c1 n P' [] a' i j ∧ P'.mat = twins ∧ c1.f.Ez.val i j = (drudeMode v).1 * (wa i * wa j) ∧
      P'.J.val i j 0 = (drudeMode v).2.2.1 * (wa i * wa j) ∧ P'.J.val i j 1 = (drudeMode v).2.2.2 * (wa i * wa j) := by
    intro i j i0 i1 j0 j1
    obtain ⟨hin, J0, J1⟩ := node i j i0 i1 j0 j1
    obtain ⟨P', b', a', k1, k2, k3, k4, k5⟩ := S.inDrude w.std (nodes i j i0 i1 j0 j1) (un i j) hin
    obtain rfl : b' = [] := List.length_eq_zero_iff.mp k2
    have hl : P.mat.poles.length = 2 := by rw [hm]; rfl
    have k50 := k5 0 (by omega)
    have k51 := k5 1 (by omega)
    rw [hl] at k4
    have kap : ∀ N : ℕ, N < 2 → (Arr.ofList (P.mat.poles.map (·.kappa c.g.dt))).val N = 1 := by
      intro N hN
      rw [hm, dt]
      interval_cases N <;> norm_num [twins, DrudePole.kappa, Arr.ofList]
    have kap0 := kap 0 (by norm_num)
    have kap1 := kap 1 (by norm_num)
    simp only [Nat.cast_zero, Nat.cast_one] at kap0 kap1
    simp only [Finset.sum_range_succ, Finset.sum_range_zero, zero_add, Nat.cast_zero, Nat.cast_one, kap0, kap1] at k4 k50 k51
    simp only [J0, J1,
      (bt i j i0 i1 j0 j1).1, (bt i j i0 i1 j0 j1).2, w.wave.Ez i j i0 i1 j0 j1, dx, standing_curl w.wave w.frame i0 i1 j0 j1, hm, dt, twins_Ca, twins_Cb] at k4 k50 k51
    refine ⟨P', a', k1, k3.trans hm, ?_, ?_, ?_⟩
    · rw [k4]; simp only [drudeMode]; ring
    · rw [k50]; simp only [drudeMode]; ring
    · rw [k51]; simp only [drudeMode]; ring
  have one : (1 : ℤ) ≤ 1 ∧ (1 : ℤ) ≤ 4 := by norm_num
  obtain ⟨P', a', r1, r2, -⟩ := key 1 1 one.1 one.2 one.1 one.2
  refine ⟨S.std, by rw [S.g, w.grid], t1, lo, s1, q1, ?_, n, P', a', r2, fun i j i0 i1 j0 j1 => ?_⟩
  · exact standing_step w.std w.grid S w.tfsf w.wave q1 (fun i j i0 i1 j0 j1 => (node i j i0 i1 j0 j1).1.medium)
      fun i j i0 i1 j0 j1 => by obtain ⟨_, _, -, -, h, -⟩ := key i j i0 i1 j0 j1; exact h
  · obtain ⟨P2, a2, x1, x2, -, x3, x4⟩ := key i j i0 i1 j0 j1
    have e := r1.entry
    rw [x1.entry] at e
    obtain ⟨e1, rfl⟩ := List.cons.inj e
    obtain ⟨-, rfl⟩ := Prod.mk.inj e1
    exact ⟨x1, x3, x4⟩

theorem DrudeWave.run {c : Core ℝ} {v} (w : DrudeWave c v) (n : ℕ) : ∃ c', c.run n [] = .ok (c', []) ∧ DrudeWave c' (drudeMode^[n] v) := by
  induction n generalizing c v with
  | zero => exact ⟨c, rfl, w⟩
  | succ n ih =>
    obtain ⟨c1, u, w1⟩ := w.step
    obtain ⟨c2, r, w2⟩ := ih w1
    exact ⟨c2, by unfold Core.run; rw [u]; exact r, w2⟩

/-! ## Lorentz medium -/

/-- Where there is neither field nor current, now and before, and outside the grid, a Lorentz medium changes nothing. -/
theorem lorentz_still {g : Grid ℝ} {pE : Tensor ℝ} (hp : pE.Dim g.Nx g.Ny) {i j : ℤ} {l l' : List (String × LorentzPol ℝ)} {E E' : Tensor ℝ}
    (hw : ∀ q ∈ l, q.2.WF g.Nx g.Ny) (hE : E.Dim g.Nx g.Ny) (z : E.val i j = 0) (zp : pE.val i j = 0)
    (hq : 0 ≤ i → i < g.Nx → 0 ≤ j → j < g.Ny → ∀ q ∈ l, ∀ N, 0 ≤ N → N < q.2.np → q.2.J.val i j N = 0 ∧ q.2.prevJ.val i j N = 0)
    (h : mapUpdateJ (fun P Ez => P.updateJ g (some pE) Ez) l E = .ok (l', E')) :
    E'.val i j = 0 ∧ (0 ≤ i → i < g.Nx → 0 ≤ j → j < g.Ny → ∀ q ∈ l', ∀ N, 0 ≤ N → N < q.2.np → q.2.J.val i j N = 0 ∧ q.2.prevJ.val i j N = 0) := by
  obtain ⟨a, b, d⟩ := mapUpdateJ_node _
    (fun P : LorentzPol ℝ => P.WF g.Nx g.Ny ∧ (0 ≤ i → i < g.Nx → 0 ≤ j → j < g.Ny → ∀ N, 0 ≤ N → N < P.np → P.J.val i j N = 0 ∧ P.prevJ.val i j N = 0))
    (fun E => E.Dim g.Nx g.Ny ∧ E.val i j = 0) i j (by
      rintro P E ⟨w, q⟩ ⟨d, z⟩ P' E' hu
      by_cases hin : (0 ≤ i ∧ i < g.Nx) ∧ 0 ≤ j ∧ j < g.Ny
      · obtain ⟨⟨i0, i1⟩, j0, j1⟩ := hin
        obtain ⟨P2, E2, u, w2, d2, m2, n2, b2, v⟩ := LorentzPol.updateJ_node w hp d
        rw [hu] at u
        obtain ⟨rfl, rfl⟩ := Prod.mk.inj (Except.ok.inj u)
        obtain ⟨v1, v2⟩ := v i j i0 i1 j0 j1
        have hz : ∀ n : ℕ, n ≤ P.np.toNat → ∑ M ∈ Finset.range n, ((1 + (Arr.ofList (P.mat.poles.map (·.alpha g.dt))).val M) * P.J.val i j M
            + (Arr.ofList (P.mat.poles.map (·.beta g.dt))).val M * P.prevJ.val i j M) = 0 := by
          intro n hn
          refine Finset.sum_eq_zero fun M hM => ?_
          rw [Finset.mem_range] at hM
          obtain ⟨q1, q2⟩ := q i0 i1 j0 j1 M (by positivity) (by omega)
          rw [q1, q2, mul_zero, mul_zero, add_zero]
        have e : E'.val i j = E.val i j := by rw [v1, hz _ le_rfl, zp]; ring
        refine ⟨⟨w2, fun _ _ _ _ N h0 h1 => ?_⟩, ⟨d2, by rw [e, z]⟩, e⟩
        rw [n2] at h1
        obtain ⟨k, rfl⟩ := Int.eq_ofNat_of_zero_le h0
        have hk : k < P.np.toNat := by omega
        obtain ⟨x1, x2⟩ := v2 k hk
        obtain ⟨q1, q2⟩ := q i0 i1 j0 j1 k h0 h1
        rw [q1, q2, hz _ hk, z, zp] at x2
        exact ⟨by rw [x2]; ring, by rw [x1, q1]⟩
      · have hcl := LorentzPol.updateJ_closed w hp d
        obtain ⟨P2, E2, u, w2, d2⟩ := LorentzPol.updateJ_ok w hp d
        rw [hu] at hcl u
        obtain ⟨rfl, rfl⟩ := Prod.mk.inj (Except.ok.inj u)
        obtain ⟨-, e2⟩ := Prod.mk.inj (Except.ok.inj hcl)
        have e : E'.val i j = E.val i j := by
          rw [e2]
          simp only [Tensor.setv_val]
          rw [if_neg (by rw [mem_rect]; exact hin)]
        exact ⟨⟨w2, fun i0 i1 j0 j1 => absurd ⟨⟨i0, i1⟩, j0, j1⟩ hin⟩, ⟨d2, by rw [e, z]⟩, e⟩)
    l E (fun q h => ⟨hw q h, fun i0 i1 j0 j1 => hq i0 i1 j0 j1 q h⟩) ⟨hE, z⟩ l' E' h
  exact ⟨b.2, fun i0 i1 j0 j1 q hq => (a q hq).2 i0 i1 j0 j1⟩

/-- One pole without damping. -/
noncomputable def stiff : Lorentz ℝ := ⟨1, [⟨2, 3, 0⟩]⟩

theorem stiff_Ca : stiff.Ca (1 / 2) = 4 / 7 := by norm_num [stiff, Lorentz.Ca, LorentzPole.delta, sumL]
theorem stiff_Cb : stiff.Cb (1 / 2) = 2 / 7 := by norm_num [stiff, Lorentz.Cb, LorentzPole.delta, sumL]
theorem stiff_CaPrev : stiff.CaPrev (1 / 2) = 3 / 10 := by norm_num [stiff, Lorentz.CaPrev, LorentzPole.delta, sumL]

/-- The state of the simulation while the wave stands in a Lorentz medium. -/
structure LorentzWave (c : Core ℝ) (v : ℝ × ℝ × ℝ × ℝ × ℝ) : Prop where
  std : c.Std
  grid : c.g = gSix
  tfsf : c.tfsf = none
  debye : c.debye = []
  drude : c.drude = []
  frame : FrameQuiet c.f ⟨1, 4, 1, 4⟩
  wave : Standing c.f v.1 v.2.1
  medium : ∃ n P pE, P.mat = stiff ∧ c.prevE = some pE ∧ (∀ x y, x = 5 ∨ y = 5 → pE.val x y = 0) ∧
    (∀ i j, 0 ≤ i → i < 6 → 0 ≤ j → j < 6 → i = 5 ∨ j = 5 → ∀ N, 0 ≤ N → N < P.np → P.J.val i j N = 0 ∧ P.prevJ.val i j N = 0) ∧
    ∀ i j, 1 ≤ i → i ≤ 4 → 1 ≤ j → j ≤ 4 → InLorentz c n P i j ∧ pE.val i j = v.2.2.1 * (wa i * wa j) ∧ P.J.val i j 0 = v.2.2.2.1 * (wa i * wa j) ∧
      P.prevJ.val i j 0 = v.2.2.2.2 * (wa i * wa j)

theorem LorentzWave.step {c : Core ℝ} {v} (w : LorentzWave c v) : ∃ c', c.update [] = .ok (c', []) ∧ LorentzWave c' (lorentzMode v) := by
  obtain ⟨c1, l1, E2, E3, E4, f, u, S⟩ := Core.update_step w.std [] (by simp)
  obtain rfl : l1 = [] := by have := S.same; cases this; rfl
  refine ⟨c1, u, ?_⟩
  obtain ⟨n, P, pE, hm, hpE, hpz, hJz, node⟩ := w.medium
  have nx : c.g.Nx = 6 := by rw [w.grid, gSix_Nx]
  have ny : c.g.Ny = 6 := by rw [w.grid, gSix_Ny]
  have one : (1 : ℤ) ≤ 1 ∧ (1 : ℤ) ≤ 4 := by norm_num
  have ent : c.lorentz = [(n, P)] := (node 1 1 one.1 one.2 one.1 one.2).1.entry
  have hl := S.hl
  rw [hpE] at hl
  have edge : ∀ x y, x = c.g.Nx - 1 ∨ y = c.g.Ny - 1 → E3.val x y = 0 → E4.val x y = 0 ∧
      (0 ≤ x → x < c.g.Nx → 0 ≤ y → y < c.g.Ny → ∀ q ∈ c1.lorentz, ∀ N, 0 ≤ N → N < q.2.np → q.2.J.val x y N = 0 ∧ q.2.prevJ.val x y N = 0) := by
    intro x y h z
    have h' : x = 5 ∨ y = 5 := by omega
    refine lorentz_still (w.std.wf.prevE pE hpE) w.std.wf.lorentz S.d3 z (hpz x y h') (fun x0 x1 y0 y1 q hq => ?_) hl
    rw [ent, List.mem_singleton] at hq
    subst hq
    exact hJz x y x0 (by omega) y0 (by omega) h'
  have st : EdgeStill c := ⟨by rw [w.debye]; simp, by rw [w.drude]; simp⟩
  obtain ⟨q1, s1, t1⟩ := closed_frame w.std (by rw [w.grid, gSix_T]) S w.tfsf (fun x y h z => (edge x y h z).1) st (by rw [w.grid, gSix_nodes]; exact w.frame)
  rw [S.g, w.grid, gSix_nodes] at q1
  have hd := S.hd
  rw [w.debye] at hd
  have hr := S.hr
  rw [w.drude] at hr
  have d1 : c1.debye = [] := (Prod.mk.inj (Except.ok.inj hd)).1.symm
  have d2 : c1.drude = [] := (Prod.mk.inj (Except.ok.inj hr)).1.symm
  have nodes : ∀ i j, 1 ≤ i → i ≤ 4 → 1 ≤ j → j ≤ 4 → Beyond c.g i j := by
    intro i j i0 i1 j0 j1
    rw [w.grid]
    constructor <;> simp only [gSix_T, gSix_Nx, gSix_Ny] <;> omega
  have un : ∀ i j, Undriven c [] i j := fun i j => ⟨by simp, by rw [w.tfsf]; simp⟩
  have dt : c.g.dt = 1 / 2 := by rw [w.grid, gSix_dt]
  have dx : c.g.dx = 1 := by rw [w.grid, gSix_dx]
  have bt : ∀ i j, 1 ≤ i → i ≤ 4 → 1 ≤ j → j ≤ 4 → P.delta.val i j 0 = 3 := by
    intro i j i0 i1 j0 j1
    have h0 := (node i j i0 i1 j0 j1).1.strength 0 (by rw [hm]; simp [stiff])
    simp only [hm, dt] at h0
    rw [show ((0 : ℤ)) = ((0 : ℕ) : ℤ) from rfl, h0]; norm_num [stiff, LorentzPole.delta]
  have al : (Arr.ofList (P.mat.poles.map (·.alpha c.g.dt))).val 0 = 1 := by
    rw [hm, dt]
    norm_num [stiff, LorentzPole.alpha, Arr.ofList]
  have be : (Arr.ofList (P.mat.poles.map (·.beta c.g.dt))).val 0 = -1 := by
    rw [hm, dt]
    norm_num [stiff, LorentzPole.beta, Arr.ofList]
  have key : ∀ i j, 1 ≤ i → i ≤ 4 → 1 ≤ j → j ≤ 4 → ∃ P', InLorentz c1 n P' i j ∧ P'.mat = stiff ∧ c1.prevE = some c.f.Ez ∧
      c1.f.Ez.val i j = (lorentzMode v).1 * (wa i * wa j) ∧
      P'.J.val i j 0 = (lorentzMode v).2.2.2.1 * (wa i * wa j) ∧ P'.prevJ.val i j 0 = (lorentzMode v).2.2.2.2 * (wa i * wa j) := by
    intro i j i0 i1 j0 j1
    obtain ⟨hin, p0, J0, J1⟩ := node i j i0 i1 j0 j1
    obtain ⟨P', k1, k2, k3, k4, k5⟩ := S.inLorentz w.std (nodes i j i0 i1 j0 j1) (un i j) hpE hin
    have hlen : P.mat.poles.length = 1 := by rw [hm]; rfl
    obtain ⟨k50, k51⟩ := k5 0 (by omega)
    rw [hlen] at k4
    simp only [Finset.sum_range_succ, Finset.sum_range_zero, zero_add, Nat.cast_zero, Nat.cast_one, al, be] at k4 k50 k51
    simp only [J0, J1, p0, bt i j i0 i1 j0 j1, w.wave.Ez i j i0 i1 j0 j1, dx, standing_curl w.wave w.frame i0 i1 j0 j1, hm, dt, stiff_Ca, stiff_Cb, stiff_CaPrev] at k4 k50 k51
    refine ⟨P', k1, k2.trans hm, k3, ?_, ?_, ?_⟩
    · rw [k4]; simp only [lorentzMode]; ring
    · rw [k51]; simp only [lorentzMode]; ring
    · rw [k50]; simp only [lorentzMode]
  obtain ⟨P', r1, r2, r3, -⟩ := key 1 1 one.1 one.2 one.1 one.2
  refine ⟨S.std, by rw [S.g, w.grid], t1, d1, d2, q1, ?_, n, P', c.f.Ez, r2, r3, ?_, ?_, fun i j i0 i1 j0 j1 => ?_⟩
  · exact standing_step w.std w.grid S w.tfsf w.wave q1 (fun i j i0 i1 j0 j1 => (node i j i0 i1 j0 j1).1.medium)
      fun i j i0 i1 j0 j1 => by obtain ⟨_, -, -, -, h, -⟩ := key i j i0 i1 j0 j1; exact h
  · rintro x y (rfl | rfl)
    · exact w.frame.right y
    · exact w.frame.top x
  · intro i j i0 i1 j0 j1 h N
    have z3 : E3.val i j = 0 := by
      have z : c.f.Ez.val i j = 0 := by
        rcases h with rfl | rfl
        · exact w.frame.right j
        · exact w.frame.top i
      have e2 : E2 = c.E1 := (Prod.mk.inj (Except.ok.inj hd)).2.symm
      have e3 : E3 = E2 := (Prod.mk.inj (Except.ok.inj hr)).2.symm
      have nx' : c.pml.Nx = c.g.Nx := w.std.wf.pml.nx
      have ny' : c.pml.Ny = c.g.Ny := w.std.wf.pml.ny
      have nt' : c.pml.par.T = 0 := by rw [w.std.wf.pml.thk, w.grid, gSix_T]
      rw [e3, e2]
      unfold Core.E1
      simp only [Tensor.setv_val, Tensor.upd, Pml.corrE, nx', ny', nt']
      rw [if_neg (by rw [mem_rect]; simp only; omega), if_neg (by rw [mem_rect]; simp only; omega), if_neg (by rw [mem_rect]; simp only; omega),
        if_neg (by rw [mem_rect]; simp only; omega), if_neg (by rw [mem_rect]; simp only; omega), z]
      ring
    exact (edge i j (by omega) z3).2 i0 (by omega) j0 (by omega) (n, P') (by rw [r1.entry]; simp) N
  · obtain ⟨P2, x1, x2, -, -, x3, x4⟩ := key i j i0 i1 j0 j1
    have e := r1.entry
    rw [x1.entry] at e
    obtain ⟨e1, -⟩ := List.cons.inj e
    obtain ⟨-, rfl⟩ := Prod.mk.inj e1
    exact ⟨x1, by rw [w.wave.Ez i j i0 i1 j0 j1]; rfl, x3, x4⟩

theorem LorentzWave.run {c : Core ℝ} {v} (w : LorentzWave c v) (n : ℕ) : ∃ c', c.run n [] = .ok (c', []) ∧ LorentzWave c' (lorentzMode^[n] v) := by
  induction n generalizing c v with
  | zero => exact ⟨c, rfl, w⟩
  | succ n ih =>
    obtain ⟨c1, u, w1⟩ := w.step
    obtain ⟨c2, r, w2⟩ := ih w1
    exact ⟨c2, by unfold Core.run; rw [u]; exact r, w2⟩

end Qbox.Props
