import Verif.Lemmas.Rounded
import Verif.Lemmas.Plain

/-! # One step with rounding -/

namespace Qbox
open Scalar Spec Props

/-- The values of rounded fields, as real numbers. -/
noncomputable def realF {A : Arith} (f : Flds (Rnd A)) (d : Flds ℝ) : Flds ℝ :=
  { d with
    Ez := d.Ez.setv fun i j => (f.Ez.val i j).val
    Hx := d.Hx.setv fun i j => (f.Hx.val i j).val
    Hy := d.Hy.setv fun i j => (f.Hy.val i j).val }

theorem sum_back_x {R : Box} (h1 : R.l ≤ R.r + 1) {F : ℤ → ℤ → ℝ} (h0 : ∀ i j, 0 ≤ F i j) (hz : ∀ j, F (R.l - 1) j = 0) :
    R.sum (fun i j => F (i - 1) j) ≤ R.sum F := by
  have h := R.sum_x h1 (fun i j => F (i - 1) j)
  beta_reduce at h
  rw [Box.sum_sub] at h
  simp only [add_sub_cancel_right] at h
  have : 0 ≤ ∑ j ∈ Finset.Icc R.b R.t, (F R.r j - F (R.l - 1) j) := by
    refine Finset.sum_nonneg fun j _ => ?_
    rw [hz]
    linarith [h0 R.r j]
  linarith

theorem sum_back_y {R : Box} (h2 : R.b ≤ R.t + 1) {F : ℤ → ℤ → ℝ} (h0 : ∀ i j, 0 ≤ F i j) (hz : ∀ i, F i (R.b - 1) = 0) :
    R.sum (fun i j => F i (j - 1)) ≤ R.sum F := by
  have h := R.sum_y h2 (fun i j => F i (j - 1))
  beta_reduce at h
  rw [Box.sum_sub] at h
  simp only [add_sub_cancel_right] at h
  have : 0 ≤ ∑ i ∈ Finset.Icc R.l R.r, (F i R.t - F i (R.b - 1)) := by
    refine Finset.sum_nonneg fun i _ => ?_
    rw [hz]
    linarith [h0 i R.t]
  linarith

/-- One step up to errors: `kE`, `kX` and `kY` are added to the new values. -/
structure RoundOff (g : Grid ℝ) (med : ℤ → ℤ → Simple ℝ) (R : Box) (s s' : Flds ℝ) (kE kX kY : ℤ → ℤ → ℝ) : Prop where
  ampere : ∀ i j, R.Mem i j → ConductiveLaw (med i j) g.dt (s.Ez.val i j) (s'.Ez.val i j - kE i j) (curlH s g.dx i j)
  faradayX : ∀ i j, R.Mem i j → s'.Hx.val i j = s.Hx.val i j - g.dt * ((s'.Ez.val i (j + 1) - s'.Ez.val i j) / g.dx) + kX i j
  faradayY : ∀ i j, R.Mem i j → s'.Hy.val i j = s.Hy.val i j + g.dt * ((s'.Ez.val (i + 1) j - s'.Ez.val i j) / g.dx) + kY i j
  out : ∀ i j, ¬ R.Mem i j → kE i j = 0

/-- One step of two fields, one of which obeys the laws and the other one up to errors: how much their distance grows. -/
theorem kick_step {g : Grid ℝ} (hg : Lawful g) {med : ℤ → ℤ → Simple ℝ} {R : Box} (h1 : R.l ≤ R.r + 1) (h2 : R.b ≤ R.t + 1) {epsMax : ℝ}
    (he : ∀ i j, R.Mem i j → 1 ≤ (med i j).eps ∧ (med i j).eps ≤ epsMax) (hs : ∀ i j, R.Mem i j → 0 ≤ (med i j).conduc) {f f' s s' d d' : Flds ℝ}
    {pE pX pY : ℤ → ℤ → ℝ} {D : ℝ} (lf : Laws g med R f f' (fun _ _ => 0) (fun _ _ => 0) (fun _ _ => 0)) (ls : RoundOff g med R s s' pE pX pY)
    (h0 : 1 ≤ epsMax) (hD : 0 ≤ D) (bd : g.dx ^ 2 * R.sum (fun i j => pE i j ^ 2 + pX i j ^ 2 + pY i j ^ 2) ≤ D ^ 2)
    (m : Mix 1 (-1) f s d) (m' : Mix 1 (-1) f' s' d') (q : FrameQuiet d R) (q' : FrameQuiet d' R) :
    Real.sqrt (energy g med d' R) ≤ Real.sqrt (energy g med d R) + Real.sqrt ((epsMax + 1) / 2) * D := by
  have hx := hg.dx
  have hdt : 0 < g.dt := by rw [hg.dt]; linarith
  set kE : ℤ → ℤ → ℝ := fun i j => - pE i j with hk
  set kX : ℤ → ℤ → ℝ := fun i j => - pX i j
  set kY : ℤ → ℤ → ℝ := fun i j => - pY i j
  obtain ⟨u, mu⟩ := mix_exists 1 (-1) d' (kick R kE kX kY f)
  have kz : ∀ i j, ¬ R.Mem i j → kE i j = 0 := fun i j h => by simp only [hk]; rw [ls.out i j h, neg_zero]
  have back : Mix 1 1 u (kick R kE kX kY f) d' := ⟨fun i j => by rw [mu.Ez]; ring, fun i j => by rw [mu.Hx]; ring, fun i j => by rw [mu.Hy]; ring⟩
  have kq : FrameQuiet (kick R kE kX kY f) R := kick_quiet kz f
  have qu : FrameQuiet u R := mu.quiet q' kq
  have e : energy g med u R ≤ energy g med d R := by
    have law : ∀ i j, R.Mem i j →
        ConductiveLaw (med i j) g.dt (d.Ez.val i j) (u.Ez.val i j) (curlH d g.dx i j) ∧
        u.Hx.val i j = d.Hx.val i j - g.dt * ((u.Ez.val i (j + 1) - u.Ez.val i j) / g.dx) ∧
        u.Hy.val i j = d.Hy.val i j + g.dt * ((u.Ez.val (i + 1) j - u.Ez.val i j) / g.dx) := by
      intro i j h
      have half : ∀ z : ℝ, g.dt * (z / g.dx) = z / 2 := fun z => by rw [hg.dt]; field_simp
      have w1 : ∀ i j, (kick R kE kX kY f).Ez.val i j = - pE i j := fun _ _ => rfl
      refine ⟨?_, ?_, ?_⟩
      · have a1 := lf.ampere i j h
        have a2 := ls.ampere i j h
        unfold ConductiveLaw curlH at a1 a2 ⊢
        rw [mu.Ez, m.Ez, m'.Ez, w1]
        simp only [m.Hx, m.Hy]
        have t1 : (med i j).eps * ((1 * (1 * f'.Ez.val i j + -1 * s'.Ez.val i j) + -1 * - pE i j) - (1 * f.Ez.val i j + -1 * s.Ez.val i j)) / g.dt +
            (med i j).conduc * ((1 * (1 * f'.Ez.val i j + -1 * s'.Ez.val i j) + -1 * - pE i j) + (1 * f.Ez.val i j + -1 * s.Ez.val i j)) / 2 =
            ((med i j).eps * (f'.Ez.val i j - f.Ez.val i j) / g.dt + (med i j).conduc * (f'.Ez.val i j + f.Ez.val i j) / 2) -
            ((med i j).eps * ((s'.Ez.val i j - pE i j) - s.Ez.val i j) / g.dt + (med i j).conduc * ((s'.Ez.val i j - pE i j) + s.Ez.val i j) / 2) := by ring
        rw [t1, a1, a2]
        ring
      · have a1 := lf.faradayX i j h
        have a2 := ls.faradayX i j h
        rw [mu.Hx, m.Hx, m'.Hx, a1, a2]
        simp only [mu.Ez, m'.Ez, half]
        have w : (kick R kE kX kY f).Hx.val i j = kX i j - (kE i (j + 1) - kE i j) / 2 := if_pos h
        rw [w, w1, w1]
        simp only [kX, kE]
        ring
      · have a1 := lf.faradayY i j h
        have a2 := ls.faradayY i j h
        rw [mu.Hy, m.Hy, m'.Hy, a1, a2]
        simp only [mu.Ez, m'.Ez, half]
        have w : (kick R kE kX kY f).Hy.val i j = kY i j + (kE (i + 1) j - kE i j) / 2 := if_pos h
        rw [w, w1, w1]
        simp only [kY, kE]
        ring
    have b := balance_of_laws hx hdt h1 h2 law
    rw [outflow_quiet q qu, add_zero] at b
    have : 0 ≤ heat g med d u R := mul_nonneg (sq_nonneg _) (R.sum_nonneg fun i j h => mul_nonneg (hs i j h) (sq_nonneg _))
    have := mul_nonneg hdt.le this
    linarith
  have t := energy_triangle hg h1 h2 (fun i j h => (he i j h).1) back qu kq
  have ke := kick_energy hg h1 h2 (kE := kE) (kX := kX) (kY := kY) kz (A := D) hD (by simpa only [kE, kX, kY, neg_sq] using bd) f he h0
  have := Real.sqrt_le_sqrt e
  linarith

/-- The number of nodes of a rectangle, multiplied by the area of a cell. -/
noncomputable def area (g : Grid ℝ) (R : Box) : ℝ := g.dx ^ 2 * R.sum fun _ _ => 1

theorem area_nonneg (g : Grid ℝ) (R : Box) : 0 ≤ area g R := mul_nonneg (sq_nonneg _) (R.sum_nonneg fun _ _ _ => zero_le_one)

theorem sum_const (R : Box) (z : ℝ) : R.sum (fun _ _ => z) = z * R.sum fun _ _ => 1 := by
  rw [← Box.sum_mul]; simp

theorem sq2 {x a b c d : ℝ} (a0 : 0 ≤ c * a) (h : |x| ≤ c * a + b) (hb : 0 ≤ b) (hd : b ≤ d) : x ^ 2 ≤ 2 * c ^ 2 * a ^ 2 + 2 * d ^ 2 := by
  have h1 : x ^ 2 ≤ (c * a + b) ^ 2 := by
    rw [← sq_abs]; exact pow_le_pow_left₀ (abs_nonneg _) h 2
  have h2 : b ^ 2 ≤ d ^ 2 := pow_le_pow_left₀ hb hd 2
  nlinarith [sq_nonneg (c * a - b)]

theorem sq3 (a b c : ℝ) : (a + b + c) ^ 2 ≤ 3 * (a ^ 2 + b ^ 2 + c ^ 2) := by
  nlinarith [sq_nonneg (a - b), sq_nonneg (a - c), sq_nonneg (b - c)]

theorem sq5 (a b c d e : ℝ) : (a + (b + c + d + e)) ^ 2 ≤ 5 * (a ^ 2 + b ^ 2 + c ^ 2 + d ^ 2 + e ^ 2) := by
  nlinarith [sq_nonneg (a - b), sq_nonneg (a - c), sq_nonneg (a - d), sq_nonneg (a - e), sq_nonneg (b - c), sq_nonneg (b - d), sq_nonneg (b - e), sq_nonneg (c - d),
    sq_nonneg (c - e), sq_nonneg (d - e)]

/-- Sum of the magnitudes of the values that enter a node. -/
noncomputable def mag (R : Box) (s : Flds ℝ) (i j : ℤ) : ℝ :=
  open Classical in if R.Mem i j then |s.Ez.val i j| + (|s.Hy.val i j| + |s.Hy.val (i - 1) j| + |s.Hx.val i (j - 1)| + |s.Hx.val i j|) else 0

theorem mag_nonneg (R : Box) (s : Flds ℝ) (i j : ℤ) : 0 ≤ mag R s i j := by
  unfold mag; split <;> positivity

theorem mag_sum {R : Box} (h1 : R.l ≤ R.r + 1) (h2 : R.b ≤ R.t + 1) {s : Flds ℝ} (q : FrameQuiet s R) :
    R.sum (fun i j => mag R s i j ^ 2) ≤ 10 * R.sum fun i j => s.Ez.val i j ^ 2 + s.Hx.val i j ^ 2 + s.Hy.val i j ^ 2 := by
  have b1 := sum_back_x h1 (F := fun i j => s.Hy.val i j ^ 2) (fun _ _ => sq_nonneg _) (fun j => by rw [q.left]; norm_num)
  have b2 := sum_back_y h2 (F := fun i j => s.Hx.val i j ^ 2) (fun _ _ => sq_nonneg _) (fun i => by rw [q.bottom]; norm_num)
  have e : R.sum (fun i j => mag R s i j ^ 2) ≤
      R.sum fun i j => 5 * ((((s.Ez.val i j ^ 2 + s.Hy.val i j ^ 2) + s.Hy.val (i - 1) j ^ 2) + s.Hx.val i (j - 1) ^ 2) + s.Hx.val i j ^ 2) := by
    refine R.sum_le fun i j h => ?_
    unfold mag
    rw [if_pos h]
    refine (sq5 ..).trans (le_of_eq ?_)
    simp only [sq_abs]
  have z := R.sum_nonneg (F := fun i j => s.Ez.val i j ^ 2) fun _ _ _ => sq_nonneg _
  rw [Box.sum_mul, Box.sum_add, Box.sum_add, Box.sum_add, Box.sum_add] at e
  rw [Box.sum_add, Box.sum_add]
  beta_reduce at b1 b2
  linarith

/-- The sum of the squares of the errors of a step. -/
theorem off_sum {g : Grid ℝ} {R : Box} (h1 : R.l ≤ R.r + 1) (h2 : R.b ≤ R.t + 1) {s : Flds ℝ} (q : FrameQuiet s R) {u θ : ℝ} (hu : 0 ≤ u)
    (hθ : 0 ≤ θ) {kE kX kY : ℤ → ℤ → ℝ} (bE : ∀ i j, R.Mem i j → |kE i j| ≤ 24 * u * mag R s i j + θ)
    (bX : ∀ i j, R.Mem i j → |kX i j| ≤ 8 * u * (|s.Hx.val i j| + mag R s i j + mag R s i (j + 1)) + θ)
    (bY : ∀ i j, R.Mem i j → |kY i j| ≤ 8 * u * (|s.Hy.val i j| + mag R s i j + mag R s (i + 1) j) + θ) :
    g.dx ^ 2 * R.sum (fun i j => kE i j ^ 2 + kX i j ^ 2 + kY i j ^ 2) ≤ (166 * u * Real.sqrt (size g s R) + 3 * θ * Real.sqrt (area g R)) ^ 2 := by
  have m0 := mag_nonneg R s
  have hz : ∀ i j, ¬ R.Mem i j → mag R s i j ^ 2 = 0 := fun i j h => by unfold mag; rw [if_neg h]; norm_num
  have s1 := sum_shift_x h1 (F := fun i j => mag R s i j ^ 2) (fun _ _ => sq_nonneg _) hz
  have s2 := sum_shift_y h2 (F := fun i j => mag R s i j ^ 2) (fun _ _ => sq_nonneg _) hz
  have s3 := mag_sum h1 h2 q
  obtain ⟨Θ, hΘ⟩ : ∃ Θ, Θ = 6 * θ ^ 2 := ⟨_, rfl⟩
  have e : R.sum (fun i j => kE i j ^ 2 + kX i j ^ 2 + kY i j ^ 2) ≤ R.sum fun i j => ((((1920 * u ^ 2 * mag R s i j ^ 2 + 384 * u ^ 2 * mag R s i (j + 1) ^ 2) +
      384 * u ^ 2 * mag R s (i + 1) j ^ 2) + 384 * u ^ 2 * s.Hx.val i j ^ 2) + 384 * u ^ 2 * s.Hy.val i j ^ 2) + Θ := by
    refine R.sum_le fun i j h => ?_
    have e1 := sq2 (by have := m0 i j; positivity) (bE i j h) hθ le_rfl
    have e2 := sq2 (by have := m0 i j; have := m0 i (j + 1); positivity) (bX i j h) hθ le_rfl
    have e3 := sq2 (by have := m0 i j; have := m0 (i + 1) j; positivity) (bY i j h) hθ le_rfl
    have f2 := mul_le_mul_of_nonneg_left (sq3 |s.Hx.val i j| (mag R s i j) (mag R s i (j + 1))) (by positivity : 0 ≤ 2 * (8 * u) ^ 2)
    have f3 := mul_le_mul_of_nonneg_left (sq3 |s.Hy.val i j| (mag R s i j) (mag R s (i + 1) j)) (by positivity : 0 ≤ 2 * (8 * u) ^ 2)
    simp only [sq_abs] at f2 f3
    rw [hΘ]
    nlinarith
  set L := R.sum (fun i j => kE i j ^ 2 + kX i j ^ 2 + kY i j ^ 2)
  rw [Box.sum_add, Box.sum_add, Box.sum_add, Box.sum_add, Box.sum_add, Box.sum_mul, Box.sum_mul, Box.sum_mul, Box.sum_mul, Box.sum_mul, sum_const, hΘ] at e
  beta_reduce at s1 s2
  rw [Box.sum_add, Box.sum_add] at s3
  have zE := R.sum_nonneg (F := fun i j => s.Ez.val i j ^ 2) fun _ _ _ => sq_nonneg _
  have zX := R.sum_nonneg (F := fun i j => s.Hx.val i j ^ 2) fun _ _ _ => sq_nonneg _
  have zY := R.sum_nonneg (F := fun i j => s.Hy.val i j ^ 2) fun _ _ _ => sq_nonneg _
  have z1 := R.sum_nonneg (F := fun _ _ => 1) fun _ _ _ => zero_le_one
  set SE := R.sum fun i j => s.Ez.val i j ^ 2
  set SX := R.sum fun i j => s.Hx.val i j ^ 2
  set SY := R.sum fun i j => s.Hy.val i j ^ 2
  set M := R.sum fun i j => mag R s i j ^ 2
  set N1 := R.sum fun _ _ => 1
  have u2 : 0 ≤ u ^ 2 := sq_nonneg _
  have p1 := mul_le_mul_of_nonneg_left s1 u2
  have p2 := mul_le_mul_of_nonneg_left s2 u2
  have p3 := mul_le_mul_of_nonneg_left s3 u2
  have p4 := mul_nonneg u2 zE
  have e' : L ≤ 27556 * u ^ 2 * (SE + SX + SY) + 9 * θ ^ 2 * N1 := by
    have p5 := mul_nonneg u2 zX
    have p6 := mul_nonneg u2 zY
    have p7 := mul_nonneg (sq_nonneg θ) z1
    linarith
  have sz : size g s R = g.dx ^ 2 * (SE + SX + SY) := by
    unfold size; rw [Box.sum_add, Box.sum_add]
  have ar : area g R = g.dx ^ 2 * N1 := rfl
  have q1 := Real.sq_sqrt (x := size g s R) (by rw [sz]; positivity)
  have q2 := Real.sq_sqrt (area_nonneg g R)
  have := mul_le_mul_of_nonneg_left e' (sq_nonneg g.dx)
  have cross : 0 ≤ (166 * u * Real.sqrt (size g s R)) * (3 * θ * Real.sqrt (area g R)) := by positivity
  calc g.dx ^ 2 * L ≤ g.dx ^ 2 * (27556 * u ^ 2 * (SE + SX + SY) + 9 * θ ^ 2 * N1) := this
    _ = (166 * u) ^ 2 * Real.sqrt (size g s R) ^ 2 + (3 * θ) ^ 2 * Real.sqrt (area g R) ^ 2 := by rw [q1, q2, sz, ar]; ring
    _ ≤ _ := by nlinarith

/-- A simulation without layer whose nodes have the passive media `med`, in rounded arithmetic. -/
structure RoundClosed {A : Arith} (c : Core (Rnd A)) (med : ℤ → ℤ → Simple (Rnd A)) : Prop where
  bare : Bare c
  dx : 0 < c.g.dx.val
  dt : c.g.dt.val = c.g.dx.val / 2
  media : ∀ i j, (updatedNodes (exactGrid c.g)).Mem i j → HasMedium c.f (.simple (med i j)) c.g.dt i j
  eps : ∀ i j, (updatedNodes (exactGrid c.g)).Mem i j → 1 ≤ (med i j).eps.val
  conduc : ∀ i j, (updatedNodes (exactGrid c.g)).Mem i j → 0 ≤ (med i j).conduc.val
  normal : ∀ i j, (updatedNodes (exactGrid c.g)).Mem i j → A.tiny ≤ A.u * (exactMed (med i j)).Cb (c.g.dx.val / 2)

theorem mem_nodes {A : Arith} {g : Grid (Rnd A)} {i j : ℤ} : (i, j) ∈ rect 1 (g.Nx - 1) 1 (g.Ny - 1) ↔ (updatedNodes (exactGrid g)).Mem i j := by
  rw [mem_rect]; unfold Box.Mem updatedNodes exactGrid; simp only; omega

theorem exact_lawful {A : Arith} {g : Grid (Rnd A)} (h : 0 < g.dx.val) : Lawful (exactGrid g) := by
  refine ⟨h, ?_, ?_, ?_⟩ <;> simp [exactGrid]

theorem stepF_values {K : Type} [Scalar K] {c : Core K} {i j : ℤ} (h : (i, j) ∈ rect 1 (c.g.Nx - 1) 1 (c.g.Ny - 1)) :
    (stepF c).Ez.val i j = ezVal c.f c.sc i j ∧
    (stepF c).Hx.val i j = c.f.Da.val i j * c.f.Hx.val i j - c.f.Db.val i j * ((stepF c).Ez.val i (j + 1) - (stepF c).Ez.val i j) / c.sc.khdy.val j ∧
    (stepF c).Hy.val i j = c.f.Da.val i j * c.f.Hy.val i j + c.f.Db.val i j * ((stepF c).Ez.val (i + 1) j - (stepF c).Ez.val i j) / c.sc.khdx.val i :=
  ⟨if_pos h, if_pos h, if_pos h⟩

theorem stepF_out {K : Type} [Scalar K] {c : Core K} {i j : ℤ} (h : (i, j) ∉ rect 1 (c.g.Nx - 1) 1 (c.g.Ny - 1)) :
    (stepF c).Ez.val i j = c.f.Ez.val i j ∧ (stepF c).Hx.val i j = c.f.Hx.val i j ∧ (stepF c).Hy.val i j = c.f.Hy.val i j :=
  ⟨if_neg h, if_neg h, if_neg h⟩

theorem realF_within {A : Arith} {c : Core (Rnd A)} {d d' : Flds ℝ} (hw : Within (realF c.f d) (updatedNodes (exactGrid c.g))) :
    Within (realF (stepF c) d') (updatedNodes (exactGrid c.g)) := by
  intro i j h
  obtain ⟨a, b, e⟩ := stepF_out (c := c) (fun k => h (mem_nodes.mp k))
  obtain ⟨a', b', e'⟩ := hw i j h
  refine ⟨?_, ?_, ?_⟩
  · show ((stepF c).Ez.val i j).val = 0
    rw [a]; exact a'
  · show ((stepF c).Hx.val i j).val = 0
    rw [b]; exact b'
  · show ((stepF c).Hy.val i j).val = 0
    rw [e]; exact e'

/-- The absolute part of the error of a step. -/
noncomputable def dust (A : Arith) (dx : ℝ) : ℝ := (8 + 5 * dx + 3 / dx) * A.tiny

/-- What the update of `Ez` at a node gives without rounding. -/
noncomputable def ampereVal {A : Arith} (dx : ℝ) (med : ℤ → ℤ → Simple (Rnd A)) (s : Flds ℝ) (i j : ℤ) : ℝ :=
  (exactMed (med i j)).Ca (dx / 2) * s.Ez.val i j +
    (exactMed (med i j)).Cb (dx / 2) * ((s.Hy.val i j - s.Hy.val (i - 1) j) / dx + (s.Hx.val i (j - 1) - s.Hx.val i j) / dx)

/-- The error of the update of `Ez`, and how large the new values are. -/
theorem rounded_ez {A : Arith} {c : Core (Rnd A)} {med : ℤ → ℤ → Simple (Rnd A)} (hc : RoundClosed c med) {d : Flds ℝ} (d' : Flds ℝ)
    (hw : Within (realF c.f d) (updatedNodes (exactGrid c.g))) :
    (∀ i j, (updatedNodes (exactGrid c.g)).Mem i j → |(realF (stepF c) d').Ez.val i j - ampereVal c.g.dx.val med (realF c.f d) i j| ≤
      24 * A.u * mag (updatedNodes (exactGrid c.g)) (realF c.f d) i j + (8 + 5 * c.g.dx.val) * A.tiny) ∧
    ∀ i j, |(realF (stepF c) d').Ez.val i j| ≤ 2 * mag (updatedNodes (exactGrid c.g)) (realF c.f d) i j + (8 + 5 * c.g.dx.val) * A.tiny := by
  have hx := hc.dx
  have u1 := A.u_le
  have t0 := A.tiny_nonneg
  set R := updatedNodes (exactGrid c.g) with hR
  set s := realF c.f d with hs
  set s' := realF (stepF c) d' with hs'
  obtain ⟨x, hxx⟩ : ∃ x, x = c.g.dx.val := ⟨_, rfl⟩
  have one : c.g.dx * 1 = c.g.dx := mul_one_rnd _
  -- the electric field
  obtain ⟨P, hP⟩ : ∃ P : ℤ → ℤ → ℝ, P = fun i j => (exactMed (med i j)).Ca (x / 2) * s.Ez.val i j +
      (exactMed (med i j)).Cb (x / 2) * ((s.Hy.val i j - s.Hy.val (i - 1) j) / x + (s.Hx.val i (j - 1) - s.Hx.val i j) / x) := ⟨_, rfl⟩
  have ez : ∀ i j, R.Mem i j → |s'.Ez.val i j - P i j| ≤ 24 * A.u * mag R s i j + (8 + 5 * x) * A.tiny ∧ |P i j| ≤ mag R s i j := by
    intro i j h
    have hm := hc.media i j h
    obtain ⟨k1, k2⟩ := fl_coef (med i j) hc.dt hx (hc.eps i j h) (hc.conduc i j h) (hc.normal i j h)
    obtain ⟨c1, c2, c3⟩ := exact_coef (m := exactMed (med i j)) hx (hc.eps i j h) (hc.conduc i j h)
    have q := fl_ez A (E := s.Ez.val i j) (h1 := s.Hy.val i j) (h2 := s.Hy.val (i - 1) j) (h3 := s.Hx.val i (j - 1)) (h4 := s.Hx.val i j) hx c1 c2.le c3 k1 k2
    have mg : mag R s i j = |s.Ez.val i j| + (|s.Hy.val i j| + |s.Hy.val (i - 1) j| + |s.Hx.val i (j - 1)| + |s.Hx.val i j|) := if_pos h
    rw [mg, hP, hxx]
    constructor
    · refine le_trans (le_of_eq ?_) q
      congr 2
      show ((stepF c).Ez.val i j).val = _
      rw [(stepF_values (mem_nodes.mpr h)).1]
      unfold ezVal
      rw [hm.Ca, hm.Cb, (hc.bare.scx i).1, (hc.bare.scy j).1, one]
      rfl
    · have a1 := mul_le_mul_of_nonneg_right c1 (abs_nonneg (s.Ez.val i j))
      obtain ⟨C, hC⟩ : ∃ C, C = (s.Hy.val i j - s.Hy.val (i - 1) j) / c.g.dx.val + (s.Hx.val i (j - 1) - s.Hx.val i j) / c.g.dx.val := ⟨_, rfl⟩
      obtain ⟨S, hS⟩ : ∃ S, S = |s.Hy.val i j| + |s.Hy.val (i - 1) j| + |s.Hx.val i (j - 1)| + |s.Hx.val i j| := ⟨_, rfl⟩
      have C1 : |C| ≤ S / c.g.dx.val := by
        rw [hC, ← add_div, abs_div, abs_of_pos hx, hS]
        refine div_le_div_of_nonneg_right ?_ hx.le
        have := abs_add_le (s.Hy.val i j - s.Hy.val (i - 1) j) (s.Hx.val i (j - 1) - s.Hx.val i j)
        have := abs_sub (s.Hy.val i j) (s.Hy.val (i - 1) j)
        have := abs_sub (s.Hx.val i (j - 1)) (s.Hx.val i j)
        linarith
      have S0 : 0 ≤ S := by rw [hS]; positivity
      have b1 : |(exactMed (med i j)).Cb (c.g.dx.val / 2) * C| ≤ S := by
        rw [abs_mul, abs_of_pos c2]
        have := mul_le_mul c3 C1 (abs_nonneg _) (by positivity)
        have e : c.g.dx.val / 2 * (S / c.g.dx.val) = S / 2 := by field_simp
        linarith
      beta_reduce
      rw [← hC, ← hS]
      have := abs_add_le ((exactMed (med i j)).Ca (c.g.dx.val / 2) * s.Ez.val i j) ((exactMed (med i j)).Cb (c.g.dx.val / 2) * C)
      rw [abs_mul ((exactMed (med i j)).Ca _)] at this
      linarith
  have m0 := mag_nonneg R s
  have big : ∀ i j, |s'.Ez.val i j| ≤ 2 * mag R s i j + (8 + 5 * x) * A.tiny := by
    intro i j
    have x0 : 0 < x := by rw [hxx]; exact hx
    by_cases h : R.Mem i j
    · obtain ⟨a, b⟩ := ez i j h
      have := abs_add_le (s'.Ez.val i j - P i j) (P i j)
      rw [sub_add_cancel] at this
      have := mul_le_mul_of_nonneg_right u1 (m0 i j)
      linarith [m0 i j]
    · rw [(realF_within (d' := d') hw i j h).1, abs_zero]
      have := m0 i j
      positivity
  constructor
  · intro i j h
    have := (ez i j h).1
    rw [hP, hxx] at this
    exact this
  · intro i j
    have := big i j
    rwa [hxx] at this

/-- **One step with rounding** obeys the laws up to small errors. -/
theorem rounded_off {A : Arith} {c : Core (Rnd A)} {med : ℤ → ℤ → Simple (Rnd A)} (hc : RoundClosed c med) {d d' : Flds ℝ}
    (hw : Within (realF c.f d) (updatedNodes (exactGrid c.g))) :
    ∃ kE kX kY, RoundOff (exactGrid c.g) (fun i j => exactMed (med i j)) (updatedNodes (exactGrid c.g)) (realF c.f d) (realF (stepF c) d') kE kX kY ∧
      ∀ i j, (updatedNodes (exactGrid c.g)).Mem i j →
        |kE i j| ≤ 24 * A.u * mag (updatedNodes (exactGrid c.g)) (realF c.f d) i j + dust A c.g.dx.val ∧
        |kX i j| ≤ 8 * A.u * (|(realF c.f d).Hx.val i j| + mag (updatedNodes (exactGrid c.g)) (realF c.f d) i j +
          mag (updatedNodes (exactGrid c.g)) (realF c.f d) i (j + 1)) + dust A c.g.dx.val ∧
        |kY i j| ≤ 8 * A.u * (|(realF c.f d).Hy.val i j| + mag (updatedNodes (exactGrid c.g)) (realF c.f d) i j +
          mag (updatedNodes (exactGrid c.g)) (realF c.f d) (i + 1) j) + dust A c.g.dx.val := by
  have hx := hc.dx
  have u0 := A.u_nonneg
  have u1 := A.u_le
  have t0 := A.tiny_nonneg
  set R := updatedNodes (exactGrid c.g) with hR
  set s := realF c.f d with hs
  set s' := realF (stepF c) d' with hs'
  obtain ⟨x, hxx⟩ : ∃ x, x = c.g.dx.val := ⟨_, rfl⟩
  have one : c.g.dx * 1 = c.g.dx := mul_one_rnd _
  obtain ⟨ez, big⟩ := rounded_ez hc d' hw
  obtain ⟨P, hP⟩ : ∃ P, P = ampereVal x med s := ⟨_, rfl⟩
  rw [← hxx] at ez big
  rw [← hP] at ez
  have m0 := mag_nonneg R s
  have x0 : 0 < x := by rw [hxx]; exact hx
  have du : (8 + 5 * x) * A.tiny ≤ dust A x := by
    unfold dust
    have : 0 ≤ 3 / x * A.tiny := by positivity
    linarith
  have mem1 : ∀ i j, R.Mem i j → (stepF c).Hx.val i j = c.f.Hx.val i j - c.g.dt * ((stepF c).Ez.val i (j + 1) - (stepF c).Ez.val i j) / c.g.dx ∧
      (stepF c).Hy.val i j = c.f.Hy.val i j + c.g.dt * ((stepF c).Ez.val (i + 1) j - (stepF c).Ez.val i j) / c.g.dx := by
    intro i j h
    have hm := hc.media i j h
    obtain ⟨-, a, b⟩ := stepF_values (c := c) (mem_nodes.mpr h)
    rw [a, b, hm.Da, hm.Db, (hc.bare.scx i).2, (hc.bare.scy j).2, one]
    exact ⟨by rw [show MatKind.Da c.g.dt (.simple (med i j)) = 1 from rfl, one_mul_rnd]; rfl,
      by rw [show MatKind.Da c.g.dt (.simple (med i j)) = 1 from rfl, one_mul_rnd]; rfl⟩
  have hbound : ∀ H e1 e0 k M0 M1 : ℝ, |k| ≤ 4 * A.u * (|H| + (|e1| + |e0|)) + (5 + 3 / x) * A.tiny → |e0| ≤ 2 * M0 + (8 + 5 * x) * A.tiny →
      |e1| ≤ 2 * M1 + (8 + 5 * x) * A.tiny → |k| ≤ 8 * A.u * (|H| + M0 + M1) + dust A x := by
    intro H e1 e0 k M0 M1 h1 h2 h3
    have a := mul_le_mul_of_nonneg_left (add_le_add h3 h2) u0
    have b : A.u * (2 * ((8 + 5 * x) * A.tiny)) ≤ 1 / 1000 * (2 * ((8 + 5 * x) * A.tiny)) := mul_le_mul_of_nonneg_right u1 (by positivity)
    have e : 0 ≤ A.u * |H| := by positivity
    have f : 0 ≤ x * A.tiny := by positivity
    unfold dust
    nlinarith
  refine ⟨fun i j => open Classical in if R.Mem i j then s'.Ez.val i j - P i j else 0,
    fun i j => s'.Hx.val i j - (s.Hx.val i j - (s'.Ez.val i (j + 1) - s'.Ez.val i j) / 2),
    fun i j => s'.Hy.val i j - (s.Hy.val i j + (s'.Ez.val (i + 1) j - s'.Ez.val i j) / 2), ⟨?_, ?_, ?_, fun i j h => if_neg h⟩, fun i j h => ⟨?_, ?_, ?_⟩⟩
  · intro i j h
    rw [if_pos h, sub_sub_cancel, hP]
    unfold ampereVal
    have hd : (exactGrid c.g).dt = x / 2 := by rw [hxx]; rfl
    have hd' : (exactGrid c.g).dx = x := by rw [hxx]; rfl
    rw [hd, hd', (C24_unique (exactMed (med i j)) (x / 2) (by positivity) (by have := hc.eps i j h; exact lt_of_lt_of_le one_pos this) (hc.conduc i j h)).1]
    unfold curlH
    ring
  · intro i j h
    show _ = _ - c.g.dx.val / 2 * (_ / c.g.dx.val) + _
    field_simp
    ring
  · intro i j h
    show _ = _ + c.g.dx.val / 2 * (_ / c.g.dx.val) + _
    field_simp
    ring
  · beta_reduce
    rw [if_pos h, ← hxx]
    linarith [ez i j h]
  · rw [← hxx]
    refine hbound _ _ _ _ _ _ ?_ (big i j) (big i (j + 1))
    have q := fl_h A (H := s.Hx.val i j) (e1 := s'.Ez.val i (j + 1)) (e0 := s'.Ez.val i j) hx (Or.inr rfl)
    rw [← hxx] at q
    refine le_trans (le_of_eq ?_) q
    congr 1
    have : s'.Hx.val i j = A.r (s.Hx.val i j + -1 * A.r (A.r (x / 2 * A.r (s'.Ez.val i (j + 1) - s'.Ez.val i j)) / x)) := by
      show ((stepF c).Hx.val i j).val = _
      rw [(mem1 i j h).1]
      simp only [sub_rnd, div_rnd, mul_rnd, hc.dt, ← hxx]
      rw [sub_eq_add_neg, ← neg_one_mul]
      rfl
    beta_reduce
    rw [this]
    ring
  · rw [← hxx]
    refine hbound _ _ _ _ _ _ ?_ (big i j) (big (i + 1) j)
    have q := fl_h A (H := s.Hy.val i j) (e1 := s'.Ez.val (i + 1) j) (e0 := s'.Ez.val i j) hx (Or.inl rfl)
    rw [← hxx] at q
    refine le_trans (le_of_eq ?_) q
    congr 1
    have : s'.Hy.val i j = A.r (s.Hy.val i j + 1 * A.r (A.r (x / 2 * A.r (s'.Ez.val (i + 1) j - s'.Ez.val i j)) / x)) := by
      show ((stepF c).Hy.val i j).val = _
      rw [(mem1 i j h).2]
      simp only [sub_rnd, div_rnd, mul_rnd, add_rnd, hc.dt, ← hxx]
      rw [one_mul]
      rfl
    beta_reduce
    rw [this]
    ring

end Qbox
