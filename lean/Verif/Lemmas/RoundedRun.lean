import Verif.Lemmas.RoundedStep

/-! # A run with rounding beside a run without -/

namespace Qbox
open Scalar Spec Props

/-- The same simulation without rounding. -/
structure ExactTwin {A : Arith} (g : Grid (Rnd A)) (med : ℤ → ℤ → Simple (Rnd A)) (e : Core ℝ) : Prop where
  bare : Bare e
  grid : e.g = exactGrid g
  media : ∀ i j, (updatedNodes (exactGrid g)).Mem i j → HasMedium e.f (.simple (exactMed (med i j))) e.g.dt i j
  within : Within e.f (updatedNodes (exactGrid g))

theorem ExactTwin.step {A : Arith} {g : Grid (Rnd A)} {med : ℤ → ℤ → Simple (Rnd A)} {e : Core ℝ} (h : ExactTwin g med e) (hx : 0 < g.dx.val)
    (h1 : ∀ i j, (updatedNodes (exactGrid g)).Mem i j → 1 ≤ (med i j).eps.val) (h2 : ∀ i j, (updatedNodes (exactGrid g)).Mem i j → 0 ≤ (med i j).conduc.val) :
    ∃ e', e.update [] = .ok (e', []) ∧ ExactTwin g med e' ∧
      Laws (exactGrid g) (fun i j => exactMed (med i j)) (updatedNodes (exactGrid g)) e.f e'.f (fun _ _ => 0) (fun _ _ => 0) (fun _ _ => 0) := by
  obtain ⟨e', u, b, ef, eg, -, -⟩ := h.bare.update
  have mem : ∀ i j, (i, j) ∈ rect 1 (e.g.Nx - 1) 1 (e.g.Ny - 1) ↔ (updatedNodes (exactGrid g)).Mem i j := by
    intro i j; rw [h.grid]; exact mem_nodes (g := g)
  have dx : e.g.dx = g.dx.val := by rw [h.grid]; rfl
  have dt : e.g.dt = g.dx.val / 2 := by rw [h.grid]; rfl
  have gx : (exactGrid g).dx = g.dx.val := rfl
  have gt : (exactGrid g).dt = g.dx.val / 2 := rfl
  refine ⟨e', u, ⟨b, by rw [eg, h.grid], fun i j hm => ?_, fun i j hm => ?_⟩, ⟨fun i j hm => ?_, fun i j hm => ?_, fun i j hm => ?_⟩⟩
  · rw [ef, eg]
    have := h.media i j hm
    exact ⟨this.Ca, this.Cb, this.Da, this.Db⟩
  · rw [ef]
    obtain ⟨a, b, c⟩ := stepF_out (c := e) (fun k => hm ((mem i j).mp k))
    rw [a, b, c]
    exact h.within i j hm
  · obtain ⟨a, -, -⟩ := stepF_values (c := e) ((mem i j).mpr hm)
    have md := h.media i j hm
    rw [ef, a, add_zero, gt, gx, (C24_unique (exactMed (med i j)) (g.dx.val / 2) (by positivity)
      (lt_of_lt_of_le one_pos (h1 i j hm)) (h2 i j hm)).1]
    unfold ezVal curlH
    rw [md.Ca, md.Cb, (h.bare.scx i).1, (h.bare.scy j).1, dt, dx, mul_one]
    show (exactMed (med i j)).Ca _ * _ + (exactMed (med i j)).Cb _ * _ = _
    ring
  · obtain ⟨-, a, -⟩ := stepF_values (c := e) ((mem i j).mpr hm)
    have md := h.media i j hm
    rw [ef, a, md.Da, md.Db, (h.bare.scy j).2, dt, dx, mul_one, gt, gx, mul_zero, add_zero]
    show 1 * _ - g.dx.val / 2 * _ / _ = _
    ring
  · obtain ⟨-, -, a⟩ := stepF_values (c := e) ((mem i j).mpr hm)
    have md := h.media i j hm
    rw [ef, a, md.Da, md.Db, (h.bare.scx i).2, dt, dx, mul_one, gt, gx, mul_zero, add_zero]
    show 1 * _ + g.dx.val / 2 * _ / _ = _
    ring

/-- The energy of the simulation without rounding never grows. -/
theorem laws_energy {g : Grid ℝ} (hg : Lawful g) {med : ℤ → ℤ → Simple ℝ} {R : Box} (h1 : R.l ≤ R.r + 1) (h2 : R.b ≤ R.t + 1)
    (hs : ∀ i j, R.Mem i j → 0 ≤ (med i j).conduc) {f f' : Flds ℝ} (lf : Laws g med R f f' (fun _ _ => 0) (fun _ _ => 0) (fun _ _ => 0))
    (q : FrameQuiet f R) (q' : FrameQuiet f' R) : energy g med f' R ≤ energy g med f R := by
  have hx := hg.dx
  have hdt : 0 < g.dt := by rw [hg.dt]; linarith
  have b := balance_of_laws hx hdt h1 h2 (f := f) (f' := f') (med := med) fun i j h => ⟨by have := lf.ampere i j h; rwa [add_zero] at this,
    by have := lf.faradayX i j h; rwa [mul_zero, add_zero] at this, by have := lf.faradayY i j h; rwa [mul_zero, add_zero] at this⟩
  rw [outflow_quiet q q', add_zero] at b
  have : 0 ≤ heat g med f f' R := mul_nonneg (sq_nonneg _) (R.sum_nonneg fun i j h => mul_nonneg (hs i j h) (sq_nonneg _))
  have := mul_nonneg hdt.le this
  linarith

/-- The size of a field, from its energy. -/
theorem sqrt_size {g : Grid ℝ} (hg : Lawful g) {med : ℤ → ℤ → Simple ℝ} {R : Box} (h1 : R.l ≤ R.r + 1) (h2 : R.b ≤ R.t + 1)
    (he : ∀ i j, R.Mem i j → 1 ≤ (med i j).eps) {f : Flds ℝ} (q : FrameQuiet f R) : Real.sqrt (size g f R) ≤ Real.sqrt 8 * Real.sqrt (energy g med f R) := by
  have := C18_definite g hg med R h1 h2 he f q
  rw [← Real.sqrt_mul (by norm_num)]
  exact Real.sqrt_le_sqrt (by linarith)

/-- How much the rounding errors of one step weigh. -/
noncomputable def gain (epsMax : ℝ) : ℝ := 332 * Real.sqrt (epsMax + 1)
/-- What the smallest numbers of the arithmetic add in one step. -/
noncomputable def grain (A : Arith) (g : Grid (Rnd A)) (epsMax : ℝ) : ℝ :=
  Real.sqrt ((epsMax + 1) / 2) * (3 * dust A g.dx.val * Real.sqrt (area (exactGrid g) (updatedNodes (exactGrid g))))

theorem gain_eq {epsMax : ℝ} (h : 1 ≤ epsMax) (x y : ℝ) : Real.sqrt ((epsMax + 1) / 2) * (166 * x * (Real.sqrt 8 * y)) = gain epsMax * x * y := by
  have : Real.sqrt ((epsMax + 1) / 2) * Real.sqrt 8 = 2 * Real.sqrt (epsMax + 1) := by
    rw [← Real.sqrt_mul (by linarith)]
    rw [show (epsMax + 1) / 2 * 8 = 2 ^ 2 * (epsMax + 1) by ring, Real.sqrt_mul (by norm_num), Real.sqrt_sq (by norm_num)]
  unfold gain
  linear_combination (166 * x * y) * this

theorem grain_nonneg {A : Arith} {g : Grid (Rnd A)} (hx : 0 < g.dx.val) (epsMax : ℝ) : 0 ≤ grain A g epsMax := by
  have := A.tiny_nonneg
  unfold grain dust
  positivity

theorem gain_nonneg (epsMax : ℝ) : 0 ≤ gain epsMax := by unfold gain; positivity

/-- The distance after a step. -/
theorem twin_step {A : Arith} {c : Core (Rnd A)} {med : ℤ → ℤ → Simple (Rnd A)} (hc : RoundClosed c med) (hw : c.g.Wide) {e : Core ℝ}
    (he : ExactTwin c.g med e) {epsMax : ℝ} (h0 : 1 ≤ epsMax) (hm : ∀ i j, (updatedNodes (exactGrid c.g)).Mem i j → (med i j).eps.val ≤ epsMax)
    (hi : Within (realF c.f e.f) (updatedNodes (exactGrid c.g))) {d : Flds ℝ} (md : Mix 1 (-1) e.f (realF c.f e.f) d) :
    ∃ c' e', c.update [] = .ok (c', []) ∧ e.update [] = .ok (e', []) ∧ RoundClosed c' med ∧ c'.g = c.g ∧ ExactTwin c.g med e' ∧
      Within (realF c'.f e'.f) (updatedNodes (exactGrid c.g)) ∧
      energy (exactGrid c.g) (fun i j => exactMed (med i j)) e'.f (updatedNodes (exactGrid c.g)) ≤
        energy (exactGrid c.g) (fun i j => exactMed (med i j)) e.f (updatedNodes (exactGrid c.g)) ∧
      ∀ d', Mix 1 (-1) e'.f (realF c'.f e'.f) d' →
        Real.sqrt (energy (exactGrid c.g) (fun i j => exactMed (med i j)) d' (updatedNodes (exactGrid c.g))) ≤
          (1 + gain epsMax * A.u) * Real.sqrt (energy (exactGrid c.g) (fun i j => exactMed (med i j)) d (updatedNodes (exactGrid c.g))) +
          gain epsMax * A.u * Real.sqrt (energy (exactGrid c.g) (fun i j => exactMed (med i j)) e.f (updatedNodes (exactGrid c.g))) + grain A c.g epsMax := by
  have hx := hc.dx
  have hg := exact_lawful hx
  have b1 : (updatedNodes (exactGrid c.g)).l ≤ (updatedNodes (exactGrid c.g)).r + 1 := by
    have := hw.nx; have := hc.bare.thick; simp only [updatedNodes, exactGrid]; omega
  have b2 : (updatedNodes (exactGrid c.g)).b ≤ (updatedNodes (exactGrid c.g)).t + 1 := by
    have := hw.ny; have := hc.bare.thick; simp only [updatedNodes, exactGrid]; omega
  obtain ⟨c', u, bc, cf, cg, -, -⟩ := hc.bare.update
  obtain ⟨e', v, te, L⟩ := he.step hx hc.eps hc.conduc
  have hi' : Within (realF c'.f e'.f) (updatedNodes (exactGrid c.g)) := by rw [cf]; exact realF_within hi
  have hc' : RoundClosed c' med := by
    refine ⟨bc, by rw [cg]; exact hc.dx, by rw [cg]; exact hc.dt, ?_, by rw [cg]; exact hc.eps, by rw [cg]; exact hc.conduc, by rw [cg]; exact hc.normal⟩
    rw [cg, cf]
    intro i j h
    have := hc.media i j h
    exact ⟨this.Ca, this.Cb, this.Da, this.Db⟩
  refine ⟨c', e', u, v, hc', cg, te, hi', laws_energy hg b1 b2 hc.conduc L (within_frame he.within) (within_frame te.within), fun d' md' => ?_⟩
  obtain ⟨kE, kX, kY, off, bd⟩ := rounded_off hc (d := e.f) (d' := e'.f) hi
  have q := within_frame hi
  have u0 := A.u_nonneg
  have t0 := A.tiny_nonneg
  have θ0 : 0 ≤ dust A c.g.dx.val := by unfold dust; positivity
  have os := off_sum (g := exactGrid c.g) b1 b2 q u0 θ0 (fun i j h => (bd i j h).1) (fun i j h => (bd i j h).2.1) (fun i j h => (bd i j h).2.2)
  rw [← cf] at off
  have k := kick_step hg b1 b2 (fun i j h => ⟨hc.eps i j h, hm i j h⟩) hc.conduc L off h0 (by positivity) os md md' (md.quiet (within_frame he.within) q)
    (md'.quiet (within_frame te.within) (within_frame hi'))
  have back : Mix 1 (-1) e.f d (realF c.f e.f) := ⟨fun i j => by rw [md.Ez]; ring, fun i j => by rw [md.Hx]; ring, fun i j => by rw [md.Hy]; ring⟩
  have sz := sqrt_size hg b1 b2 (med := fun i j => exactMed (med i j)) hc.eps q
  have qd : FrameQuiet d (updatedNodes (exactGrid c.g)) := md.quiet (within_frame he.within) q
  obtain ⟨nd, mnd⟩ := mix_exists 0 (-1) e.f d
  have mback : Mix 1 1 e.f nd (realF c.f e.f) := ⟨fun i j => by rw [mnd.Ez, back.Ez]; ring, fun i j => by rw [mnd.Hx, back.Hx]; ring, fun i j => by rw [mnd.Hy, back.Hy]; ring⟩
  have tri := energy_triangle hg b1 b2 (med := fun i j => exactMed (med i j)) hc.eps mback (within_frame he.within) (mnd.quiet (within_frame he.within) qd)
  have en : energy (exactGrid c.g) (fun i j => exactMed (med i j)) nd (updatedNodes (exactGrid c.g)) =
      energy (exactGrid c.g) (fun i j => exactMed (med i j)) d (updatedNodes (exactGrid c.g)) := by
    unfold energy hxBack hyBack
    simp only [mnd.Ez, mnd.Hx, mnd.Hy]
    congr 1
    refine Box.sum_congr _ fun i j _ => ?_
    ring
  rw [en] at tri
  set N := Real.sqrt (energy (exactGrid c.g) (fun i j => exactMed (med i j)) e.f (updatedNodes (exactGrid c.g)))
  set D := Real.sqrt (energy (exactGrid c.g) (fun i j => exactMed (med i j)) d (updatedNodes (exactGrid c.g)))
  have s8 := Real.sqrt_nonneg 8
  have sz' : Real.sqrt (size (exactGrid c.g) (realF c.f e.f) (updatedNodes (exactGrid c.g))) ≤ Real.sqrt 8 * (N + D) :=
    sz.trans (mul_le_mul_of_nonneg_left tri s8)
  have p := mul_le_mul_of_nonneg_left (mul_le_mul_of_nonneg_left sz' (by positivity : 0 ≤ 166 * A.u)) (Real.sqrt_nonneg ((epsMax + 1) / 2))
  rw [gain_eq h0] at p
  have : grain A c.g epsMax = Real.sqrt ((epsMax + 1) / 2) * (3 * dust A c.g.dx.val * Real.sqrt (area (exactGrid c.g) (updatedNodes (exactGrid c.g)))) := rfl
  rw [this]
  linarith

/-- The distance after any number of steps. -/
theorem twin_run {A : Arith} {med : ℤ → ℤ → Simple (Rnd A)} {epsMax : ℝ} (h0 : 1 ≤ epsMax) : ∀ (n : ℕ) {c : Core (Rnd A)} (_ : RoundClosed c med)
    (_ : c.g.Wide) {e : Core ℝ} (_ : ExactTwin c.g med e) (_ : ∀ i j, (updatedNodes (exactGrid c.g)).Mem i j → (med i j).eps.val ≤ epsMax)
    (_ : Within (realF c.f e.f) (updatedNodes (exactGrid c.g))) {d : Flds ℝ} (_ : Mix 1 (-1) e.f (realF c.f e.f) d),
    ∃ c' e', c.run n [] = .ok (c', []) ∧ e.run n [] = .ok (e', []) ∧ RoundClosed c' med ∧ c'.g = c.g ∧ ExactTwin c.g med e' ∧
      Within (realF c'.f e'.f) (updatedNodes (exactGrid c.g)) ∧
      energy (exactGrid c.g) (fun i j => exactMed (med i j)) e'.f (updatedNodes (exactGrid c.g)) ≤
        energy (exactGrid c.g) (fun i j => exactMed (med i j)) e.f (updatedNodes (exactGrid c.g)) ∧
      ∀ d', Mix 1 (-1) e'.f (realF c'.f e'.f) d' →
        Real.sqrt (energy (exactGrid c.g) (fun i j => exactMed (med i j)) d' (updatedNodes (exactGrid c.g))) ≤
          (1 + gain epsMax * A.u) ^ n * Real.sqrt (energy (exactGrid c.g) (fun i j => exactMed (med i j)) d (updatedNodes (exactGrid c.g))) +
          ((1 + gain epsMax * A.u) ^ n - 1) * Real.sqrt (energy (exactGrid c.g) (fun i j => exactMed (med i j)) e.f (updatedNodes (exactGrid c.g))) +
          n * (1 + gain epsMax * A.u) ^ n * grain A c.g epsMax
  | 0, c, hc, hw, e, he, hm, hi, d, md => ⟨c, e, rfl, rfl, hc, rfl, he, hi, le_rfl, fun d' md' => by
      have : energy (exactGrid c.g) (fun i j => exactMed (med i j)) d' (updatedNodes (exactGrid c.g)) =
          energy (exactGrid c.g) (fun i j => exactMed (med i j)) d (updatedNodes (exactGrid c.g)) := by
        unfold energy hxBack hyBack
        simp only [md.Ez, md.Hx, md.Hy, md'.Ez, md'.Hx, md'.Hy]
      rw [this]; simp⟩
  | n + 1, c, hc, hw, e, he, hm, hi, d, md => by
    obtain ⟨c1, e1, u, v, hc1, cg, he1, hi1, en, st⟩ := twin_step hc hw he h0 hm hi md
    obtain ⟨d1, md1⟩ := mix_exists 1 (-1) e1.f (realF c1.f e1.f)
    have k := st d1 md1
    obtain ⟨c2, e2, u2, v2, hc2, cg2, he2, hi2, en2, st2⟩ := twin_run h0 n hc1 (by rw [cg]; exact hw) (e := e1) (by rw [cg]; exact he1) (by rw [cg]; exact hm)
      (by rw [cg]; exact hi1) md1
    rw [cg] at cg2 he2 hi2 en2 st2
    refine ⟨c2, e2, by unfold Core.run; rw [u]; exact u2, by unfold Core.run; rw [v]; exact v2, hc2, cg2, he2, hi2, en2.trans en, fun d' md' => (st2 d' md').trans ?_⟩
    have a0 : 0 ≤ gain epsMax * A.u := mul_nonneg (gain_nonneg _) A.u_nonneg
    have w0 := grain_nonneg hc.dx epsMax
    obtain ⟨a, ha⟩ : ∃ a, a = gain epsMax * A.u := ⟨_, rfl⟩
    rw [← ha] at k a0 ⊢
    have sq := Real.sqrt_le_sqrt en
    set N := Real.sqrt (energy (exactGrid c.g) (fun i j => exactMed (med i j)) e.f (updatedNodes (exactGrid c.g)))
    set N1 := Real.sqrt (energy (exactGrid c.g) (fun i j => exactMed (med i j)) e1.f (updatedNodes (exactGrid c.g)))
    set D := Real.sqrt (energy (exactGrid c.g) (fun i j => exactMed (med i j)) d (updatedNodes (exactGrid c.g)))
    set D1 := Real.sqrt (energy (exactGrid c.g) (fun i j => exactMed (med i j)) d1 (updatedNodes (exactGrid c.g)))
    set w := grain A c.g epsMax
    have p1 : 1 ≤ (1 + a) ^ n := one_le_pow₀ (by linarith)
    obtain ⟨P, hP⟩ : ∃ P, P = (1 + a) ^ n := ⟨_, rfl⟩
    rw [pow_succ, ← hP]
    rw [← hP] at p1
    have e1 := mul_le_mul_of_nonneg_left k (by linarith : 0 ≤ P)
    have e2 := mul_le_mul_of_nonneg_left sq (by linarith : 0 ≤ P - 1)
    have e3 : 0 ≤ ((n : ℝ) + 1) * (P * a * w) := by positivity
    push_cast
    nlinarith

end Qbox
