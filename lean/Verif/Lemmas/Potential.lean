import Verif.Spec.PoyntingSpec
import Verif.Spec.MomentumSpec
import Verif.Spec.DrivenWaveSpec
import Verif.Spec.FluxWaveSpec
import Mathlib.Analysis.Calculus.FDeriv.Symmetric
import Mathlib.Analysis.Calculus.ContDiff.Basic
import Mathlib.Analysis.Calculus.ContDiff.Operations
import Mathlib.Analysis.Calculus.MeanValue

/-! # Fields from a potential

Every smooth function `A` of time and place gives fields `E = ∂A/∂t`, `Hx = - ∂A/∂y`, `Hy = ∂A/∂x` that obey Faraday's law. With the current that Ampère's law then asks for they are a
solution of Maxwell's equations in any medium. -/

namespace Qbox.Spec
open Qbox
open scoped ContDiff

/-- The derivative of `A` in the direction `v`. -/
noncomputable def tilt (v : ℝ × ℝ × ℝ) (A : ℝ × ℝ × ℝ → ℝ) (p : ℝ × ℝ × ℝ) : ℝ := fderiv ℝ A p v

def dirT : ℝ × ℝ × ℝ := (1, 0, 0)
def dirX : ℝ × ℝ × ℝ := (0, 1, 0)
def dirY : ℝ × ℝ × ℝ := (0, 0, 1)

theorem tilt_smooth {A : ℝ × ℝ × ℝ → ℝ} (h : ContDiff ℝ ∞ A) (v : ℝ × ℝ × ℝ) : ContDiff ℝ ∞ (tilt v A) :=
  (h.fderiv_right (m := ∞) (by simp)).clm_apply contDiff_const

theorem tilt_comm {A : ℝ × ℝ × ℝ → ℝ} (h : ContDiff ℝ ∞ A) (u v : ℝ × ℝ × ℝ) (p : ℝ × ℝ × ℝ) : tilt u (tilt v A) p = tilt v (tilt u A) p := by
  have d : DifferentiableAt ℝ (fderiv ℝ A) p := ((h.fderiv_right (m := ∞) (by simp)).differentiable (by simp)).differentiableAt
  have e : ∀ a b, tilt a (tilt b A) p = fderiv ℝ (fderiv ℝ A) p a b := fun a b => by
    show fderiv ℝ (fun p => fderiv ℝ A p b) p a = _
    rw [fderiv_clm_apply d (differentiableAt_const b)]
    simp
  rw [e, e]
  exact (h.contDiffAt.isSymmSndFDerivAt (by simp; exact WithTop.coe_le_coe.mpr le_top)) u v

theorem tilt_t {A : ℝ × ℝ × ℝ → ℝ} (h : ContDiff ℝ ∞ A) (t x y : ℝ) : HasDerivAt (fun t => A (t, x, y)) (tilt dirT A (t, x, y)) t :=
  ((h.differentiable (by simp)).differentiableAt.hasFDerivAt).comp_hasDerivAt t ((hasDerivAt_id t).prodMk (hasDerivAt_const t (x, y)))

theorem tilt_x {A : ℝ × ℝ × ℝ → ℝ} (h : ContDiff ℝ ∞ A) (t x y : ℝ) : HasDerivAt (fun x => A (t, x, y)) (tilt dirX A (t, x, y)) x :=
  ((h.differentiable (by simp)).differentiableAt.hasFDerivAt).comp_hasDerivAt x ((hasDerivAt_const x t).prodMk ((hasDerivAt_id x).prodMk (hasDerivAt_const x y)))

theorem tilt_y {A : ℝ × ℝ × ℝ → ℝ} (h : ContDiff ℝ ∞ A) (t x y : ℝ) : HasDerivAt (fun y => A (t, x, y)) (tilt dirY A (t, x, y)) y :=
  ((h.differentiable (by simp)).differentiableAt.hasFDerivAt).comp_hasDerivAt y ((hasDerivAt_const y t).prodMk ((hasDerivAt_const y x).prodMk (hasDerivAt_id y)))

/-- Near a point where two functions agree, so do their derivatives. -/
theorem tilt_congr {A B : ℝ × ℝ × ℝ → ℝ} {U : Set (ℝ × ℝ × ℝ)} (hU : IsOpen U) (h : ∀ p ∈ U, A p = B p) (v : ℝ × ℝ × ℝ) : ∀ p ∈ U, tilt v A p = tilt v B p := fun p hp => by
  unfold tilt
  rw [Filter.EventuallyEq.fderiv_eq (Filter.mem_of_superset (hU.mem_nhds hp) fun q hq => h q hq)]

/-- The points and times of a simulation. -/
def region (g : Grid ℝ) (τ : ℝ) : Set (ℝ × ℝ × ℝ) := Set.Icc 0 τ ×ˢ Set.Icc 0 g.Lx ×ˢ Set.Icc 0 g.Ly

theorem region_mem {g : Grid ℝ} {τ t x y : ℝ} (h0 : 0 ≤ t) (h1 : t ≤ τ) (d : InDomain g x y) : (t, x, y) ∈ region g τ := ⟨⟨h0, h1⟩, ⟨d.x0, d.x1⟩, ⟨d.y0, d.y1⟩⟩

theorem bounded_on (g : Grid ℝ) (τ : ℝ) : ∀ Fs : List (ℝ × ℝ × ℝ → ℝ), (∀ F ∈ Fs, ContDiff ℝ ∞ F) → ∃ M : ℝ, 0 ≤ M ∧ ∀ F ∈ Fs, ∀ p ∈ region g τ, |F p| ≤ M
  | [], _ => ⟨0, le_rfl, by simp⟩
  | F :: Fs, h => by
    obtain ⟨M, m0, m⟩ := bounded_on g τ Fs fun G hG => h G (List.mem_cons_of_mem _ hG)
    have k : IsCompact (region g τ) := isCompact_Icc.prod (isCompact_Icc.prod isCompact_Icc)
    obtain ⟨C, hC⟩ := k.exists_bound_of_continuousOn (h F List.mem_cons_self).continuous.continuousOn
    refine ⟨max M C, m0.trans (le_max_left _ _), fun G hG p hp => ?_⟩
    rcases List.mem_cons.mp hG with rfl | hG
    · exact (hC p hp).trans (le_max_right _ _)
    · exact (m G hG p hp).trans (le_max_left _ _)

/-- The field of a potential. -/
noncomputable def Wave.ofPotential (A : ℝ × ℝ × ℝ → ℝ) : Wave where
  E t x y := tilt dirT A (t, x, y)
  X t x y := tilt dirY (fun p => - A p) (t, x, y)
  Y t x y := tilt dirX A (t, x, y)
  Et t x y := tilt dirT (tilt dirT A) (t, x, y)
  Ex t x y := tilt dirX (tilt dirT A) (t, x, y)
  Ey t x y := tilt dirY (tilt dirT A) (t, x, y)
  Xt t x y := tilt dirT (tilt dirY fun p => - A p) (t, x, y)
  Xy t x y := tilt dirY (tilt dirY fun p => - A p) (t, x, y)
  Yt t x y := tilt dirT (tilt dirX A) (t, x, y)
  Yx t x y := tilt dirX (tilt dirX A) (t, x, y)

/-- The current that radiates it in a medium. -/
noncomputable def neededCurrent (A : ℝ × ℝ × ℝ → ℝ) (eps sig : ℝ → ℝ → ℝ) (t x y : ℝ) : ℝ :=
  (Wave.ofPotential A).Yx t x y - (Wave.ofPotential A).Xy t x y - eps x y * (Wave.ofPotential A).Et t x y - sig x y * (Wave.ofPotential A).E t x y

theorem potential_driven {A : ℝ × ℝ × ℝ → ℝ} (h : ContDiff ℝ ∞ A) (eps sig : ℝ → ℝ → ℝ) (g : Grid ℝ) (τ : ℝ) :
    (Wave.ofPotential A).Driven (fun _ _ => True) eps sig (neededCurrent A eps sig) g τ := by
  refine ⟨fun t x y _ _ _ _ => by unfold neededCurrent; ring, fun t x y _ _ _ _ => ?_, fun t x y _ _ _ _ => tilt_comm h dirT dirX (t, x, y)⟩
  show tilt dirT (tilt dirY fun p => - A p) (t, x, y) = - tilt dirY (tilt dirT A) (t, x, y)
  rw [tilt_comm h.neg dirT dirY]
  have e : tilt dirT (fun p => - A p) = fun p => - tilt dirT A p := by
    funext p
    unfold tilt
    rw [fderiv_fun_neg]
    rfl
  rw [e]
  unfold tilt
  rw [fderiv_fun_neg]
  rfl

/-- The fields of a potential and what is asked of them: their first three derivatives along every axis. -/
noncomputable def watched (F : ℝ × ℝ × ℝ → ℝ) : List (ℝ × ℝ × ℝ → ℝ) :=
  F :: [dirT, dirX, dirY].flatMap fun v => [tilt v F, tilt v (tilt v F), tilt v (tilt v (tilt v F))]

theorem watched_smooth {F : ℝ × ℝ × ℝ → ℝ} (h : ContDiff ℝ ∞ F) : ∀ G ∈ watched F, ContDiff ℝ ∞ G := by
  intro G hG
  unfold watched at hG
  rcases List.mem_cons.mp hG with rfl | hG
  · exact h
  · obtain ⟨v, -, hG⟩ := List.mem_flatMap.mp hG
    simp only [List.mem_cons, List.not_mem_nil, or_false] at hG
    rcases hG with rfl | rfl | rfl
    · exact tilt_smooth h v
    · exact tilt_smooth (tilt_smooth h v) v
    · exact tilt_smooth (tilt_smooth (tilt_smooth h v) v) v

theorem lip_of_bound {f f1 : ℝ → ℝ} {a b M : ℝ} (h : ∀ s, a ≤ s → s ≤ b → HasDerivAt f (f1 s) s ∧ |f1 s| ≤ M) {s s' : ℝ} (h0 : a ≤ s) (h1 : s ≤ s') (h2 : s' ≤ b) :
    |f s' - f s| ≤ M * (s' - s) := by
  have := (convex_Icc a b).norm_image_sub_le_of_norm_hasDerivWithin_le (f := f) (f' := f1) (C := M) (fun x hx => (h x hx.1 hx.2).1.hasDerivWithinAt) (fun x hx => (h x hx.1 hx.2).2)
    ⟨h0, h1.trans h2⟩ ⟨h0.trans h1, h2⟩
  rwa [Real.norm_eq_abs, Real.norm_eq_abs, abs_of_nonneg (sub_nonneg.mpr h1)] at this

/-- **Every field from a potential is smooth** and without magnetic charges, with some bound for its derivatives and for the current, up to any time. -/
theorem potential_tame {A : ℝ × ℝ × ℝ → ℝ} (h : ContDiff ℝ ∞ A) (g : Grid ℝ) (τ : ℝ) {eps sig : ℝ → ℝ → ℝ} {em sm : ℝ} (he : ∀ x y, |eps x y| ≤ em) (hs : ∀ x y, |sig x y| ≤ sm) :
    ∃ M : ℝ, 0 ≤ M ∧ (Wave.ofPotential A).Smooth (fun _ _ => True) g τ M ∧ (Wave.ofPotential A).Steady g τ M ∧ (Wave.ofPotential A).Even g τ M ∧
      CurrentAtMost (neededCurrent A eps sig) g τ M ∧
      (Wave.ofPotential A).Solenoidal (fun t x y => tilt dirX (tilt dirY fun p => - A p) (t, x, y)) (fun t x y => tilt dirY (tilt dirX A) (t, x, y)) (fun _ _ => True) g τ M := by
  have hT := tilt_smooth h dirT
  have hX := tilt_smooth h dirX
  have hY := tilt_smooth h.neg dirY
  obtain ⟨M, M0, hM⟩ := bounded_on g τ (watched (tilt dirT A) ++ watched (tilt dirX A) ++ watched (tilt dirY fun p => - A p)) (fun F hF => by
    rcases List.mem_append.mp hF with hF | hF
    · rcases List.mem_append.mp hF with hF | hF
      · exact watched_smooth hT F hF
      · exact watched_smooth hX F hF
    · exact watched_smooth hY F hF)
  have em0 : 0 ≤ em := (abs_nonneg _).trans (he 0 0)
  have sm0 : 0 ≤ sm := (abs_nonneg _).trans (hs 0 0)
  have up : M ≤ (2 + em + sm) * M := by nlinarith [mul_nonneg em0 M0, mul_nonneg sm0 M0]
  have bT : ∀ G ∈ watched (tilt dirT A), ∀ p ∈ region g τ, |G p| ≤ (2 + em + sm) * M := fun G hG p hp =>
    (hM G (List.mem_append_left _ (List.mem_append_left _ hG)) p hp).trans up
  have bX : ∀ G ∈ watched (tilt dirX A), ∀ p ∈ region g τ, |G p| ≤ (2 + em + sm) * M := fun G hG p hp =>
    (hM G (List.mem_append_left _ (List.mem_append_right _ hG)) p hp).trans up
  have bY : ∀ G ∈ watched (tilt dirY fun p => - A p), ∀ p ∈ region g τ, |G p| ≤ (2 + em + sm) * M := fun G hG p hp =>
    (hM G (List.mem_append_right _ hG) p hp).trans up
  have tameT : ∀ {F : ℝ × ℝ × ℝ → ℝ}, ContDiff ℝ ∞ F → (∀ G ∈ watched F, ∀ p ∈ region g τ, |G p| ≤ (2 + em + sm) * M) → ∀ x y, InDomain g x y →
      Tame (fun t => F (t, x, y)) (fun t => tilt dirT F (t, x, y)) 0 τ ((2 + em + sm) * M) := fun {F} hF bF x y d =>
    ⟨fun t => tilt dirT (tilt dirT F) (t, x, y), fun t => tilt dirT (tilt dirT (tilt dirT F)) (t, x, y), fun t h0 h1 =>
      ⟨tilt_t hF t x y, tilt_t (tilt_smooth hF _) t x y, tilt_t (tilt_smooth (tilt_smooth hF _) _) t x y, bF _ (by simp [watched]) _ (region_mem h0 h1 d),
        bF _ (by simp [watched]) _ (region_mem h0 h1 d)⟩⟩
  have tameX : ∀ {F : ℝ × ℝ × ℝ → ℝ}, ContDiff ℝ ∞ F → (∀ G ∈ watched F, ∀ p ∈ region g τ, |G p| ≤ (2 + em + sm) * M) → ∀ t y a b, 0 ≤ t → t ≤ τ →
      (∀ x, a ≤ x → x ≤ b → InDomain g x y) → Tame (fun x => F (t, x, y)) (fun x => tilt dirX F (t, x, y)) a b ((2 + em + sm) * M) := fun {F} hF bF t y a b h0 h1 d =>
    ⟨fun x => tilt dirX (tilt dirX F) (t, x, y), fun x => tilt dirX (tilt dirX (tilt dirX F)) (t, x, y), fun x ha hb =>
      ⟨tilt_x hF t x y, tilt_x (tilt_smooth hF _) t x y, tilt_x (tilt_smooth (tilt_smooth hF _) _) t x y, bF _ (by simp [watched]) _ (region_mem h0 h1 (d x ha hb)),
        bF _ (by simp [watched]) _ (region_mem h0 h1 (d x ha hb))⟩⟩
  have tameY : ∀ {F : ℝ × ℝ × ℝ → ℝ}, ContDiff ℝ ∞ F → (∀ G ∈ watched F, ∀ p ∈ region g τ, |G p| ≤ (2 + em + sm) * M) → ∀ t x a b, 0 ≤ t → t ≤ τ →
      (∀ y, a ≤ y → y ≤ b → InDomain g x y) → Tame (fun y => F (t, x, y)) (fun y => tilt dirY F (t, x, y)) a b ((2 + em + sm) * M) := fun {F} hF bF t x a b h0 h1 d =>
    ⟨fun y => tilt dirY (tilt dirY F) (t, x, y), fun y => tilt dirY (tilt dirY (tilt dirY F)) (t, x, y), fun y ha hb =>
      ⟨tilt_y hF t x y, tilt_y (tilt_smooth hF _) t x y, tilt_y (tilt_smooth (tilt_smooth hF _) _) t x y, bF _ (by simp [watched]) _ (region_mem h0 h1 (d y ha hb)),
        bF _ (by simp [watched]) _ (region_mem h0 h1 (d y ha hb))⟩⟩
  have lipT : ∀ {F : ℝ × ℝ × ℝ → ℝ}, ContDiff ℝ ∞ F → (∀ G ∈ watched F, ∀ p ∈ region g τ, |G p| ≤ (2 + em + sm) * M) → ∀ t t' x y, 0 ≤ t → t ≤ t' → t' ≤ τ → InDomain g x y →
      |F (t', x, y) - F (t, x, y)| ≤ (2 + em + sm) * M * (t' - t) := fun {F} hF bF t t' x y h0 h1 h2 d =>
    lip_of_bound (f := fun t => F (t, x, y)) (fun s a b => ⟨tilt_t hF s x y, bF _ (by simp [watched]) _ (region_mem a b d)⟩) h0 h1 h2
  have lipX : ∀ {F : ℝ × ℝ × ℝ → ℝ}, ContDiff ℝ ∞ F → (∀ G ∈ watched F, ∀ p ∈ region g τ, |G p| ≤ (2 + em + sm) * M) → ∀ t x x' y, 0 ≤ t → t ≤ τ → x ≤ x' → InDomain g x y →
      InDomain g x' y → |F (t, x', y) - F (t, x, y)| ≤ (2 + em + sm) * M * (x' - x) := fun {F} hF bF t x x' y h0 h1 h2 d d' =>
    lip_of_bound (f := fun x => F (t, x, y)) (a := x) (b := x') (fun s a b => ⟨tilt_x hF t s y, bF _ (by simp [watched]) _ (region_mem h0 h1 ⟨d.x0.trans a, b.trans d'.x1, d.y0, d.y1⟩)⟩)
      le_rfl h2 le_rfl
  have lipY : ∀ {F : ℝ × ℝ × ℝ → ℝ}, ContDiff ℝ ∞ F → (∀ G ∈ watched F, ∀ p ∈ region g τ, |G p| ≤ (2 + em + sm) * M) → ∀ t x y y', 0 ≤ t → t ≤ τ → y ≤ y' → InDomain g x y →
      InDomain g x y' → |F (t, x, y') - F (t, x, y)| ≤ (2 + em + sm) * M * (y' - y) := fun {F} hF bF t x y y' h0 h1 h2 d d' =>
    lip_of_bound (f := fun y => F (t, x, y)) (a := y) (b := y') (fun s a b => ⟨tilt_y hF t x s, bF _ (by simp [watched]) _ (region_mem h0 h1 ⟨d.x0, d.x1, d.y0.trans a, b.trans d'.y1⟩)⟩)
      le_rfl h2 le_rfl
  refine ⟨(2 + em + sm) * M, by positivity, ?_, ?_, ?_, ?_, ?_⟩
  · exact ⟨fun x y d _ => tameT hT bT x y d, fun x y d _ => tameT hY bY x y d, fun x y d _ => tameT hX bX x y d,
      fun t y a b h0 h1 d => tameX hT bT t y a b h0 h1 fun x ha hb => (d x ha hb).1, fun t y a b h0 h1 d => tameX hX bX t y a b h0 h1 fun x ha hb => (d x ha hb).1,
      fun t x a b h0 h1 d => tameY hT bT t x a b h0 h1 fun y ha hb => (d y ha hb).1, fun t x a b h0 h1 d => tameY hY bY t x a b h0 h1 fun y ha hb => (d y ha hb).1⟩
  · exact ⟨fun t x y h0 h1 d => bT (tilt dirT A) (by simp [watched]) (t, x, y) (region_mem h0 h1 d), fun t t' x y => lipT hT bT t t' x y, fun t t' x y => lipT hY bY t t' x y,
      fun t t' x y => lipT hX bX t t' x y, fun t x x' y => lipX hT bT t x x' y, fun t x x' y => lipX hX bX t x x' y, fun t x y y' => lipY hT bT t x y y', fun t x y y' => lipY hY bY t x y y'⟩
  · exact ⟨fun t x x' y => lipX hY bY t x x' y, fun t x y y' => lipY hX bX t x y y'⟩
  · intro t x y h0 h1 d
    have r := region_mem h0 h1 d
    have b1 : |(Wave.ofPotential A).Yx t x y| ≤ M := hM (tilt dirX (tilt dirX A)) (List.mem_append_left _ (List.mem_append_right _ (by simp [watched]))) (t, x, y) r
    have b2 : |(Wave.ofPotential A).Xy t x y| ≤ M := hM (tilt dirY (tilt dirY fun p => - A p)) (List.mem_append_right _ (by simp [watched])) (t, x, y) r
    have b3 : |(Wave.ofPotential A).Et t x y| ≤ M := hM (tilt dirT (tilt dirT A)) (List.mem_append_left _ (List.mem_append_left _ (by simp [watched]))) (t, x, y) r
    have b4 : |(Wave.ofPotential A).E t x y| ≤ M := hM (tilt dirT A) (List.mem_append_left _ (List.mem_append_left _ (by simp [watched]))) (t, x, y) r
    have c3 : |eps x y * (Wave.ofPotential A).Et t x y| ≤ em * M := by rw [abs_mul]; exact mul_le_mul (he x y) b3 (abs_nonneg _) em0
    have c4 : |sig x y * (Wave.ofPotential A).E t x y| ≤ sm * M := by rw [abs_mul]; exact mul_le_mul (hs x y) b4 (abs_nonneg _) sm0
    unfold neededCurrent
    rw [abs_le] at *
    constructor <;> linarith [b1.1, b1.2, b2.1, b2.2, c3.1, c3.2, c4.1, c4.2]
  · refine ⟨fun t y a b h0 h1 d => tameX hY bY t y a b h0 h1 fun x ha hb => (d x ha hb).1, fun t x a b h0 h1 d => tameY hX bX t x a b h0 h1 fun y ha hb => (d y ha hb).1, fun t x y _ _ _ _ => ?_⟩
    have e : ∀ v, tilt v (fun p => - A p) = fun p => - tilt v A p := fun v => by
      funext p
      unfold tilt
      rw [fderiv_fun_neg]
      rfl
    rw [tilt_comm h dirY dirX, e]
    unfold tilt
    rw [fderiv_fun_neg]
    simp

theorem potential_bounded {A : ℝ × ℝ × ℝ → ℝ} (h : ContDiff ℝ ∞ A) (g : Grid ℝ) (τ : ℝ) {eps sig : ℝ → ℝ → ℝ} {em sm : ℝ} (he : ∀ x y, |eps x y| ≤ em) (hs : ∀ x y, |sig x y| ≤ sm) :
    ∃ M : ℝ, 0 ≤ M ∧ (Wave.ofPotential A).Smooth (fun _ _ => True) g τ M ∧ (Wave.ofPotential A).Steady g τ M ∧ (Wave.ofPotential A).Even g τ M ∧
      CurrentAtMost (neededCurrent A eps sig) g τ M := by
  obtain ⟨M, m0, m1, m2, m3, m4, -⟩ := potential_tame h g τ he hs
  exact ⟨M, m0, m1, m2, m3, m4⟩

theorem potential_regular {A : ℝ × ℝ × ℝ → ℝ} (h : ContDiff ℝ ∞ A) (S : ℝ → ℝ → Prop) (p q : V2 ℝ) (T : ℝ) : (Wave.ofPotential A).Regular S p q T :=
  ⟨(tilt_smooth (tilt_smooth h dirX) dirX).continuous.continuousOn, (tilt_smooth (tilt_smooth h.neg dirY) dirY).continuous.continuousOn⟩

end Qbox.Spec
