import Verif.Props.LitPolarProps
import Verif.Props.LitCases

/-! # A non-trivial case of the theorem about scattering by media with memory (C106)

A disc of plasma in a region that a flash passes through. In the disc the scattered wave cancels the incident one and leaves a wave of the plasma, of which the field
grows in the direction across its propagation. -/

namespace Qbox.Props
open Qbox Scalar Spec
open scoped ContDiff

theorem tame_mono {f f1 : ℝ → ℝ} {a b M M' : ℝ} (h : Tame f f1 a b M) (hM : M ≤ M') : Tame f f1 a b M' := by
  obtain ⟨f2, f3, k⟩ := h
  exact ⟨f2, f3, fun s h1 h2 => let ⟨a, b, c, d, e⟩ := k s h1 h2; ⟨a, b, c, d.trans hM, e.trans hM⟩⟩

theorem smooth_mono {w : Spec.Wave} {S : ℝ → ℝ → Prop} {g : Grid ℝ} {τ M M' : ℝ} (h : w.Smooth S g τ M) (hM : M ≤ M') : w.Smooth S g τ M' :=
  ⟨fun x y a b => tame_mono (h.Et x y a b) hM, fun x y a b => tame_mono (h.Xt x y a b) hM, fun x y a b => tame_mono (h.Yt x y a b) hM,
    fun t y a b h0 h1 d => tame_mono (h.Ex t y a b h0 h1 d) hM, fun t y a b h0 h1 d => tame_mono (h.Yx t y a b h0 h1 d) hM,
    fun t x a b h0 h1 d => tame_mono (h.Ey t x a b h0 h1 d) hM, fun t x a b h0 h1 d => tame_mono (h.Xy t x a b h0 h1 d) hM⟩

theorem steady_mono {w : Spec.Wave} {g : Grid ℝ} {τ M M' : ℝ} (h : w.Steady g τ M) (hM : M ≤ M') : w.Steady g τ M' := by
  have k : ∀ {a b v : ℝ}, a ≤ b → v ≤ M * (b - a) → v ≤ M' * (b - a) := fun hab hv => hv.trans (mul_le_mul_of_nonneg_right hM (sub_nonneg.mpr hab))
  exact ⟨fun t x y h0 h1 d => (h.E0 t x y h0 h1 d).trans hM, fun t t' x y h0 h1 h2 d => k h1 (h.Et t t' x y h0 h1 h2 d), fun t t' x y h0 h1 h2 d => k h1 (h.Xt t t' x y h0 h1 h2 d),
    fun t t' x y h0 h1 h2 d => k h1 (h.Yt t t' x y h0 h1 h2 d), fun t x x' y h0 h1 h2 d d' => k h2 (h.Ex t x x' y h0 h1 h2 d d'), fun t x x' y h0 h1 h2 d d' => k h2 (h.Yx t x x' y h0 h1 h2 d d'),
    fun t x y y' h0 h1 h2 d d' => k h2 (h.Ey t x y y' h0 h1 h2 d d'), fun t x y y' h0 h1 h2 d d' => k h2 (h.Xy t x y y' h0 h1 h2 d d')⟩

/-- The potential of the wave of the plasma, that of the scattered wave in the disc, and the potential of the scattered wave. -/
noncomputable def glowK (p : ℝ × ℝ × ℝ) : ℝ := Real.smoothTransition (p.1 - p.2.1) * Real.exp (p.2.2 - 10)
noncomputable def glowB (p : ℝ × ℝ × ℝ) : ℝ := glowK p - Real.smoothTransition (p.1 - (p.2.2 - 4))
noncomputable def glowA (p : ℝ × ℝ × ℝ) : ℝ := glowB p * (shutter 18 p.2.1 * shutter 10 (p.2.2 - 4))

theorem glowK_smooth : ContDiff ℝ ∞ glowK := by
  unfold glowK
  exact (transition_smooth.comp (by fun_prop : ContDiff ℝ ∞ fun p : ℝ × ℝ × ℝ => p.1 - p.2.1)).mul (by fun_prop)

theorem glowB_smooth : ContDiff ℝ ∞ glowB :=
  glowK_smooth.sub (transition_smooth.comp (by fun_prop : ContDiff ℝ ∞ fun p : ℝ × ℝ × ℝ => p.1 - (p.2.2 - 4)))

theorem glowA_smooth : ContDiff ℝ ∞ glowA := by
  have s : ∀ {f : ℝ × ℝ × ℝ → ℝ}, ContDiff ℝ ∞ f → ContDiff ℝ ∞ fun p => Real.smoothTransition (f p) := fun hf => transition_smooth.comp hf
  unfold glowA shutter
  refine glowB_smooth.mul ?_
  exact ((s (by fun_prop)).mul (s (by fun_prop))).mul ((s (by fun_prop)).mul (s (by fun_prop)))

/-- The scattered wave. -/
noncomputable def glow : Spec.Wave := .ofPotential glowA

def glowDark : Set (ℝ × ℝ × ℝ) := {p | p.2.1 < 1 ∨ 18 < p.2.1 ∨ p.2.2 < 5 ∨ 14 < p.2.2 ∨ (p.1 < p.2.1 ∧ p.1 < p.2.2 - 4)}
def glowClear : Set (ℝ × ℝ × ℝ) := {p | 2 < p.2.1 ∧ p.2.1 < 17 ∧ 6 < p.2.2 ∧ p.2.2 < 13}

theorem glowDark_open : IsOpen glowDark := by
  have o : ∀ f g : ℝ × ℝ × ℝ → ℝ, Continuous f → Continuous g → IsOpen {p | f p < g p} := fun f g hf hg => isOpen_lt hf hg
  exact (o (fun p => p.2.1) (fun _ => 1) (by fun_prop) (by fun_prop)).union ((o (fun _ => 18) (fun p => p.2.1) (by fun_prop) (by fun_prop)).union
    ((o (fun p => p.2.2) (fun _ => 5) (by fun_prop) (by fun_prop)).union ((o (fun _ => 14) (fun p => p.2.2) (by fun_prop) (by fun_prop)).union
      ((o (fun p => p.1) (fun p => p.2.1) (by fun_prop) (by fun_prop)).inter (o (fun p => p.1) (fun p => p.2.2 - 4) (by fun_prop) (by fun_prop))))))

theorem glowClear_open : IsOpen glowClear := by
  have o : ∀ f g : ℝ × ℝ × ℝ → ℝ, Continuous f → Continuous g → IsOpen {p | f p < g p} := fun f g hf hg => isOpen_lt hf hg
  exact (o (fun _ => 2) (fun p => p.2.1) (by fun_prop) (by fun_prop)).inter ((o (fun p => p.2.1) (fun _ => 17) (by fun_prop) (by fun_prop)).inter
    ((o (fun _ => 6) (fun p => p.2.2) (by fun_prop) (by fun_prop)).inter (o (fun p => p.2.2) (fun _ => 13) (by fun_prop) (by fun_prop))))

theorem glowA_dark : ∀ p ∈ glowDark, glowA p = (fun _ => 0) p := by
  intro p hp
  unfold glowA glowB glowK
  rcases hp with h | h | h | h | ⟨h, h'⟩
  · rw [shutter_out (.inl h.le)]; ring
  · rw [shutter_out (.inr h.le)]; ring
  · rw [shutter_out (b := 10) (.inl (by linarith))]; ring
  · rw [shutter_out (b := 10) (.inr (by linarith))]; ring
  · rw [Real.smoothTransition.zero_of_nonpos (by linarith), Real.smoothTransition.zero_of_nonpos (by linarith : p.1 - (p.2.2 - 4) ≤ 0)]; ring

theorem glowA_clear : ∀ p ∈ glowClear, glowA p = glowB p := by
  intro p ⟨h1, h2, h3, h4⟩
  unfold glowA
  rw [shutter_in h1.le (by linarith), shutter_in (by linarith) (by linarith)]
  ring

theorem glow_dark {t x y : ℝ} (h : (t, x, y) ∈ glowDark) : glow.E t x y = 0 ∧ glow.X t x y = 0 ∧ glow.Y t x y = 0 := by
  have k : ∀ v, tilt v glowA (t, x, y) = 0 := fun v => by rw [tilt_congr glowDark_open glowA_dark v _ h, tilt_const]
  refine ⟨k dirT, ?_, k dirX⟩
  show tilt dirY (fun p => - glowA p) (t, x, y) = 0
  rw [tilt_neg]
  show - tilt dirY glowA (t, x, y) = 0
  rw [k, neg_zero]

theorem glow_rest (g : Grid ℝ) : glow.AtRest g := fun x y _ => by
  refine glow_dark ?_
  by_cases h : x < 1
  · exact .inl h
  · by_cases h' : y < 5
    · exact .inr (.inr (.inl h'))
    · exact .inr (.inr (.inr (.inr ⟨show (0 : ℝ) < x by linarith, show (0 : ℝ) < y - 4 by linarith⟩)))

theorem glow_walls (τ : ℝ) : glow.Walls gOpen τ := by
  refine ⟨fun t y _ _ _ _ => (glow_dark (.inl ?_)).2.2, fun t x _ _ _ _ => (glow_dark (.inr (.inr (.inl ?_)))).2.1, fun t y _ _ _ _ => (glow_dark (.inr (.inl ?_))).1,
    fun t x _ _ _ _ => (glow_dark (.inr (.inr (.inr (.inl ?_))))).1⟩
  · show gOpen.dx / 2 < 1
    rw [gOpen_dx]; norm_num
  · show gOpen.dx / 2 < 5
    rw [gOpen_dx]; norm_num
  · show (18 : ℝ) < gOpen.Lx
    rw [gOpen_Lx]; norm_num
  · show (14 : ℝ) < gOpen.Ly
    rw [gOpen_Ly]; norm_num

theorem transition_deriv (u : ℝ) : HasDerivAt Real.smoothTransition (pulseShape u) u := (transition_smooth.differentiable (by simp)).differentiableAt.hasDerivAt
theorem pulseShape_deriv (u : ℝ) : HasDerivAt pulseShape (deriv pulseShape u) u := (pulseShape_smooth.differentiable (by simp)).differentiableAt.hasDerivAt

theorem pulseShape_comp {f : ℝ × ℝ × ℝ → ℝ} (hf : ContDiff ℝ ∞ f) : ContDiff ℝ ∞ fun p => pulseShape (f p) := pulseShape_smooth.comp hf

/-- The derivatives of the potential in the disc. -/
theorem glowB_t : tilt dirT glowB = fun p => pulseShape (p.1 - p.2.1) * Real.exp (p.2.2 - 10) - pulseShape (p.1 - (p.2.2 - 4)) := by
  funext ⟨t, x, y⟩
  refine (tilt_t glowB_smooth t x y).unique ?_
  have a := (transition_deriv (t - x)).comp_sub_const t x
  have b := (transition_deriv (t - (y - 4))).comp_sub_const t (y - 4)
  exact (a.mul_const (Real.exp (y - 10))).sub b

theorem glowB_x : tilt dirX glowB = fun p => - pulseShape (p.1 - p.2.1) * Real.exp (p.2.2 - 10) := by
  funext ⟨t, x, y⟩
  refine (tilt_x glowB_smooth t x y).unique ?_
  have a := (transition_deriv (t - x)).comp_const_sub t x
  exact ((a.mul_const (Real.exp (y - 10))).sub_const (Real.smoothTransition (t - (y - 4))))

theorem glowB_y : tilt dirY glowB = fun p => Real.smoothTransition (p.1 - p.2.1) * Real.exp (p.2.2 - 10) + pulseShape (p.1 - (p.2.2 - 4)) := by
  funext ⟨t, x, y⟩
  refine (tilt_y glowB_smooth t x y).unique ?_
  have e := ((Real.hasDerivAt_exp (y - 10)).comp_sub_const y 10).const_mul (Real.smoothTransition (t - x))
  have b := (transition_deriv (t - (y - 4))).comp y (((hasDerivAt_id y).sub_const 4).const_sub t)
  have k := e.sub b
  rw [show Real.smoothTransition (t - x) * Real.exp (y - 10) - pulseShape (t - (y - 4)) * -1 = Real.smoothTransition (t - x) * Real.exp (y - 10) + pulseShape (t - (y - 4)) by ring] at k
  exact k

theorem glowB_tt : tilt dirT (tilt dirT glowB) = fun p => deriv pulseShape (p.1 - p.2.1) * Real.exp (p.2.2 - 10) - deriv pulseShape (p.1 - (p.2.2 - 4)) := by
  funext ⟨t, x, y⟩
  refine (tilt_t (tilt_smooth glowB_smooth dirT) t x y).unique ?_
  rw [glowB_t]
  have a := (pulseShape_deriv (t - x)).comp_sub_const t x
  have b := (pulseShape_deriv (t - (y - 4))).comp_sub_const t (y - 4)
  exact (a.mul_const (Real.exp (y - 10))).sub b

theorem glowB_xx : tilt dirX (tilt dirX glowB) = fun p => deriv pulseShape (p.1 - p.2.1) * Real.exp (p.2.2 - 10) := by
  funext ⟨t, x, y⟩
  refine (tilt_x (tilt_smooth glowB_smooth dirX) t x y).unique ?_
  rw [glowB_x]
  have a := ((pulseShape_deriv (t - x)).comp_const_sub t x).neg
  rw [neg_neg] at a
  exact a.mul_const (Real.exp (y - 10))

theorem glowB_yy : tilt dirY (tilt dirY glowB) = fun p => Real.smoothTransition (p.1 - p.2.1) * Real.exp (p.2.2 - 10) - deriv pulseShape (p.1 - (p.2.2 - 4)) := by
  funext ⟨t, x, y⟩
  refine (tilt_y (tilt_smooth glowB_smooth dirY) t x y).unique ?_
  rw [glowB_y]
  have e := ((Real.hasDerivAt_exp (y - 10)).comp_sub_const y 10).const_mul (Real.smoothTransition (t - x))
  have b := (pulseShape_deriv (t - (y - 4))).comp y (((hasDerivAt_id y).sub_const 4).const_sub t)
  have k := e.add b
  rw [show Real.smoothTransition (t - x) * Real.exp (y - 10) + deriv pulseShape (t - (y - 4)) * -1 = Real.smoothTransition (t - x) * Real.exp (y - 10) - deriv pulseShape (t - (y - 4)) by ring] at k
  exact k

/-- The field in the disc, and the current that it needs: that of the plasma. -/
theorem glow_clear {t x y : ℝ} (h : (t, x, y) ∈ glowClear) :
    glow.E t x y = pulseShape (t - x) * Real.exp (y - 10) - pulseShape (t - (y - 4)) ∧ neededCurrent glowA (fun _ _ => 1) (fun _ _ => 0) t x y = glowK (t, x, y) := by
  have k : ∀ v, tilt v glowA (t, x, y) = tilt v glowB (t, x, y) := fun v => tilt_congr glowClear_open glowA_clear v _ h
  have k2 : ∀ u v, tilt u (tilt v glowA) (t, x, y) = tilt u (tilt v glowB) (t, x, y) := fun u v =>
    tilt_congr glowClear_open (tilt_congr glowClear_open glowA_clear v) u _ h
  refine ⟨?_, ?_⟩
  · show tilt dirT glowA (t, x, y) = _
    rw [k, glowB_t]
  · unfold neededCurrent
    have e1 : (Wave.ofPotential glowA).Yx t x y = tilt dirX (tilt dirX glowB) (t, x, y) := k2 _ _
    have e2 : (Wave.ofPotential glowA).Xy t x y = - tilt dirY (tilt dirY glowB) (t, x, y) := by
      show tilt dirY (tilt dirY fun p => - glowA p) (t, x, y) = _
      rw [tilt_neg, tilt_neg]
      show - tilt dirY (tilt dirY glowA) (t, x, y) = _
      rw [k2]
    have e3 : (Wave.ofPotential glowA).Et t x y = tilt dirT (tilt dirT glowB) (t, x, y) := k2 _ _
    rw [e1, e2, e3, glowB_xx, glowB_yy, glowB_tt]
    unfold glowK
    ring

theorem disc_glows {x y : ℝ} (h : (x - 10) ^ 2 + (y - 10) ^ 2 < 4) (t : ℝ) : (t, x, y) ∈ glowClear :=
  ⟨show 2 < x by nlinarith [sq_nonneg (y - 10)], show x < 17 by nlinarith [sq_nonneg (y - 10)], show 6 < y by nlinarith [sq_nonneg (x - 10)], show y < 13 by nlinarith [sq_nonneg (x - 10)]⟩

/-- The disc of plasma. -/
noncomputable def glowDisc : Object ℝ := disc ⟨"p", .drude ⟨1, [⟨1, 0⟩]⟩⟩ 10 10
open Classical in
noncomputable def glowRes (x y : ℝ) : Response := if (x - 10) ^ 2 + (y - 10) ^ 2 < 4 then .drude 0 1 else .plain
/-- The current of the sources: what the wave needs outside the disc. -/
noncomputable def glowJ : ℝ → ℝ → ℝ → ℝ := offDisc (neededCurrent glowA (fun _ _ => 1) fun _ _ => 0)
/-- The current in the plasma. -/
noncomputable def glowI : ℝ → ℝ → ℝ → ℝ := inDisc fun t x y => glowK (t, x, y)
noncomputable def glowIt : ℝ → ℝ → ℝ → ℝ := inDisc fun t x y => tilt dirT glowK (t, x, y)

theorem glowK_t (t x y : ℝ) : tilt dirT glowK (t, x, y) = pulseShape (t - x) * Real.exp (y - 10) := by
  refine (tilt_t glowK_smooth t x y).unique ?_
  exact ((transition_deriv (t - x)).comp_sub_const t x).mul_const (Real.exp (y - 10))

theorem glow_sum (t x y : ℝ) : glowI t x y + (glowJ t x y + induced (fun _ _ => 1) (fun _ _ => 0) glint.resp (entry gOpen litVol) t x y) =
    neededCurrent glowA (fun _ _ => 1) (fun _ _ => 0) t x y := by
  unfold glowI glowJ inDisc offDisc induced
  by_cases h : (x - 10) ^ 2 + (y - 10) ^ 2 < 4
  · rw [if_pos h, if_pos h, (glow_clear (disc_glows h t)).2]; ring
  · rw [if_neg h, if_neg h]; ring

theorem glow_polarized {τ M : ℝ} (hM : ∀ F ∈ watched glowK, ∀ p ∈ region gOpen τ, |F p| ≤ M) (M0 : 0 ≤ M) :
    (glow.illumined glint.resp (entry gOpen litVol)).Polarized glowI glowIt (fun _ _ => True) glowRes gOpen τ M := by
  have en : entry gOpen litVol = 4 := by
    unfold entry
    rw [lit_a, gOpen_dx]
    norm_num
  have s1 := tilt_smooth glowK_smooth dirT
  have s2 := tilt_smooth s1 dirT
  refine ⟨fun t x y _ _ _ _ => ?_, fun x y d _ => ?_, fun t x y h0 h1 d => ?_, fun t t' x y h0 h1 h2 d => ?_⟩
  · unfold glowI glowIt inDisc glowRes
    by_cases h : (x - 10) ^ 2 + (y - 10) ^ 2 < 4
    · rw [if_pos h, if_pos h, if_pos h]
      simp only [Response.Law, Wave.illumined, planeE, glint]
      rw [glowK_t, (glow_clear (disc_glows h t)).1, en]
      ring
    · rw [if_neg h, if_neg h, if_neg h]
      rfl
  · unfold glowI glowIt inDisc
    by_cases h : (x - 10) ^ 2 + (y - 10) ^ 2 < 4
    · simp only [if_pos h]
      exact ⟨fun t => tilt dirT (tilt dirT glowK) (t, x, y), fun t => tilt dirT (tilt dirT (tilt dirT glowK)) (t, x, y), fun t h0 h1 =>
        ⟨tilt_t glowK_smooth t x y, tilt_t s1 t x y, tilt_t s2 t x y, hM _ (by simp [watched]) _ (region_mem h0 h1 d), hM _ (by simp [watched]) _ (region_mem h0 h1 d)⟩⟩
    · simp only [if_neg h]
      exact ⟨fun _ => 0, fun _ => 0, fun s _ _ => ⟨hasDerivAt_const _ _, hasDerivAt_const _ _, hasDerivAt_const _ _, by simpa using M0, by simpa using M0⟩⟩
  · unfold glowI inDisc
    by_cases h : (x - 10) ^ 2 + (y - 10) ^ 2 < 4
    · rw [if_pos h]
      exact hM glowK (by simp [watched]) _ (region_mem h0 h1 d)
    · rw [if_neg h]
      simpa using M0
  · unfold glowI inDisc
    by_cases h : (x - 10) ^ 2 + (y - 10) ^ 2 < 4
    · rw [if_pos h, if_pos h]
      exact lip_of_bound (f := fun t => glowK (t, x, y)) (f1 := fun t => tilt dirT glowK (t, x, y)) (a := 0) (b := τ)
        (fun s k0 k1 => ⟨tilt_t glowK_smooth s x y, hM _ (by simp [watched]) _ (region_mem k0 k1 d)⟩) h0 h1 h2
    · rw [if_neg h, if_neg h, sub_zero, abs_zero]
      exact mul_nonneg M0 (sub_nonneg.mpr h1)

theorem glow_objects : (∀ o ∈ [glowDisc], BoxSound o) ∧ (∀ o ∈ [glowDisc], ClearOfUnguardedEdges gOpen o) ∧
    (∀ o ∈ [glowDisc], PassiveKind o.mat.kind) ∧ OneMeaning [glowDisc] ∧ Uncovered gOpen [glowDisc] := by
  refine ⟨?_, ?_, ?_, ?_, ?_⟩
  · intro o ho
    rw [List.mem_singleton.mp ho]
    exact disc_sound _ _ _
  · intro o ho p hin
    rw [List.mem_singleton.mp ho, glowDisc, disc_inside] at hin
    rw [gOpen_Lx]
    constructor <;> nlinarith [sq_nonneg (p.x - 10), sq_nonneg (p.y - 10)]
  · intro o ho
    rw [List.mem_singleton.mp ho]
    exact ⟨le_rfl, by simp, by simp, by simp⟩
  · intro o ho o' ho' _ _ _
    rw [List.mem_singleton.mp ho, List.mem_singleton.mp ho']
  · rintro o ho _ i j _ o' ⟨b, a, e, -⟩
    have : o' = glowDisc := List.mem_singleton.mp (by rw [e]; simp)
    rw [this, List.mem_singleton.mp ho]

theorem glow_within : AllWithin gOpen litVol [glowDisc] := by
  intro o ho i j h
  rw [List.mem_singleton.mp ho, glowDisc, disc_inside] at h
  rw [lit_a, lit_b]
  simp only [Grid.toReal, gOpen_dx, ofInt_real, one_mul] at h
  have k : (i - 10) ^ 2 + (j - 10) ^ 2 < 4 := by exact_mod_cast h
  have a1 : i - 10 < 2 := by nlinarith [sq_nonneg (j - 10)]
  have a2 : -2 < i - 10 := by nlinarith [sq_nonneg (j - 10)]
  have a3 : j - 10 < 2 := by nlinarith [sq_nonneg (i - 10)]
  have a4 : -2 < j - 10 := by nlinarith [sq_nonneg (i - 10)]
  simp only
  omega

theorem flash_at_most : ∃ M, ∀ τ, SignalAtMost pulseShape τ M := by
  have z : ∀ {U : Set ℝ}, IsOpen U → (∀ t ∈ U, pulseShape t = 0) → ∀ t ∈ U, pulseShape t = 0 ∧ deriv pulseShape t = 0 := fun hU h t ht => by
    have e : pulseShape =ᶠ[nhds t] fun _ => 0 := Filter.eventuallyEq_of_mem (hU.mem_nhds ht) h
    exact ⟨h t ht, by rw [e.deriv_eq, deriv_const]⟩
  obtain ⟨M, hM⟩ := (isCompact_Icc (a := (0 : ℝ)) (b := 1)).exists_bound_of_continuousOn pulseShape_smooth.continuous.continuousOn
  obtain ⟨M', hM'⟩ := (isCompact_Icc (a := (0 : ℝ)) (b := 1)).exists_bound_of_continuousOn (show Continuous (deriv pulseShape) from (contDiff_infty.mp pulseShape_smooth 1).continuous_deriv le_rfl).continuousOn
  refine ⟨max (max M M') 0, fun τ t _ => ?_⟩
  by_cases h0 : t < 0
  · obtain ⟨a, b⟩ := z isOpen_Iio (fun t ht => pulseShape_before (le_of_lt ht)) t h0
    rw [a, b, abs_zero]
    exact ⟨le_max_right .., le_max_right ..⟩
  · by_cases h1 : 1 < t
    · obtain ⟨a, b⟩ := z isOpen_Ioi (fun t ht => pulseShape_over ht) t h1
      rw [a, b, abs_zero]
      exact ⟨le_max_right .., le_max_right ..⟩
    · exact ⟨(hM t ⟨not_lt.mp h0, not_lt.mp h1⟩).trans ((le_max_left ..).trans (le_max_left ..)), (hM' t ⟨not_lt.mp h0, not_lt.mp h1⟩).trans ((le_max_right ..).trans (le_max_left ..))⟩

/-- **A case of C106**: a flash passes through a region with a disc of plasma, the wave that it scatters and the current in the plasma are not zero, and sources outside
the disc carry the rest. Any number of updates. -/
theorem plasma_scatters (n : ℕ) : ∃ M Ms c, (⟨[glowDisc], radiators gOpen (fun _ _ => 1) (fun _ _ => 0) glowJ (- (gOpen.dt / 2)), some (litVol, glint)⟩ : Scene).run gOpen n = .ok c ∧
      Real.sqrt (litGap glow litVol glint.resp gOpen n c.f (updatedNodes gOpen)) ≤ restError (fun _ _ => True) gOpen M (1 + 3 ^ 2) +
        n * gOpen.dt * polarError (fun _ _ => True) gOpen (2 * M) 1 0 3 (0 + inducedError Ms gOpen.dt (n + 1) (rows gOpen litVol) (1 - 1 + 0 + 3)) +
        (incidentError Ms gOpen.dt n (rows gOpen litVol) + incidentErrorX Ms gOpen.dt n (rows gOpen litVol)) * Real.sqrt (gOpen.Lx * gOpen.Ly) := by
  obtain ⟨Ms, hMs⟩ := smooth_flash
  have hl : Lawful gOpen := gOpen_lawful
  have nn := Nat.cast_nonneg (α := ℝ) n
  have hd : gOpen.dt = 1 / 2 := by rw [hl.dt, gOpen_dx]
  obtain ⟨M1, M10, sm, st, -, cm⟩ := potential_bounded glowA_smooth gOpen (n + 1) (eps := fun _ _ => 1) (sig := fun _ _ => 0) (em := 1) (sm := 0) (fun x y => by norm_num) (fun x y => by norm_num)
  obtain ⟨M2, M20, hM2⟩ := bounded_on gOpen (n + 1) (watched glowK) (watched_smooth glowK_smooth)
  obtain ⟨M3, hM3⟩ := flash_at_most
  set M := max M1 (max M2 M3) with hM
  have l1 : M1 ≤ M := le_max_left ..
  have l2 : M2 ≤ M := (le_max_left ..).trans (le_max_right ..)
  have l3 : M3 ≤ M := (le_max_right ..).trans (le_max_right ..)
  obtain ⟨h1, h2, h3, h4, h5⟩ := glow_objects
  have at_disc : ∀ p o, TopAt [glowDisc] p o → (p.x - 10) ^ 2 + (p.y - 10) ^ 2 < 4 ∧ o = glowDisc := by
    rintro p o ⟨b, a, e, k, -⟩
    have : o = glowDisc := List.mem_singleton.mp (by rw [e]; simp)
    subst this
    rw [glowDisc, disc_inside] at k
    exact ⟨k, rfl⟩
  have free : ∀ t x y, induced (fun _ _ => 1) (fun _ _ => 0) glint.resp (entry gOpen litVol) t x y = 0 := fun t x y => by unfold induced; ring
  refine ⟨M, Ms, ?_⟩
  refine C106_scattering n gOpen gOpen_wide hl gOpen_T [glowDisc] h1 h2 h3 h4 h5 (fun _ _ => 1) (fun _ _ => 0) glowRes ⟨fun p o ho => ?_, fun p hp => ?_⟩ 1 0 3
    ⟨fun _ _ => le_rfl, fun _ _ => le_rfl, fun x y => by unfold glowRes; split <;> norm_num [Response.stiff]⟩ litVol glint lit_region glow_within Ms hMs
    glow glowI glowIt glowJ (fun _ _ => True) (n + 1) M 0 (smooth_mono sm l1) (steady_mono st l1) (fun t ht => ⟨(hM3 _ t ht).1.trans l3, (hM3 _ t ht).2.trans l3⟩)
    (by simp only [glow_sum]; exact potential_driven glowA_smooth _ _ _ _)
    (glow_polarized (fun F hF p hp => (hM2 F hF p hp).trans l2) (M10.trans l1)) (fun t x y k0 k1 d => ?_) (glow_walls _) (glow_rest _) (fun x y d => ?_) _ (radiators_fit hl _ _ _ _)
    (radiators_carry hl glowJ (fun i j _ => ⟨le_rfl, le_rfl⟩) fun m i j _ _ => by
      rw [show ((m : ℝ) + 1) * gOpen.dt + - (gOpen.dt / 2) = (m + 1 / 2) * gOpen.dt by ring, sub_self, abs_zero])
    (radiators_outside hl _ _ _ fun t p o ho _ => ?_) (by rw [hd]; linarith)
  · obtain ⟨k, rfl⟩ := at_disc p o ho
    unfold glowRes
    rw [if_pos k]
    exact KindIs.drude 1 ⟨1, 0⟩
  · have := hp _ (List.mem_singleton_self _)
    rw [← Bool.not_eq_true, glowDisc, disc_inside] at this
    unfold glowRes
    rw [if_neg this]
    exact ⟨rfl, rfl, rfl⟩
  · simp only [free, add_zero]
    unfold glowJ offDisc
    split
    · simpa using M10.trans l1
    · exact (cm t x y k0 k1 d).trans l1
  · unfold glowI inDisc
    split
    · show Real.smoothTransition (0 - x) * Real.exp (y - 10) = 0
      rw [Real.smoothTransition.zero_of_nonpos (show (0 : ℝ) - x ≤ 0 by linarith [d.x0]), zero_mul]
    · rfl
  · unfold glowJ offDisc
    rw [if_pos (at_disc p o ho).1]

/-- The current at the centre of the disc is not zero once the wave has come. -/
example : glowI 11 10 10 = 1 := by
  unfold glowI inDisc glowK
  rw [if_pos (by norm_num)]
  norm_num

end Qbox.Props
