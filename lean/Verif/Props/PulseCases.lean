import Verif.Props.PoyntingCases
import Verif.Props.PolarCases
import Verif.Props.LorentzWaveCases
import Verif.Lemmas.Potential
import Mathlib.Analysis.SpecialFunctions.SmoothTransition

/-! # A pulse of light that passes through a box (C98)

A plane pulse that sources outside the box send through it and take up again. -/

namespace Qbox.Props
open Qbox Scalar Spec MeasureTheory
open scoped ContDiff

/-- One between 2 and `b - 1`, zero outside of the interval from 1 to `b`. -/
noncomputable def shutter (b x : ℝ) : ℝ := Real.smoothTransition (x - 1) * Real.smoothTransition (b - x)

theorem shutter_out {b x : ℝ} (h : x ≤ 1 ∨ b ≤ x) : shutter b x = 0 := by
  unfold shutter
  rcases h with h | h
  · rw [Real.smoothTransition.zero_of_nonpos (by linarith), zero_mul]
  · rw [Real.smoothTransition.zero_of_nonpos (by linarith : b - x ≤ 0), mul_zero]

theorem shutter_in {b x : ℝ} (h1 : 2 ≤ x) (h2 : x ≤ b - 1) : shutter b x = 1 := by
  unfold shutter
  rw [Real.smoothTransition.one_of_one_le (by linarith), Real.smoothTransition.one_of_one_le (by linarith), mul_one]

/-- The potential of the pulse. -/
noncomputable def pulseA (p : ℝ × ℝ × ℝ) : ℝ := Real.smoothTransition (p.1 - p.2.1) * (shutter 18 p.2.1 * shutter 14 p.2.2)

theorem transition_smooth : ContDiff ℝ ∞ Real.smoothTransition := Real.smoothTransition.contDiff

theorem pulseA_smooth : ContDiff ℝ ∞ pulseA := by
  have s : ∀ {f : ℝ × ℝ × ℝ → ℝ}, ContDiff ℝ ∞ f → ContDiff ℝ ∞ fun p => Real.smoothTransition (f p) := fun hf => transition_smooth.comp hf
  unfold pulseA shutter
  refine (s (by fun_prop)).mul ?_
  exact ((s (by fun_prop)).mul (s (by fun_prop))).mul ((s (by fun_prop)).mul (s (by fun_prop)))

/-- Where the pulse has not arrived, and where it is shut out. -/
def pulseDark : Set (ℝ × ℝ × ℝ) := {p | p.1 < p.2.1 ∨ p.2.1 < 1 ∨ 18 < p.2.1 ∨ p.2.2 < 1 ∨ 14 < p.2.2}

theorem pulseDark_open : IsOpen pulseDark := by
  have o : ∀ f g : ℝ × ℝ × ℝ → ℝ, Continuous f → Continuous g → IsOpen {p | f p < g p} := fun f g hf hg => isOpen_lt hf hg
  exact (o (fun p => p.1) (fun p => p.2.1) (by fun_prop) (by fun_prop)).union ((o (fun p => p.2.1) (fun _ => 1) (by fun_prop) (by fun_prop)).union
    ((o (fun _ => 18) (fun p => p.2.1) (by fun_prop) (by fun_prop)).union ((o (fun p => p.2.2) (fun _ => 1) (by fun_prop) (by fun_prop)).union
      (o (fun _ => 14) (fun p => p.2.2) (by fun_prop) (by fun_prop)))))

theorem pulseA_dark : ∀ p ∈ pulseDark, pulseA p = (fun _ => 0) p := by
  intro p hp
  unfold pulseA
  rcases hp with h | h | h | h | h
  · rw [Real.smoothTransition.zero_of_nonpos (by linarith), zero_mul]
  · rw [shutter_out (.inl h.le)]; ring
  · rw [shutter_out (.inr h.le)]; ring
  · rw [shutter_out (b := 14) (.inl h.le)]; ring
  · rw [shutter_out (b := 14) (.inr h.le)]; ring

theorem tilt_const (v : ℝ × ℝ × ℝ) (c : ℝ) : tilt v (fun _ => c) = fun _ => 0 := by
  funext p
  unfold tilt
  rw [fderiv_fun_const]
  rfl

theorem pulse_tilt_dark (v : ℝ × ℝ × ℝ) : ∀ p ∈ pulseDark, tilt v pulseA p = (fun _ => 0) p := fun p hp => by
  rw [tilt_congr pulseDark_open pulseA_dark v p hp, tilt_const]

theorem pulse_tilt2_dark (u v : ℝ × ℝ × ℝ) : ∀ p ∈ pulseDark, tilt u (tilt v pulseA) p = 0 := fun p hp => by
  rw [tilt_congr pulseDark_open (pulse_tilt_dark v) u p hp, tilt_const]

theorem tilt_neg (v : ℝ × ℝ × ℝ) (A : ℝ × ℝ × ℝ → ℝ) : (tilt v fun p => - A p) = fun p => - tilt v A p := by
  funext p
  unfold tilt
  rw [fderiv_fun_neg]
  rfl

/-- Where the shutters are open. -/
def pulseClear : Set (ℝ × ℝ × ℝ) := {p | 2 < p.2.1 ∧ p.2.1 < 17 ∧ 2 < p.2.2 ∧ p.2.2 < 13}

theorem pulseClear_open : IsOpen pulseClear := by
  have o : ∀ f g : ℝ × ℝ × ℝ → ℝ, Continuous f → Continuous g → IsOpen {p | f p < g p} := fun f g hf hg => isOpen_lt hf hg
  exact (o (fun _ => 2) (fun p => p.2.1) (by fun_prop) (by fun_prop)).inter ((o (fun p => p.2.1) (fun _ => 17) (by fun_prop) (by fun_prop)).inter
    ((o (fun _ => 2) (fun p => p.2.2) (by fun_prop) (by fun_prop)).inter (o (fun p => p.2.2) (fun _ => 13) (by fun_prop) (by fun_prop))))

theorem pulseA_clear : ∀ p ∈ pulseClear, pulseA p = (fun p : ℝ × ℝ × ℝ => Real.smoothTransition (p.1 - p.2.1)) p := by
  intro p ⟨h1, h2, h3, h4⟩
  unfold pulseA
  rw [shutter_in h1.le (by linarith), shutter_in h3.le (by linarith)]
  ring

theorem tilt_plane {f : ℝ → ℝ} (hf : ContDiff ℝ ∞ f) (v : ℝ × ℝ × ℝ) :
    (tilt v fun p : ℝ × ℝ × ℝ => f (p.1 - p.2.1)) = fun p : ℝ × ℝ × ℝ => (v.1 - v.2.1) * deriv f (p.1 - p.2.1) := by
  funext p
  have d : HasFDerivAt (fun p : ℝ × ℝ × ℝ => p.1 - p.2.1) (ContinuousLinearMap.fst ℝ ℝ (ℝ × ℝ) - (ContinuousLinearMap.fst ℝ ℝ ℝ).comp (ContinuousLinearMap.snd ℝ ℝ (ℝ × ℝ))) p :=
    (hasFDerivAt_fst).sub ((hasFDerivAt_fst).comp p hasFDerivAt_snd)
  have h := ((hf.differentiable (by simp)).differentiableAt (x := p.1 - p.2.1)).hasDerivAt.hasFDerivAt.comp p d
  unfold tilt
  rw [show (fun p : ℝ × ℝ × ℝ => f (p.1 - p.2.1)) = f ∘ fun p : ℝ × ℝ × ℝ => p.1 - p.2.1 from rfl, h.fderiv]
  simp
  ring

/-- The pulse itself. -/
noncomputable def pulseShape : ℝ → ℝ := deriv Real.smoothTransition

theorem pulseShape_smooth : ContDiff ℝ ∞ pulseShape := transition_smooth.deriv' 

theorem pulse_tilt_clear (v : ℝ × ℝ × ℝ) : ∀ p ∈ pulseClear, tilt v pulseA p = (v.1 - v.2.1) * pulseShape (p.1 - p.2.1) := fun p hp => by
  rw [tilt_congr pulseClear_open pulseA_clear v p hp, tilt_plane transition_smooth]
  rfl

theorem pulse_tilt2_clear (u v : ℝ × ℝ × ℝ) : ∀ p ∈ pulseClear, tilt u (tilt v pulseA) p = (v.1 - v.2.1) * ((u.1 - u.2.1) * deriv pulseShape (p.1 - p.2.1)) := fun p hp => by
  rw [tilt_congr pulseClear_open (pulse_tilt_clear v) u p hp]
  have : (fun p : ℝ × ℝ × ℝ => (v.1 - v.2.1) * pulseShape (p.1 - p.2.1)) = fun p => (fun s => (v.1 - v.2.1) * pulseShape s) (p.1 - p.2.1) := rfl
  rw [this, tilt_plane (contDiff_const.mul pulseShape_smooth)]
  show (u.1 - u.2.1) * deriv (fun s => (v.1 - v.2.1) * pulseShape s) (p.1 - p.2.1) = _
  rw [deriv_const_mul _ ((pulseShape_smooth.differentiable (by simp)).differentiableAt)]
  ring

/-- The pulse is over after a unit of time. -/
theorem pulseShape_over {s : ℝ} (h : 1 < s) : pulseShape s = 0 := by
  unfold pulseShape
  have : Real.smoothTransition =ᶠ[nhds s] fun _ => 1 := Filter.mem_of_superset (isOpen_Ioi.mem_nhds h) fun u hu => Real.smoothTransition.one_of_one_le (le_of_lt hu)
  rw [this.deriv_eq, deriv_const]

/-- It is not zero all the time. -/
theorem pulseShape_shines : ∃ s, 0 < s ∧ s < 1 ∧ pulseShape s = 1 := by
  obtain ⟨c, hc, e⟩ := exists_deriv_eq_slope Real.smoothTransition (a := 0) (b := 1) one_pos Real.smoothTransition.continuous.continuousOn (transition_smooth.differentiable (by simp)).differentiableOn
  refine ⟨c, hc.1, hc.2, ?_⟩
  unfold pulseShape
  rw [e, Real.smoothTransition.one, Real.smoothTransition.zero]
  norm_num

/-- The light. -/
noncomputable def pulse : Spec.Wave := .ofPotential pulseA

theorem pulse_dark {t x y : ℝ} (h : (t, x, y) ∈ pulseDark) : pulse.E t x y = 0 ∧ pulse.X t x y = 0 ∧ pulse.Y t x y = 0 := by
  refine ⟨pulse_tilt_dark dirT _ h, ?_, pulse_tilt_dark dirX _ h⟩
  show tilt dirY (fun p => - pulseA p) (t, x, y) = 0
  rw [tilt_neg]
  show - tilt dirY pulseA (t, x, y) = 0
  rw [pulse_tilt_dark dirY _ h, neg_zero]

theorem pulse_rest (g : Grid ℝ) : pulse.AtRest g := fun x y d => by
  refine pulse_dark ?_
  by_cases h : x < 1
  · exact .inr (.inl h)
  · exact .inl (show 0 < x by linarith)

theorem pulse_walls (τ : ℝ) : pulse.Walls gOpen τ := by
  refine ⟨fun t y _ _ _ _ => (pulse_dark (.inr (.inl ?_))).2.2, fun t x _ _ _ _ => (pulse_dark (.inr (.inr (.inr (.inl ?_))))).2.1, fun t y _ _ _ _ => (pulse_dark (.inr (.inr (.inl ?_)))).1,
    fun t x _ _ _ _ => (pulse_dark (.inr (.inr (.inr (.inr ?_))))).1⟩
  · show gOpen.dx / 2 < 1
    rw [gOpen_dx]; norm_num
  · show gOpen.dx / 2 < 1
    rw [gOpen_dx]; norm_num
  · show (18 : ℝ) < gOpen.Lx
    rw [gOpen_Lx]; norm_num
  · show (14 : ℝ) < gOpen.Ly
    rw [gOpen_Ly]; norm_num

/-- Within the clear region the field is a plane pulse in vacuum, and needs no current. -/
theorem pulse_clear {t x y : ℝ} (h : (t, x, y) ∈ pulseClear) : pulse.E t x y = pulseShape (t - x) ∧ pulse.X t x y = 0 ∧ pulse.Y t x y = - pulseShape (t - x) := by
  refine ⟨?_, ?_, ?_⟩
  · show tilt dirT pulseA (t, x, y) = _
    rw [pulse_tilt_clear dirT _ h]
    simp [dirT]
  · show tilt dirY (fun p => - pulseA p) (t, x, y) = 0
    rw [tilt_neg]
    show - tilt dirY pulseA (t, x, y) = 0
    rw [pulse_tilt_clear dirY _ h]
    simp [dirY]
  · show tilt dirX pulseA (t, x, y) = _
    rw [pulse_tilt_clear dirX _ h]
    simp [dirX]

theorem pulse_free {eps sig : ℝ → ℝ → ℝ} {t x y : ℝ} (h : (t, x, y) ∈ pulseClear) (h1 : eps x y = 1) (h2 : sig x y = 0) : neededCurrent pulseA eps sig t x y = 0 := by
  unfold neededCurrent
  rw [h1, h2]
  have e1 : (Wave.ofPotential pulseA).Yx t x y = deriv pulseShape (t - x) := by
    show tilt dirX (tilt dirX pulseA) (t, x, y) = _
    rw [pulse_tilt2_clear _ _ _ h]
    simp [dirX]
  have e2 : (Wave.ofPotential pulseA).Xy t x y = 0 := by
    show tilt dirY (tilt dirY fun p => - pulseA p) (t, x, y) = _
    rw [tilt_neg, tilt_neg]
    show - tilt dirY (tilt dirY pulseA) (t, x, y) = 0
    rw [pulse_tilt2_clear _ _ _ h]
    simp [dirY]
  have e3 : (Wave.ofPotential pulseA).Et t x y = deriv pulseShape (t - x) := by
    show tilt dirT (tilt dirT pulseA) (t, x, y) = _
    rw [pulse_tilt2_clear _ _ _ h]
    simp [dirT]
  rw [e1, e2, e3]
  ring

/-- In the dark no current is needed, whatever the medium. -/
theorem pulse_dark_free {eps sig : ℝ → ℝ → ℝ} {t x y : ℝ} (h : (t, x, y) ∈ pulseDark) : neededCurrent pulseA eps sig t x y = 0 := by
  unfold neededCurrent
  have e1 : (Wave.ofPotential pulseA).Yx t x y = 0 := pulse_tilt2_dark _ _ _ h
  have e2 : (Wave.ofPotential pulseA).Xy t x y = 0 := by
    show tilt dirY (tilt dirY fun p => - pulseA p) (t, x, y) = _
    rw [tilt_neg, tilt_neg]
    show - tilt dirY (tilt dirY pulseA) (t, x, y) = 0
    rw [pulse_tilt2_dark _ _ _ h, neg_zero]
  have e3 : (Wave.ofPotential pulseA).Et t x y = 0 := pulse_tilt2_dark _ _ _ h
  have e4 : (Wave.ofPotential pulseA).E t x y = 0 := pulse_tilt_dark _ _ h
  rw [e1, e2, e3, e4]
  ring

/-- Between the nodes (3, 4) and (14, 12) it fades completely. -/
theorem pulse_settled {T : ℝ} (hT : 15 < T) : pulse.Settled (fun _ _ => True) (gOpen.toReal ⟨3, 4⟩) (gOpen.toReal ⟨14, 12⟩) T 0 := by
  refine ⟨pieces_all _ _, potential_regular pulseA_smooth _ _ _ _, fun x y h => ?_⟩
  have c : (T, x, y) ∈ pulseClear ∧ 1 < T - x := by
    obtain ⟨⟨h1, h2⟩, h3, h4⟩ := h
    simp only [Grid.toReal, gOpen_dx] at h1 h2 h3 h4
    norm_num at h1 h2 h3 h4
    exact ⟨⟨by show 2 < x; linarith, by show x < 17; linarith, by show 2 < y; linarith, by show y < 13; linarith⟩, by linarith⟩
  obtain ⟨e1, e2, e3⟩ := pulse_clear c.1
  rw [e1, e2, e3, pulseShape_over c.2]
  simp

theorem pulse_no_current {eps sig : ℝ → ℝ → ℝ} (h : ∀ x y, x ≤ 14 → y ≤ 12 → eps x y = 1 ∧ sig x y = 0) (T : ℝ) :
    NoCurrent (neededCurrent pulseA eps sig) (gOpen.toReal ⟨3, 4⟩) (gOpen.toReal ⟨14, 12⟩) T := by
  rintro t - x y ⟨⟨h1, h2⟩, h3, h4⟩
  simp only [Grid.toReal, gOpen_dx] at h1 h2 h3 h4
  norm_num at h1 h2 h3 h4
  exact pulse_free ⟨by show 2 < x; linarith, by show x < 17; linarith, by show 2 < y; linarith, by show y < 13; linarith⟩ (h x y h2 h4).1 (h x y h2 h4).2

/-- Different names for a disc and the sources of a current. -/
theorem disc_names (m : Material ℝ) (x y : ℝ) (hp : PlainNames (.op (.addObject (disc m x y)))) (g : Grid ℝ) (eps sig : ℝ → ℝ → ℝ) (J : ℝ → ℝ → ℝ → ℝ) (a : ℝ) :
    DistinctNames (furnish [disc m x y] (renamed 0 (radiators g eps sig J a))) ∧ ∀ c ∈ furnish [disc m x y] (renamed 0 (radiators g eps sig J a)), PlainNames c := by
  constructor
  · unfold DistinctNames furnish
    rw [List.flatMap_append, List.flatMap_map, List.flatMap_map]
    refine List.nodup_append.mpr ⟨List.nodup_singleton _, renamed_claims _ 0, fun p hp q hq e => ?_⟩
    obtain ⟨o, -, hp⟩ := List.mem_flatMap.mp hp
    obtain ⟨s, -, hq⟩ := List.mem_flatMap.mp hq
    rw [List.mem_singleton.mp hp, List.mem_singleton.mp hq] at e
    exact absurd (List.cons.inj e).1 (by decide)
  · intro c hc
    rcases List.mem_append.mp hc with hc | hc
    · obtain ⟨o, ho, rfl⟩ := List.mem_map.mp hc
      rw [List.mem_singleton.mp ho]
      exact hp
    · obtain ⟨s, hs, rfl⟩ := List.mem_map.mp hc
      obtain ⟨⟨r, h1, -, h2⟩, -⟩ := renamed_mem hs
      obtain ⟨p, -, rfl⟩ := List.mem_map.mp h1
      have e : s.tp.params = [] := by rw [← h2]; rfl
      show ("position" :: "p1" :: "p2" :: "sign" :: s.tp.params.map (·.1)).Nodup
      rw [e]
      decide

open Classical in
noncomputable def sideEps (x y : ℝ) : ℝ := if (x - 17) ^ 2 + (y - 8) ^ 2 < 4 then 3 else 1
open Classical in
noncomputable def sideSig (x y : ℝ) : ℝ := if (x - 17) ^ 2 + (y - 8) ^ 2 < 4 then 1 else 0

theorem side_cases (x y : ℝ) : (15 < x ∧ sideEps x y = 3 ∧ sideSig x y = 1) ∨ (sideEps x y = 1 ∧ sideSig x y = 0) := by
  unfold sideEps sideSig
  by_cases h : (x - 17) ^ 2 + (y - 8) ^ 2 < 4
  · left; rw [if_pos h, if_pos h]; exact ⟨by nlinarith [sq_nonneg (y - 8)], rfl, rfl⟩
  · right; rw [if_neg h, if_neg h]; exact ⟨rfl, rfl⟩

theorem sideEps_measurable : Measurable fun z : ℝ × ℝ => sideEps z.1 z.2 := by
  classical
  have m : MeasurableSet {z : ℝ × ℝ | (z.1 - 17) ^ 2 + (z.2 - 8) ^ 2 < 4} := measurableSet_lt (by fun_prop) measurable_const
  exact Measurable.ite m measurable_const measurable_const

/-- A conducting dielectric disc behind the box, in the light. -/
noncomputable def sideDisc : Object ℝ := disc ⟨"m", .simple ⟨3, 1, 1⟩⟩ 17 8

theorem sideDisc_clear : ∀ o ∈ [sideDisc], ClearOfUnguardedEdges gOpen o := by
  intro o ho p hin
  rw [List.mem_singleton.mp ho, sideDisc, disc_inside] at hin
  rw [gOpen_Lx]
  constructor <;> nlinarith [sq_nonneg (p.x - 17), sq_nonneg (p.y - 8)]

theorem sideDisc_medium : MediumOf [sideDisc] sideEps sideSig := by
  constructor
  · rintro p o m ⟨b, a, e, h1, -⟩ hk
    have : o = sideDisc := List.mem_singleton.mp (by rw [e]; simp)
    subst this
    rw [sideDisc, disc_inside] at h1
    cases hk
    unfold sideEps sideSig
    rw [if_pos h1, if_pos h1]
    exact ⟨rfl, rfl⟩
  · intro p hp
    have := hp _ (List.mem_singleton_self _)
    rw [← Bool.not_eq_true, sideDisc, disc_inside] at this
    unfold sideEps sideSig
    rw [if_neg this, if_neg this]
    exact ⟨rfl, rfl⟩

/-- The sources of the pulse. -/
noncomputable def pulseSources : List (Source ℝ) := renamed 0 (radiators gOpen sideEps sideSig (neededCurrent pulseA sideEps sideSig) (- (gOpen.dt / 2)))

/-- A non-trivial case of `C98_lossless` and `C98_passive_simple`: a pulse passes through the box between the nodes (3, 4) and (14, 12) and hits a conducting dielectric disc behind it. Sources
outside of the box send it and take it up. Once it has passed, the number in the file is zero up to the error of the scheme. -/
example (now : ℕ → ℝ) (freq : List ℝ) (n : ℕ) (hn : 31 ≤ n) : ∃ w4 M,
    BoxWritten now gOpen (furnish [sideDisc] pulseSources) (List.replicate n (.op .update)) [] "v" ⟨((3 : ℤ) : ℝ), ((4 : ℤ) : ℝ)⟩ ⟨((14 : ℤ) : ℝ), ((12 : ℤ) : ℝ)⟩ .tangent freq n w4 ∧
    (∃ F : ℝ → ℝ, w4.tree.at ["monitors", "box_monitor", "v", "flux"] = some (.nums (freq.map F)) ∧ ∀ f, |gOpen.dt ^ 2 * F f| ≤
      boxFlowError gOpen (gOpen.toGrid ⟨((3 : ℤ) : ℝ), ((4 : ℤ) : ℝ)⟩) (gOpen.toGrid ⟨((14 : ℤ) : ℝ), ((12 : ℤ) : ℝ)⟩) M (n * gOpen.dt)
        (restError (fun _ _ => True) gOpen M 3 + n * gOpen.dt * drivenError (fun _ _ => True) gOpen M 3 1 0) f + 0) ∧
    (HoldsNoSupply w4 gOpen "v" freq fun f =>
      boxFlowError gOpen (gOpen.toGrid ⟨((3 : ℤ) : ℝ), ((4 : ℤ) : ℝ)⟩) (gOpen.toGrid ⟨((14 : ℤ) : ℝ), ((12 : ℤ) : ℝ)⟩) M (n * gOpen.dt)
        (restError (fun _ _ => True) gOpen M 3 + n * gOpen.dt * drivenError (fun _ _ => True) gOpen M 3 1 0) f + 0) := by
  have hl : Lawful gOpen := gOpen_lawful
  have nn := Nat.cast_nonneg (α := ℝ) n
  have hd : gOpen.dt = 1 / 2 := by rw [hl.dt, gOpen_dx]
  have late : 15 < n * gOpen.dt := by
    have : (31 : ℝ) ≤ n := by exact_mod_cast hn
    rw [hd]; linarith
  have fits : ∀ s ∈ pulseSources, Fits gOpen s := renamed_fits (radiators_fit hl _ _ _ _)
  have carry : Spec.Carries gOpen pulseSources sideEps sideSig (neededCurrent pulseA sideEps sideSig) (n + 1) 0 := by
    refine renamed_carry (radiators_carry hl _ (fun i j _ => ?_) fun m i j _ _ => ?_)
    · rcases side_cases (i * gOpen.dx) (j * gOpen.dx) with ⟨-, e1, e2⟩ | ⟨e1, e2⟩ <;> rw [e1, e2] <;> norm_num
    · rw [show ((m : ℝ) + 1) * gOpen.dt + - (gOpen.dt / 2) = (m + 1 / 2) * gOpen.dt by ring, sub_self, abs_zero]
  obtain ⟨M, -, sm, st, ev, cm⟩ := potential_bounded pulseA_smooth gOpen (n + 1) (eps := sideEps) (sig := sideSig) (em := 3) (sm := 1)
    (fun x y => by rcases side_cases x y with ⟨-, e1, e2⟩ | ⟨e1, e2⟩ <;> rw [e1] <;> norm_num)
    (fun x y => by rcases side_cases x y with ⟨-, e1, e2⟩ | ⟨e1, e2⟩ <;> rw [e2] <;> norm_num)
  have names := disc_names ⟨"m", .simple ⟨3, 1, 1⟩⟩ 17 8 (by unfold PlainNames disc; decide) gOpen sideEps sideSig (neededCurrent pulseA sideEps sideSig) (- (gOpen.dt / 2))
  obtain ⟨w4, h⟩ := C97_program now gOpen gOpen_wide hl gOpen_T [sideDisc] sideDisc_clear pulseSources fits "v" ⟨((3 : ℤ) : ℝ), ((4 : ℤ) : ℝ)⟩ ⟨((14 : ℤ) : ℝ), ((12 : ℤ) : ℝ)⟩ .tangent (.inr rfl) freq n
    (by rw [gOpen_dx]) (by rw [gOpen_node, gOpen_node, gOpen_Nx]; decide) (by rw [gOpen_node, gOpen_node, gOpen_Ny]; decide) names.1 names.2
  have hb : ∀ o ∈ [sideDisc], BoxSound o := by
    intro o ho
    rw [List.mem_singleton.mp ho]
    exact disc_sound _ _ _
  have hp : ∀ o ∈ [sideDisc], PassiveObject o := by
    intro o ho
    rw [List.mem_singleton.mp ho]
    exact ⟨⟨3, 1, 1⟩, rfl, by norm_num, by norm_num⟩
  have he : AtMost 3 [sideDisc] := ⟨by norm_num, by
    intro o ho m hm
    rw [List.mem_singleton.mp ho] at hm
    cases hm
    exact le_rfl⟩
  have hs : ConductAtMost 1 [sideDisc] := ⟨by norm_num, by
    intro o ho m hm
    rw [List.mem_singleton.mp ho] at hm
    cases hm
    norm_num⟩
  have vac : ∀ x y, x ≤ 14 → y ≤ 12 → sideEps x y = 1 ∧ sideSig x y = 0 := fun x y hx _ => by
    rcases side_cases x y with ⟨e0, e1, e2⟩ | ⟨e1, e2⟩
    · linarith
    · exact ⟨e1, e2⟩
  have S := pulse_settled late
  have N := pulse_no_current vac (n * gOpen.dt)
  have Z : ∀ x y, (x, y) ∈ between (gOpen.toReal ⟨3, 4⟩) (gOpen.toReal ⟨14, 12⟩) → sideSig x y = 0 := fun x y hb => by
    obtain ⟨⟨h1, h2⟩, h3, h4⟩ := hb
    simp only [Grid.toReal, gOpen_dx] at h1 h2 h3 h4
    norm_num at h1 h2 h3 h4
    exact (vac x y h2 h4).2
  rw [← gOpen_node 3 4, ← gOpen_node 14 12] at S N Z
  have rz : ∀ p q k, remainder p q k 0 M (n * gOpen.dt) = 0 := fun p q k => by unfold remainder; ring
  refine ⟨w4, M, h, ?_, ?_⟩
  · have := C98_lossless h [sideDisc] pulseSources (objectsOf_furnish _ _).1 (objectsOf_furnish _ _).2 hb sideDisc_clear hp 3 1 he hs sideEps sideSig
      sideDisc_medium sideEps_measurable pulse (fun _ _ => True) _ (n + 1) M 0 0 sm st ev (potential_driven pulseA_smooth _ _ _ _) cm (pulse_walls _) (pulse_rest _) fits le_rfl carry
      (by rw [hd]; linarith) S N Z
    rw [rz] at this
    exact this
  · have := C98_passive_simple h [sideDisc] pulseSources (objectsOf_furnish _ _).1 (objectsOf_furnish _ _).2 hb sideDisc_clear hp 3 1 he hs sideEps sideSig
      sideDisc_medium sideEps_measurable pulse (fun _ _ => True) _ (n + 1) M 0 0 sm st ev (potential_driven pulseA_smooth _ _ _ _) cm (pulse_walls _) (pulse_rest _) fits le_rfl carry
      (by rw [hd]; linarith) S N
    rw [rz] at this
    exact this

/-- The pulse is seen in the box. -/
example : ∃ t, pulse.E t 8 8 = 1 := by
  obtain ⟨s, -, -, h⟩ := pulseShape_shines
  refine ⟨s + 8, ?_⟩
  rw [(pulse_clear ⟨by norm_num, by norm_num, by norm_num, by norm_num⟩).1, add_sub_cancel_right, h]

/-- The current of the pulse in vacuum. -/
noncomputable def pulseI : ℝ → ℝ → ℝ → ℝ := neededCurrent pulseA (fun _ _ => 1) fun _ _ => 0

/-- Its sources. -/
noncomputable def vacuumSources : List (Source ℝ) := renamed 0 (radiators gOpen (fun _ _ => 1) (fun _ _ => 0) pulseI (- (gOpen.dt / 2)))

theorem vacuum_fits : ∀ s ∈ vacuumSources, Fits gOpen s := renamed_fits (radiators_fit gOpen_lawful _ _ _ _)

theorem vacuum_carry (τ : ℝ) : Spec.Carries gOpen vacuumSources (fun _ _ => 1) (fun _ _ => 0) pulseI τ 0 := by
  refine renamed_carry (radiators_carry gOpen_lawful _ (fun i j _ => ⟨le_rfl, le_rfl⟩) fun m i j _ _ => ?_)
  rw [show ((m : ℝ) + 1) * gOpen.dt + - (gOpen.dt / 2) = (m + 1 / 2) * gOpen.dt by ring, sub_self, abs_zero]

/-- A disc above the light. -/
theorem above_dark {x y : ℝ} (h : (x - 10) ^ 2 + (y - 16) ^ 2 < 4) (t : ℝ) : (t, x, y) ∈ pulseDark :=
  .inr (.inr (.inr (.inr (show 14 < y by nlinarith [sq_nonneg (x - 10)]))))

theorem above_clear (m : Material ℝ) : ClearOfUnguardedEdges gOpen (disc m 10 16) := by
  intro p hin
  rw [disc_inside] at hin
  rw [gOpen_Lx]
  constructor <;> nlinarith [sq_nonneg (p.x - 10), sq_nonneg (p.y - 16)]

/-- No source of the pulse acts in such a disc. -/
theorem above_outside (m : Material ℝ) : OutsideMemory gOpen [disc m 10 16] vacuumSources := by
  have := radiators_outside gOpen_lawful (objs := [disc m 10 16]) (I := pulseI) (fun _ _ => 1) (fun _ _ => 0) (- (gOpen.dt / 2)) fun t p o ho _ => by
    obtain ⟨b, a, e, h, -⟩ := ho
    have : o = disc m 10 16 := List.mem_singleton.mp (by rw [e]; simp)
    subst this
    rw [disc_inside] at h
    exact pulse_dark_free (above_dark h t)
  intro t i j o ho hd
  unfold vacuumSources
  rw [renamed_added]
  exact this t i j o ho hd

/-- A disc of plasma. -/
noncomputable def gasDisc : Object ℝ := disc ⟨"p", .drude ⟨1, [⟨1, 1⟩]⟩⟩ 10 16

open Classical in
noncomputable def gasRes (x y : ℝ) : Response := if (x - 10) ^ 2 + (y - 16) ^ 2 < 4 then .drude 1 1 else .plain

/-- A non-trivial case of `C98_passive_dispersive`: the pulse passes through the box; a disc of plasma is above. -/
example (now : ℕ → ℝ) (freq : List ℝ) (n : ℕ) (hn : 31 ≤ n) : ∃ w4 M,
    BoxWritten now gOpen (furnish [gasDisc] vacuumSources) (List.replicate n (.op .update)) [] "v" ⟨((3 : ℤ) : ℝ), ((4 : ℤ) : ℝ)⟩ ⟨((14 : ℤ) : ℝ), ((12 : ℤ) : ℝ)⟩ .tangent freq n w4 ∧
    (HoldsNoSupply w4 gOpen "v" freq fun f =>
      boxFlowError gOpen (gOpen.toGrid ⟨((3 : ℤ) : ℝ), ((4 : ℤ) : ℝ)⟩) (gOpen.toGrid ⟨((14 : ℤ) : ℝ), ((12 : ℤ) : ℝ)⟩) M (n * gOpen.dt)
        (restError (fun _ _ => True) gOpen M (1 + 3 ^ 2) + n * gOpen.dt * polarError (fun _ _ => True) gOpen M 1 0 3 0) f + 0) := by
  have hl : Lawful gOpen := gOpen_lawful
  have nn := Nat.cast_nonneg (α := ℝ) n
  have hd : gOpen.dt = 1 / 2 := by rw [hl.dt, gOpen_dx]
  have late : 15 < n * gOpen.dt := by
    have : (31 : ℝ) ≤ n := by exact_mod_cast hn
    rw [hd]; linarith
  obtain ⟨M, M0, sm, st, ev, cm⟩ := potential_bounded pulseA_smooth gOpen (n + 1) (eps := fun _ _ => 1) (sig := fun _ _ => 0) (em := 1) (sm := 0) (fun x y => by norm_num) (fun x y => by norm_num)
  have names := disc_names ⟨"p", .drude ⟨1, [⟨1, 1⟩]⟩⟩ 10 16 (by unfold PlainNames disc; decide) gOpen (fun _ _ => 1) (fun _ _ => 0) pulseI (- (gOpen.dt / 2))
  have clear : ∀ o ∈ [gasDisc], ClearOfUnguardedEdges gOpen o := fun o ho => by rw [List.mem_singleton.mp ho]; exact above_clear _
  obtain ⟨w4, h⟩ := C97_program now gOpen gOpen_wide hl gOpen_T [gasDisc] clear vacuumSources vacuum_fits "v" ⟨((3 : ℤ) : ℝ), ((4 : ℤ) : ℝ)⟩ ⟨((14 : ℤ) : ℝ), ((12 : ℤ) : ℝ)⟩ .tangent (.inr rfl) freq n
    (by rw [gOpen_dx]) (by rw [gOpen_node, gOpen_node, gOpen_Nx]; decide) (by rw [gOpen_node, gOpen_node, gOpen_Ny]; decide) names.1 names.2
  have S := pulse_settled late
  have N := pulse_no_current (eps := fun _ _ => 1) (sig := fun _ _ => 0) (fun _ _ _ _ => ⟨rfl, rfl⟩) (n * gOpen.dt)
  rw [← gOpen_node 3 4, ← gOpen_node 14 12] at S N
  have rz : ∀ p q k, remainder p q k 0 M (n * gOpen.dt) = 0 := fun p q k => by unfold remainder; ring
  refine ⟨w4, M, h, ?_⟩
  have := C98_passive_dispersive h [gasDisc] vacuumSources (objectsOf_furnish _ _).1 (objectsOf_furnish _ _).2 (fun o ho => by rw [List.mem_singleton.mp ho]; exact disc_sound _ _ _) clear
    (fun o ho => by rw [List.mem_singleton.mp ho]; exact ⟨le_rfl, by simp, by simp, by simp⟩) (fun o ho o' ho' _ _ _ => by rw [List.mem_singleton.mp ho, List.mem_singleton.mp ho'])
    (by
      rintro o ho _ i j _ o' ⟨b, a, e, -⟩
      have : o' = gasDisc := List.mem_singleton.mp (by rw [e]; simp)
      rw [this, List.mem_singleton.mp ho])
    (fun _ _ => 1) (fun _ _ => 0) gasRes
    (by
      constructor
      · rintro p o ⟨b, a, e, h1, -⟩
        have : o = gasDisc := List.mem_singleton.mp (by rw [e]; simp)
        subst this
        rw [gasDisc, disc_inside] at h1
        unfold gasRes
        rw [if_pos h1]
        exact KindIs.drude 1 ⟨1, 1⟩
      · intro p hp
        have := hp _ (List.mem_singleton_self _)
        rw [← Bool.not_eq_true, gasDisc, disc_inside] at this
        unfold gasRes
        rw [if_neg this]
        exact ⟨rfl, rfl, rfl⟩)
    1 0 3 ⟨fun _ _ => le_rfl, fun _ _ => le_rfl, fun x y => by
      unfold gasRes
      split <;> norm_num [Response.stiff]⟩
    measurable_const pulse (fun _ _ _ => 0) (fun _ _ _ => 0) pulseI (fun _ _ => True) (n + 1) M 0 0 le_rfl sm st ev
    (by simp only [zero_add]; exact potential_driven pulseA_smooth (fun _ _ => 1) (fun _ _ => 0) gOpen (n + 1))
    ⟨fun t x y _ _ _ _ => by
      unfold gasRes
      split
      · rename_i c
        simp only [Response.Law]
        rw [(pulse_dark (above_dark c t)).1]
        norm_num
      · rfl,
     fun x y _ _ => ⟨fun _ => 0, fun _ => 0, fun s _ _ => ⟨hasDerivAt_const _ _, hasDerivAt_const _ _, hasDerivAt_const _ _, by simpa using M0, by simpa using M0⟩⟩,
     fun t x y _ _ _ => by simpa using M0, fun t t' x y _ h _ _ => by simpa using mul_nonneg M0 (sub_nonneg.mpr h)⟩
    cm (pulse_walls _) (pulse_rest _) (fun _ _ _ => rfl) vacuum_fits le_rfl (vacuum_carry _) (above_outside _) (by rw [hd]; linarith) S N (fun _ _ _ => by simp)
  rw [rz] at this
  exact this

/-- A disc of bound charges. -/
noncomputable def bondDisc : Object ℝ := disc ⟨"l", .lorentz ⟨1, [bellPole]⟩⟩ 10 16

/-- A non-trivial case of `C98_passive_lorentz`. -/
example (now : ℕ → ℝ) (freq : List ℝ) (n : ℕ) (hn : 31 ≤ n) : ∃ w4 M,
    BoxWritten now gOpen (furnish [bondDisc] vacuumSources) (List.replicate n (.op .update)) [] "v" ⟨((3 : ℤ) : ℝ), ((4 : ℤ) : ℝ)⟩ ⟨((14 : ℤ) : ℝ), ((12 : ℤ) : ℝ)⟩ .tangent freq n w4 ∧
    (HoldsNoSupply w4 gOpen "v" freq fun f =>
      boxFlowError gOpen (gOpen.toGrid ⟨((3 : ℤ) : ℝ), ((4 : ℤ) : ℝ)⟩) (gOpen.toGrid ⟨((14 : ℤ) : ℝ), ((12 : ℤ) : ℝ)⟩) M (n * gOpen.dt)
        (3 * (Real.exp (swingRate bellPole 1 0 gOpen.dt * (n * gOpen.dt)) *
          (swingStart (fun _ _ => True) gOpen bellPole M 1 + n * gOpen.dt * swingError (fun _ _ => True) gOpen bellPole M 1 0 0))) f + 0) := by
  have hl : Lawful gOpen := gOpen_lawful
  have nn := Nat.cast_nonneg (α := ℝ) n
  have hd : gOpen.dt = 1 / 2 := by rw [hl.dt, gOpen_dx]
  have late : 15 < n * gOpen.dt := by
    have : (31 : ℝ) ≤ n := by exact_mod_cast hn
    rw [hd]; linarith
  have ce : coated bondDisc 1 (fun _ _ => 1) = fun _ _ => 1 := by funext x y; unfold coated; split <;> rfl
  have cs : coated bondDisc 0 (fun _ _ => 0) = fun _ _ => 0 := by funext x y; unfold coated; split <;> rfl
  obtain ⟨M, M0, sm, st, ev, cm⟩ := potential_bounded pulseA_smooth gOpen (n + 1) (eps := fun _ _ => 1) (sig := fun _ _ => 0) (em := 1) (sm := 0) (fun x y => by norm_num) (fun x y => by norm_num)
  have names := disc_names ⟨"l", .lorentz ⟨1, [bellPole]⟩⟩ 10 16 (by unfold PlainNames disc; decide) gOpen (fun _ _ => 1) (fun _ _ => 0) pulseI (- (gOpen.dt / 2))
  obtain ⟨w4, h⟩ := C97_program now gOpen gOpen_wide hl gOpen_T [bondDisc] (fun o ho => by rw [List.mem_singleton.mp ho]; exact above_clear _) vacuumSources vacuum_fits "v" ⟨((3 : ℤ) : ℝ), ((4 : ℤ) : ℝ)⟩
    ⟨((14 : ℤ) : ℝ), ((12 : ℤ) : ℝ)⟩ .tangent (.inr rfl) freq n
    (by rw [gOpen_dx]) (by rw [gOpen_node, gOpen_node, gOpen_Nx]; decide) (by rw [gOpen_node, gOpen_node, gOpen_Ny]; decide) names.1 names.2
  have S := pulse_settled late
  have N := pulse_no_current (eps := fun _ _ => 1) (sig := fun _ _ => 0) (fun _ _ _ _ => ⟨rfl, rfl⟩) (n * gOpen.dt)
  rw [← gOpen_node 3 4, ← gOpen_node 14 12] at S N
  have rz : ∀ p q k, remainder p q k 0 M (n * gOpen.dt) = 0 := fun p q k => by unfold remainder; ring
  have z3 : ∀ a b, Tame (fun _ => 0) (fun _ => 0) a b M := fun a b =>
    ⟨fun _ => 0, fun _ => 0, fun s _ _ => ⟨hasDerivAt_const _ _, hasDerivAt_const _ _, hasDerivAt_const _ _, by simpa using M0, by simpa using M0⟩⟩
  refine ⟨w4, M, h, ?_⟩
  have := C98_passive_lorentz h [] vacuumSources bondDisc (objectsOf_furnish _ _).1 (objectsOf_furnish _ _).2 (by simp) (by simp) (by simp) 1 0 ⟨le_rfl, by simp⟩
    ⟨le_rfl, by simp⟩ (fun _ _ => 1) (fun _ _ => 0) ⟨fun p o m h => by obtain ⟨b, a, e, -⟩ := h; simp at e, fun _ _ => ⟨rfl, rfl⟩⟩ 1 bellPole rfl (disc_sound _ _ _) (above_clear _) le_rfl le_rfl
    (by norm_num [bellPole]) (by norm_num [bellPole]) (by norm_num [bellPole]) (by rw [ce]; exact measurable_const) pulse (fun _ _ => True) (fun _ _ _ => 0) (fun _ _ _ => 0) (fun _ _ _ => 0) pulseI
    (n + 1) M 0 0 le_rfl sm st ev
    (by rw [ce, cs]; simp only [zero_add]; exact potential_driven pulseA_smooth (fun _ _ => 1) (fun _ _ => 0) gOpen (n + 1))
    ⟨fun t x y _ _ _ _ c => by
      rw [bondDisc, disc_inside] at c
      rw [(pulse_dark (above_dark c t)).1]
      norm_num,
     fun _ _ _ _ _ _ _ => rfl, fun _ _ _ _ => z3 _ _, fun _ _ _ _ => z3 _ _, fun t x y _ _ _ => by simpa using M0, fun t x y _ _ _ => by simpa using M0,
     fun t t' x y _ h _ _ => by simpa using mul_nonneg M0 (sub_nonneg.mpr h), fun t t' x y _ h _ _ => by simpa using mul_nonneg M0 (sub_nonneg.mpr h)⟩
    cm (pulse_walls _) (pulse_rest _) (fun _ _ _ => ⟨rfl, rfl⟩) vacuum_fits le_rfl (by rw [ce, cs]; exact vacuum_carry _)
    (fun t i j c => above_outside ⟨"l", .lorentz ⟨1, [bellPole]⟩⟩ t i j bondDisc ⟨[], [], rfl, by simpa [Grid.toReal, mul_comm] using c, by simp⟩ trivial)
    (by rw [hd]; linarith) S N (fun _ _ _ => by simp)
  rw [rz] at this
  exact this

end Qbox.Props
