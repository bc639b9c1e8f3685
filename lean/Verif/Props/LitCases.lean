import Verif.Props.LitProps
import Verif.Props.ScatterCases
import Verif.Props.PulseCases

/-! # Programs with an incident wave and a box monitor, and non-trivial cases of C101 -/

namespace Qbox.Props
open Qbox Scalar Spec MeasureTheory
open scoped ContDiff

/-- Calls that add objects and sources and then set an incident wave. -/
def furnishLit (objs : List (Object ℝ)) (srcs : List (Source ℝ)) (vol : Vol ℝ) (tp : TimeProfile ℝ) : List (Call ℝ) := furnish objs srcs ++ [.op (.setTfsf vol tp)]

theorem simOps_furnishLit (objs : List (Object ℝ)) (srcs : List (Source ℝ)) (vol : Vol ℝ) (tp : TimeProfile ℝ) :
    simOps (furnishLit objs srcs vol tp) = simOps (furnish objs srcs) ++ [.setTfsf vol tp] := by
  unfold furnishLit
  rw [simOps_append]
  rfl

theorem of_lit (vol : Vol ℝ) (tp : TimeProfile ℝ) : ∀ ops : List (Op ℝ), objectsOf (ops ++ [.setTfsf vol tp]) = objectsOf ops ∧ sourcesOf (ops ++ [.setTfsf vol tp]) = sourcesOf ops ∧
    incidentOf (ops ++ [.setTfsf vol tp]) = some (vol, tp)
  | [] => ⟨rfl, rfl, rfl⟩
  | op :: l => by
    obtain ⟨h1, h2, h3⟩ := of_lit vol tp l
    rw [List.cons_append]
    cases op <;> simp only [objectsOf, sourcesOf, incidentOf, h1, h2, h3, Option.getD_some, and_self]

theorem of_furnishLit (objs : List (Object ℝ)) (srcs : List (Source ℝ)) (vol : Vol ℝ) (tp : TimeProfile ℝ) : objectsOf (simOps (furnishLit objs srcs vol tp)) = objs ∧
    sourcesOf (simOps (furnishLit objs srcs vol tp)) = srcs ∧ incidentOf (simOps (furnishLit objs srcs vol tp)) = some (vol, tp) := by
  rw [simOps_furnishLit]
  obtain ⟨h1, h2, h3⟩ := of_lit vol tp (simOps (furnish objs srcs))
  exact ⟨h1.trans (objectsOf_furnish _ _).1, h2.trans (objectsOf_furnish _ _).2, h3⟩

/-- What programs need to know about the calls before the monitor. -/
theorem furnishLit_fine (g : Grid ℝ) (hl : Lawful g) (hT : g.T = 0) (objs : List (Object ℝ)) (hc : ∀ o ∈ objs, ClearOfUnguardedEdges g o)
    (srcs : List (Source ℝ)) (fits : ∀ s ∈ srcs, Fits g s) (vol : Vol ℝ) (tp : TimeProfile ℝ) (hv : ClearRegion g (g.toGrid vol.a) (g.toGrid vol.b))
    (hd : DistinctNames (furnish objs srcs)) (hp : ∀ c ∈ furnish objs srcs, PlainNames c) :
    (∀ l, (∀ ob, Inside False g ob l) → Inside False g [] (simOps (furnishLit objs srcs vol tp) ++ l)) ∧
    (∀ c ∈ furnishLit objs srcs vol tp, (∃ o, c = .op (.addObject o)) ∨ (∃ s, c = .op (.addSource s)) ∨ ∃ v tp, c = .op (.setTfsf v tp)) ∧
    DistinctNames (furnishLit objs srcs vol tp) ∧ (∀ c ∈ furnishLit objs srcs vol tp, PlainNames c) ∧ Lights (simOps (furnishLit objs srcs vol tp)) := by
  have fv : TfsfFits g vol := by
    obtain ⟨l1, l2, l3, l4⟩ := hv.lo
    obtain ⟨k1, k2, k3, k4⟩ := hv.hi
    have := hv.edge
    exact ⟨by omega, hv.x, by omega, by omega, hv.y, by omega⟩
  refine ⟨fun l hin => by
      rw [simOps_furnishLit, simOps_furnish, List.append_assoc]
      exact inside_furnish hl srcs fits (.setTfsf vol tp :: l) (fun ob => ⟨fv, hin ob⟩) objs [] hc,
    fun c hcm => by
      rcases List.mem_append.mp hcm with hcm | hcm
      · rcases List.mem_append.mp hcm with hcm | hcm
        · obtain ⟨o, -, rfl⟩ := List.mem_map.mp hcm
          exact .inl ⟨o, rfl⟩
        · obtain ⟨o, -, rfl⟩ := List.mem_map.mp hcm
          exact .inr (.inl ⟨o, rfl⟩)
      · exact .inr (.inr ⟨vol, tp, List.mem_singleton.mp hcm⟩), ?_,
    fun c hcm => by
      rcases List.mem_append.mp hcm with hcm | hcm
      · exact hp c hcm
      · rw [List.mem_singleton.mp hcm]; trivial, ?_⟩
  · unfold DistinctNames furnishLit at *
    rw [List.flatMap_append]
    refine List.nodup_append.mpr ⟨hd, List.nodup_singleton _, fun p hp q hq e => ?_⟩
    subst e
    have e := List.mem_singleton.mp (show p ∈ [["sources", "tfsf"]] from hq)
    obtain ⟨c, h1, h2⟩ := List.mem_flatMap.mp hp
    rcases List.mem_append.mp h1 with h1 | h1
    · obtain ⟨o, -, rfl⟩ := List.mem_map.mp h1
      have := e.symm.trans (List.mem_singleton.mp h2)
      unfold objectGroup at this
      exact absurd (List.cons.inj this).1 (by decide)
    · obtain ⟨o, -, rfl⟩ := List.mem_map.mp h1
      have := congrArg List.length (e.symm.trans (List.mem_singleton.mp h2))
      simp at this
  · intro op ho
    rw [simOps_furnishLit, simOps_furnish] at ho
    rcases List.mem_append.mp ho with ho | ho
    · rcases List.mem_append.mp ho with ho | ho
      · obtain ⟨o, -, rfl⟩ := List.mem_map.mp ho
        exact .inr (.inl ⟨o, rfl⟩)
      · obtain ⟨o, -, rfl⟩ := List.mem_map.mp ho
        exact .inr (.inr (.inl ⟨o, rfl⟩))
    · exact .inr (.inr (.inr ⟨vol, tp, List.mem_singleton.mp ho⟩))

/-- Such programs exist: any objects clear of the edges, any sources that fit, any region for the incident wave, any box among the inner nodes, any number of steps. -/
theorem C101_program (now : ℕ → ℝ) (g : Grid ℝ) (hw : g.Wide) (hl : Lawful g) (hT : g.T = 0) (objs : List (Object ℝ)) (hc : ∀ o ∈ objs, ClearOfUnguardedEdges g o)
    (srcs : List (Source ℝ)) (fits : ∀ s ∈ srcs, Fits g s) (vol : Vol ℝ) (tp : TimeProfile ℝ) (hv : ClearRegion g (g.toGrid vol.a) (g.toGrid vol.b)) (name : String) (a b : V2 ℝ) (tag : DftTag)
    (htag : tag = .all ∨ tag = .tangent) (freq : List ℝ) (n : ℕ) (hdx : g.dx ≤ 1)
    (hx : 2 ≤ (g.toGrid a).x ∧ (g.toGrid a).x < (g.toGrid b).x ∧ (g.toGrid b).x ≤ g.Nx - 2)
    (hy : 2 ≤ (g.toGrid a).y ∧ (g.toGrid a).y < (g.toGrid b).y ∧ (g.toGrid b).y ≤ g.Ny - 2)
    (hd : DistinctNames (furnish objs srcs)) (hp : ∀ c ∈ furnish objs srcs, PlainNames c) :
    ∃ w4, LitWritten now g (furnishLit objs srcs vol tp) (List.replicate n (.op .update)) [] name a b tag freq n w4 := by
  obtain ⟨k1, k2, k3, k4, k5⟩ := furnishLit_fine g hl hT objs hc srcs fits vol tp hv hd hp
  obtain ⟨w4, h⟩ := box_program now g hw hl hT (furnishLit objs srcs vol tp) k1 k2 name a b tag htag freq n hdx hx hy k3 k4
  exact ⟨w4, h, k5⟩

/-- The sources of a current at the disc. -/
noncomputable def discSources (J : ℝ → ℝ → ℝ → ℝ) : List (Source ℝ) := renamed 0 (radiators gOpen discEps discSig J (- (gOpen.dt / 2)))

theorem discSources_fit (J : ℝ → ℝ → ℝ → ℝ) : ∀ s ∈ discSources J, Fits gOpen s := renamed_fits (radiators_fit gOpen_lawful _ _ _ _)

theorem discSources_carry (J : ℝ → ℝ → ℝ → ℝ) (τ : ℝ) : Spec.Carries gOpen (discSources J) discEps discSig J τ 0 := by
  refine renamed_carry (radiators_carry gOpen_lawful J (fun i j _ => ?_) fun m i j _ _ => ?_)
  · rcases discEps_cases (i * gOpen.dx) (j * gOpen.dx) with ⟨e1, e2⟩ | ⟨e1, e2⟩ <;> rw [e1, e2] <;> norm_num
  · rw [show ((m : ℝ) + 1) * gOpen.dt + - (gOpen.dt / 2) = (m + 1 / 2) * gOpen.dt by ring, sub_self, abs_zero]

/-- A scattering problem with the disc: the wave with the current that it needs. -/
theorem disc_scatters {s : ℝ → ℝ} {w : Spec.Wave} {S : ℝ → ℝ → Prop} {J : ℝ → ℝ → ℝ → ℝ} {τ M Ms : ℝ} (hs : SmoothStart s Ms) (h1 : w.Smooth S gOpen τ M) (h2 : w.Steady gOpen τ M)
    (h3 : w.Even gOpen τ M) (h4 : w.Driven S discEps discSig J gOpen τ) (h5 : CurrentAtMost J gOpen τ M) (h6 : w.Walls gOpen τ) (h7 : w.AtRest gOpen) :
    Scatters gOpen [lampDisc] (discSources fun t x y => J t x y - induced discEps discSig s (entry gOpen litVol) t x y) litVol s discEps discSig 3 1 w S
      (fun t x y => J t x y - induced discEps discSig s (entry gOpen litVol) t x y) τ M Ms 0 where
  sound := fun o ho => by rw [List.mem_singleton.mp ho]; exact disc_sound _ _ _
  clear := lampDisc_clear
  passive := fun o ho => by rw [List.mem_singleton.mp ho]; exact ⟨⟨3, 1, 1⟩, rfl, by norm_num, by norm_num⟩
  epsMax := ⟨by norm_num, fun o ho m hm => by rw [List.mem_singleton.mp ho] at hm; cases hm; exact le_rfl⟩
  sigMax := ⟨by norm_num, fun o ho m hm => by rw [List.mem_singleton.mp ho] at hm; cases hm; norm_num⟩
  medium := lampDisc_medium
  region := lit_region
  within := lit_within
  signal := hs
  smooth := h1
  steady := h2
  even := h3
  driven := by simp only [sub_add_cancel]; exact h4
  current := by simp only [sub_add_cancel]; exact h5
  walls := h6
  rest := h7
  fits := discSources_fit _
  nonneg := le_rfl
  carries := discSources_carry _ _

/-- The program with the disc, the sources of `J` and the incident wave. -/
theorem disc_lit (now : ℕ → ℝ) (freq : List ℝ) (n : ℕ) (J : ℝ → ℝ → ℝ → ℝ) (tp : TimeProfile ℝ) (a b : V2 ℤ) (hx : 2 ≤ a.x ∧ a.x < b.x ∧ b.x ≤ 18) (hy : 2 ≤ a.y ∧ a.y < b.y ∧ b.y ≤ 18) :
    ∃ w4, LitWritten now gOpen (furnishLit [lampDisc] (discSources J) litVol tp) (List.replicate n (.op .update)) [] "v" ⟨(a.x : ℝ), (a.y : ℝ)⟩ ⟨(b.x : ℝ), (b.y : ℝ)⟩ .tangent freq n w4 := by
  have names := disc_names ⟨"m", .simple ⟨3, 1, 1⟩⟩ 10 10 (by unfold PlainNames disc; decide) gOpen discEps discSig J (- (gOpen.dt / 2))
  exact C101_program now gOpen gOpen_wide gOpen_lawful gOpen_T [lampDisc] lampDisc_clear (discSources J) (discSources_fit J) litVol tp lit_region "v" _ _ .tangent (.inr rfl) freq n
    (by rw [gOpen_dx]) (by rw [gOpen_node, gOpen_node, gOpen_Nx]; exact hx) (by rw [gOpen_node, gOpen_node, gOpen_Ny]; exact hy) names.1 names.2

/-- A case of `C101_scattered`: a box around the region, the incident wave that rises smoothly and the wave of `ScatterCases`. -/
example (now : ℕ → ℝ) (freq : List ℝ) (n : ℕ) : ∃ w4 Ms,
    LitWritten now gOpen (furnishLit [lampDisc] (discSources litJ) litVol rise) (List.replicate n (.op .update)) [] "v" ⟨((3 : ℤ) : ℝ), ((4 : ℤ) : ℝ)⟩ ⟨((17 : ℤ) : ℝ), ((17 : ℤ) : ℝ)⟩ .tangent
      freq n w4 ∧
    HoldsBoxFlux w4 gOpen "v" ⟨((3 : ℤ) : ℝ), ((4 : ℤ) : ℝ)⟩ ⟨((17 : ℤ) : ℝ), ((17 : ℤ) : ℝ)⟩ freq lamp (n * gOpen.dt)
      (boxFlowError gOpen (gOpen.toGrid ⟨((3 : ℤ) : ℝ), ((4 : ℤ) : ℝ)⟩) (gOpen.toGrid ⟨((17 : ℤ) : ℝ), ((17 : ℤ) : ℝ)⟩) 1 (n * gOpen.dt)
        (litError (fun _ _ => True) gOpen litVol 1 Ms 3 1 (n + 1) 0 n)) := by
  obtain ⟨Ms, hM⟩ := smooth_rise
  have nn := Nat.cast_nonneg (α := ℝ) n
  have hd : gOpen.dt = 1 / 2 := by rw [gOpen_lawful.dt, gOpen_dx]
  obtain ⟨w4, h⟩ := disc_lit now freq n litJ rise ⟨3, 4⟩ ⟨17, 17⟩ (by decide) (by decide)
  obtain ⟨o1, o2, o3⟩ := of_furnishLit [lampDisc] (discSources litJ) litVol rise
  exact ⟨w4, Ms, h, C101_scattered h o1 o2 o3
    (disc_scatters (τ := n + 1) hM (lamp_smooth _ _) (lamp_steady _ _) (lamp_even _ _) (lamp_driven _ _) (lampJ_at_most _ _) (lamp_walls _) (lamp_rest _)) (by rw [hd]; linarith)
    (by unfold BoxAround; rw [gOpen_node, gOpen_node, lit_a, lit_b]; decide)⟩

theorem rise_lit_faded (p q : V2 ℝ) (T y0 : ℝ) : (lamp.lit rise.resp y0).Faded p q T 2 := by
  intro x y h
  obtain ⟨k1, k2, k3⟩ := (lamp_settled p q T).faded x y h
  have r : |rise.resp (T - max 0 (y - y0))| ≤ 1 := by
    rw [abs_le]
    exact ⟨by linarith [Real.smoothTransition.nonneg (T - max 0 (y - y0)), show rise.resp (T - max 0 (y - y0)) = Real.smoothTransition (T - max 0 (y - y0)) from rfl], Real.smoothTransition.le_one _⟩
  refine ⟨?_, ?_, k3.trans (by norm_num)⟩
  · exact (abs_add_le _ _).trans (by linarith)
  · exact (abs_add_le _ _).trans (by linarith)

/-- A case of `C101_total` and `C101_absorption`: a box inside the region with the conducting disc in it. -/
example (now : ℕ → ℝ) (freq : List ℝ) (n : ℕ) : ∃ w4 Ms,
    LitWritten now gOpen (furnishLit [lampDisc] (discSources litJ) litVol rise) (List.replicate n (.op .update)) [] "v" ⟨((7 : ℤ) : ℝ), ((8 : ℤ) : ℝ)⟩ ⟨((13 : ℤ) : ℝ), ((13 : ℤ) : ℝ)⟩ .tangent
      freq n w4 ∧
    HoldsBoxFlux w4 gOpen "v" ⟨((7 : ℤ) : ℝ), ((8 : ℤ) : ℝ)⟩ ⟨((13 : ℤ) : ℝ), ((13 : ℤ) : ℝ)⟩ freq (lamp.lit rise.resp (entry gOpen litVol)) (n * gOpen.dt)
      (boxFlowError gOpen (gOpen.toGrid ⟨((7 : ℤ) : ℝ), ((8 : ℤ) : ℝ)⟩) (gOpen.toGrid ⟨((13 : ℤ) : ℝ), ((13 : ℤ) : ℝ)⟩) (litSize 1 Ms (n + 1)) (n * gOpen.dt)
        (litError (fun _ _ => True) gOpen litVol 1 Ms 3 1 (n + 1) 0 n)) ∧
    HoldsAbsorption w4 gOpen "v" ⟨((7 : ℤ) : ℝ), ((8 : ℤ) : ℝ)⟩ ⟨((13 : ℤ) : ℝ), ((13 : ℤ) : ℝ)⟩ freq (lamp.lit rise.resp (entry gOpen litVol))
      (fun t x y => discSig x y * (lamp.lit rise.resp (entry gOpen litVol)).E t x y + litJ t x y) (n * gOpen.dt) fun f =>
        boxFlowError gOpen (gOpen.toGrid ⟨((7 : ℤ) : ℝ), ((8 : ℤ) : ℝ)⟩) (gOpen.toGrid ⟨((13 : ℤ) : ℝ), ((13 : ℤ) : ℝ)⟩) (litSize 1 Ms (n + 1)) (n * gOpen.dt)
          (litError (fun _ _ => True) gOpen litVol 1 Ms 3 1 (n + 1) 0 n) f +
        remainder (gOpen.toReal (gOpen.toGrid ⟨((7 : ℤ) : ℝ), ((8 : ℤ) : ℝ)⟩)) (gOpen.toReal (gOpen.toGrid ⟨((13 : ℤ) : ℝ), ((13 : ℤ) : ℝ)⟩)) (2 + 3) 2 (litSize 1 Ms (n + 1)) (n * gOpen.dt) := by
  obtain ⟨Ms, hM⟩ := smooth_rise
  have nn := Nat.cast_nonneg (α := ℝ) n
  have hd : gOpen.dt = 1 / 2 := by rw [gOpen_lawful.dt, gOpen_dx]
  obtain ⟨w4, h⟩ := disc_lit now freq n litJ rise ⟨7, 8⟩ ⟨13, 13⟩ (by decide) (by decide)
  obtain ⟨o1, o2, o3⟩ := of_furnishLit [lampDisc] (discSources litJ) litVol rise
  have P := disc_scatters (τ := n + 1) hM (lamp_smooth _ _) (lamp_steady _ _) (lamp_even _ _) (lamp_driven _ _) (lampJ_at_most _ _) (lamp_walls _) (lamp_rest _)
  have hin : BoxWithin gOpen litVol ⟨((7 : ℤ) : ℝ), ((8 : ℤ) : ℝ)⟩ ⟨((13 : ℤ) : ℝ), ((13 : ℤ) : ℝ)⟩ := by unfold BoxWithin; rw [gOpen_node, gOpen_node, lit_a, lit_b]; decide
  exact ⟨w4, Ms, h, C101_total h o1 o2 o3 P (by rw [hd]; linarith) hin,
    C101_absorption h o1 o2 o3 P (by rw [hd]; linarith) hin discEps_measurable (pieces_all _ _) (lamp_settled _ _ _).regular 2 (rise_lit_faded _ _ _ _)⟩

/-- A flash: an incident wave that is over after a unit of time. -/
noncomputable def glint : TimeProfile ℝ := ⟨pulseShape, none, []⟩

theorem pulseShape_before {t : ℝ} (h : t ≤ 0) : pulseShape t = 0 := by
  have e : Set.EqOn pulseShape (fun _ => 0) (Set.Iio 0) := fun u hu => by
    have : Real.smoothTransition =ᶠ[nhds u] fun _ => 0 := Filter.mem_of_superset (isOpen_Iio.mem_nhds hu) fun v hv => Real.smoothTransition.zero_of_nonpos (le_of_lt hv)
    show deriv Real.smoothTransition u = 0
    rw [this.deriv_eq, deriv_const]
  have := e.closure pulseShape_smooth.continuous continuous_const
  rw [closure_Iio] at this
  exact this h

theorem smooth_flash : ∃ M, SmoothStart pulseShape M := by
  have sm : ContDiff ℝ 5 pulseShape := contDiff_infty.mp pulseShape_smooth 5
  have each : ∀ k : ℕ, ∃ M, k ≤ 5 → ∀ t, |iteratedDeriv k pulseShape t| ≤ M := by
    intro k
    by_cases k5 : k ≤ 5
    · have c : Continuous (iteratedDeriv k pulseShape) := sm.continuous_iteratedDeriv k (by exact_mod_cast k5)
      obtain ⟨M, hM⟩ := (isCompact_Icc (a := (0 : ℝ)) (b := 1)).exists_bound_of_continuousOn c.continuousOn
      have z : ∀ {U : Set ℝ}, IsOpen U → (∀ t ∈ U, pulseShape t = 0) → ∀ t ∈ U, iteratedDeriv k pulseShape t = 0 := fun hU h t ht => by
        have e : pulseShape =ᶠ[nhds t] fun _ => 0 := Filter.eventuallyEq_of_mem (hU.mem_nhds ht) h
        rw [Filter.EventuallyEq.iteratedDeriv_eq k e, iteratedDeriv_const]
        simp
      refine ⟨max M 0, fun _ t => ?_⟩
      by_cases h0 : t < 0
      · rw [z isOpen_Iio (fun t ht => pulseShape_before (le_of_lt ht)) t h0, abs_zero]
        exact le_max_right ..
      · by_cases h1 : 1 < t
        · rw [z isOpen_Ioi (fun t ht => pulseShape_over ht) t h1, abs_zero]
          exact le_max_right ..
        · exact (hM t ⟨not_lt.mp h0, not_lt.mp h1⟩).trans (le_max_left ..)
    · exact ⟨0, fun h => absurd h k5⟩
  choose B hB using each
  refine ⟨max (max (B 2) (B 3)) (max (B 4) (B 5)), sm, fun t ht => pulseShape_before ht, fun k k2 k5 t => ?_⟩
  have : k = 2 ∨ k = 3 ∨ k = 4 ∨ k = 5 := by omega
  rcases this with rfl | rfl | rfl | rfl
  · exact (hB 2 k5 t).trans ((le_max_left ..).trans (le_max_left ..))
  · exact (hB 3 k5 t).trans ((le_max_right ..).trans (le_max_left ..))
  · exact (hB 4 k5 t).trans ((le_max_left ..).trans (le_max_right ..))
  · exact (hB 5 k5 t).trans ((le_max_right ..).trans (le_max_right ..))

/-- The current of the sources that send the pulse of `PulseCases` across the flash and past the disc. -/
noncomputable def crossJ (t x y : ℝ) : ℝ := neededCurrent pulseA discEps discSig t x y - induced discEps discSig glint.resp (entry gOpen litVol) t x y

theorem beside_disc {x y : ℝ} (h : x ≤ 8) : discEps x y = 1 ∧ discSig x y = 0 := by
  have : ¬ (x - 10) ^ 2 + (y - 10) ^ 2 < 4 := by nlinarith [sq_nonneg (y - 10)]
  unfold discEps discSig
  rw [if_neg this, if_neg this]
  exact ⟨rfl, rfl⟩

/-- A case of `C101_passive`: a flash of the incident wave and a pulse of other sources cross in a box beside a conducting dielectric disc. Once both have passed, the number in the file is not
positive up to the error of the scheme. -/
example (now : ℕ → ℝ) (freq : List ℝ) (n : ℕ) (hn : 31 ≤ n) : ∃ w4 M Ms,
    LitWritten now gOpen (furnishLit [lampDisc] (discSources crossJ) litVol glint) (List.replicate n (.op .update)) [] "v" ⟨((6 : ℤ) : ℝ), ((7 : ℤ) : ℝ)⟩ ⟨((8 : ℤ) : ℝ), ((12 : ℤ) : ℝ)⟩ .tangent
      freq n w4 ∧
    HoldsNoSupply w4 gOpen "v" freq fun f =>
      boxFlowError gOpen (gOpen.toGrid ⟨((6 : ℤ) : ℝ), ((7 : ℤ) : ℝ)⟩) (gOpen.toGrid ⟨((8 : ℤ) : ℝ), ((12 : ℤ) : ℝ)⟩) (litSize M Ms (n + 1)) (n * gOpen.dt)
        (litError (fun _ _ => True) gOpen litVol M Ms 3 1 (n + 1) 0 n) f + 0 := by
  obtain ⟨Ms, hM⟩ := smooth_flash
  have nn := Nat.cast_nonneg (α := ℝ) n
  have hd : gOpen.dt = 1 / 2 := by rw [gOpen_lawful.dt, gOpen_dx]
  have late : 15 < n * gOpen.dt := by
    have : (31 : ℝ) ≤ n := by exact_mod_cast hn
    rw [hd]; linarith
  have en : entry gOpen litVol = 4 := by
    unfold entry
    rw [lit_a, gOpen_dx]
    norm_num
  obtain ⟨M, M0, sm, st, ev, cm⟩ := potential_bounded pulseA_smooth gOpen (n + 1) (eps := discEps) (sig := discSig) (em := 3) (sm := 1)
    (fun x y => by rcases discEps_cases x y with ⟨e1, e2⟩ | ⟨e1, e2⟩ <;> rw [e1] <;> norm_num)
    (fun x y => by rcases discEps_cases x y with ⟨e1, e2⟩ | ⟨e1, e2⟩ <;> rw [e2] <;> norm_num)
  obtain ⟨w4, h⟩ := disc_lit now freq n crossJ glint ⟨6, 7⟩ ⟨8, 12⟩ (by decide) (by decide)
  obtain ⟨o1, o2, o3⟩ := of_furnishLit [lampDisc] (discSources crossJ) litVol glint
  have P := disc_scatters (τ := n + 1) hM sm st ev (potential_driven pulseA_smooth _ _ _ _) cm (pulse_walls _) (pulse_rest _)
  have hin : BoxWithin gOpen litVol ⟨((6 : ℤ) : ℝ), ((7 : ℤ) : ℝ)⟩ ⟨((8 : ℤ) : ℝ), ((12 : ℤ) : ℝ)⟩ := by unfold BoxWithin; rw [gOpen_node, gOpen_node, lit_a, lit_b]; decide
  have inb : ∀ x y, (x, y) ∈ between (gOpen.toReal ⟨6, 7⟩) (gOpen.toReal ⟨8, 12⟩) → 6 ≤ x ∧ x ≤ 8 ∧ 7 ≤ y ∧ y ≤ 12 := by
    rintro x y ⟨⟨h1, h2⟩, h3, h4⟩
    simp only [Grid.toReal, gOpen_dx] at h1 h2 h3 h4
    norm_num at h1 h2 h3 h4
    exact ⟨h1, h2, h3, h4⟩
  have clr : ∀ t x y, 6 ≤ x ∧ x ≤ 8 ∧ 7 ≤ y ∧ y ≤ 12 → (t, x, y) ∈ pulseClear := fun t x y ⟨h1, h2, h3, h4⟩ =>
    ⟨by show 2 < x; linarith, by show x < 17; linarith, by show 2 < y; linarith, by show y < 13; linarith⟩
  have F : (pulse.lit glint.resp (entry gOpen litVol)).Faded (gOpen.toReal ⟨6, 7⟩) (gOpen.toReal ⟨8, 12⟩) (n * gOpen.dt) 0 := by
    intro x y hb
    have c := inb x y hb
    obtain ⟨e1, e2, e3⟩ := pulse_clear (clr (n * gOpen.dt) x y c)
    have f : glint.resp (n * gOpen.dt - max 0 (y - entry gOpen litVol)) = 0 := by
      rw [en, max_eq_right (by linarith [c.2.2.1])]
      exact pulseShape_over (by linarith [c.2.2.2])
    have z := pulseShape_over (s := n * gOpen.dt - x) (by linarith [c.2.1])
    simp only [Wave.lit]
    rw [e1, e2, e3, f, z]
    simp
  have N : NoCurrent crossJ (gOpen.toReal ⟨6, 7⟩) (gOpen.toReal ⟨8, 12⟩) (n * gOpen.dt) := by
    rintro t - x y hb
    have c := inb x y hb
    obtain ⟨d1, d2⟩ := beside_disc (y := y) c.2.1
    unfold crossJ induced
    rw [pulse_free (clr t x y c) d1 d2, d1, d2]
    ring
  rw [← gOpen_node 6 7, ← gOpen_node 8 12] at F N
  have := C101_passive h o1 o2 o3 P (by rw [hd]; linarith) hin discEps_measurable (pieces_all _ _) (potential_regular pulseA_smooth _ _ _ _) 0 F N
  have rz : ∀ p q k m, remainder p q k 0 m (n * gOpen.dt) = 0 := fun p q k m => by unfold remainder; ring
  simp only [rz] at this
  exact ⟨w4, M, Ms, h, this⟩

end Qbox.Props
