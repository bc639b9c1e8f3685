import Verif.Props.FluxWaveProps
import Verif.Props.SpectraWaveCases

/-! # Programs that write the energy flow of a wave (C96) -/

namespace Qbox.Props
open Qbox Scalar Spec

/-- Such programs exist: any objects clear of the edges, any sources that fit, any vertical or horizontal line two nodes away from the walls, any number of steps. The names have to be
different, as they have to be in all programs (C66, C68). -/
theorem C96_program (now : ℕ → ℝ) (g : Grid ℝ) (hw : g.Wide) (hl : Lawful g) (hT : g.T = 0) (objs : List (Object ℝ)) (hc : ∀ o ∈ objs, ClearOfUnguardedEdges g o)
    (srcs : List (Source ℝ)) (fits : ∀ s ∈ srcs, Fits g s) (name : String) (a b : V2 ℝ) (sg : Sgn) (s : Surf ℝ) (hs : Surf.make a b sg = .ok s) (tag : DftTag)
    (htag : tag = .all ∨ tag = .tangent) (freq : List ℝ) (n : ℕ) (hdx : g.dx ≤ 1) (hne : g.toGrid a ≠ g.toGrid b)
    (xa : 2 ≤ (g.toGrid a).x ∧ (g.toGrid a).x ≤ g.Nx - 2) (ya : 2 ≤ (g.toGrid a).y ∧ (g.toGrid a).y ≤ g.Ny - 2)
    (xb : 2 ≤ (g.toGrid b).x ∧ (g.toGrid b).x ≤ g.Nx - 2) (yb : 2 ≤ (g.toGrid b).y ∧ (g.toGrid b).y ≤ g.Ny - 2)
    (hd : DistinctNames (furnish objs srcs)) (hp : ∀ c ∈ furnish objs srcs, PlainNames c) :
    ∃ w4, LineWritten now g (furnish objs srcs) (List.replicate n (.op .update)) [] name a b sg tag freq n w4 := by
  have dt0 : 0 < g.dt := by rw [hl.dt]; linarith [hl.dx]
  set mon : Monitor ℝ := .surf (.make name s tag freq) with hmon
  have inner : ∀ q : V2 ℤ, 2 ≤ q.x ∧ q.x ≤ g.Nx - 2 → 2 ≤ q.y ∧ q.y ≤ g.Ny - 2 → InnerNode g q := fun q h1 h2 => by
    have e1 : (2 : ℝ) ≤ q.x := by exact_mod_cast h1.1
    have e2 : (2 : ℝ) ≤ q.y := by exact_mod_cast h2.1
    exact ⟨by linarith, by linarith, by omega, by omega⟩
  have ins : Inside False g [] (simOps (furnish objs srcs) ++ .addMonitor mon :: List.replicate n .update) := by
    rw [simOps_furnish]
    refine inside_furnish hl srcs fits (.addMonitor mon :: List.replicate n .update) (fun ob => ?_) objs [] hc
    exact ⟨.surf name a b sg s tag freq hs hne (inner _ xa ya) (inner _ xb yb), inside_steps g ob n⟩
  have calls : simOps (furnish objs srcs ++ .op (.addMonitor mon) :: List.replicate n (.op .update)) =
      simOps (furnish objs srcs) ++ .addMonitor mon :: List.replicate n .update := by
    rw [simOps_append]
    simp only [simOps]
    rw [simOps_updates]
  have cl0 : (List.replicate n (Call.op (K := ℝ) .update)).flatMap claims = [] := claims_updates n
  have new : ["monitors", "surface_monitor", name] ∉ (furnish objs srcs).flatMap claims := by
    intro h
    obtain ⟨c, h1, h2⟩ := List.mem_flatMap.mp h
    unfold furnish at h1
    rcases List.mem_append.mp h1 with h1 | h1
    · obtain ⟨o, -, rfl⟩ := List.mem_map.mp h1
      have := List.mem_singleton.mp h2
      unfold objectGroup at this
      exact absurd (List.cons.inj this).1 (by decide)
    · obtain ⟨o, -, rfl⟩ := List.mem_map.mp h1
      have := List.mem_singleton.mp h2
      exact absurd (List.cons.inj this).1 (by decide)
  obtain ⟨w0, w2, h0, h2⟩ := C66_completes now g hw hl.dx "out" (by decide) (furnish objs srcs ++ .op (.addMonitor mon) :: List.replicate n (.op .update))
    (by rw [calls]; exact ins)
    (by
      rw [calls, simOps_furnish]
      refine proper_plain _ _ fun op ho => ?_
      simp only [List.mem_append, List.mem_map, List.mem_cons, List.mem_replicate] at ho
      rcases ho with (⟨o, -, rfl⟩ | ⟨s, -, rfl⟩) | rfl | ⟨-, rfl⟩ <;> simp)
    (by
      unfold DistinctNames at hd ⊢
      rw [List.flatMap_append, List.flatMap_cons, cl0, List.append_nil]
      exact List.nodup_append.mpr ⟨hd, List.nodup_singleton _, fun p hp q hq e => new ((List.mem_singleton.mp hq).symm.trans e.symm ▸ hp)⟩)
    (by
      intro c hcm
      rcases List.mem_append.mp hcm with hcm | hcm
      · exact hp c hcm
      · rcases List.mem_cons.mp hcm with rfl | hcm
        · trivial
        · rw [(List.mem_replicate.mp hcm).2]; trivial)
    (by
      intro c hcm
      rcases List.mem_append.mp hcm with hcm | hcm
      · rcases List.mem_append.mp hcm with hcm | hcm <;> (obtain ⟨o, -, rfl⟩ := List.mem_map.mp hcm; trivial)
      · rcases List.mem_cons.mp hcm with rfl | hcm
        · trivial
        · rw [(List.mem_replicate.mp hcm).2]; trivial)
  have hrun := World.runOk_run h2
  rw [World.runOk_append] at h2
  obtain ⟨w1, h1, h2⟩ := (Except.bind_ok ..).mp h2
  have watched : Watched now g (furnish objs srcs) mon (List.replicate n (.op .update)) w1 w2 := by
    refine ⟨hw, hl.dx, dt0, ⟨"out", w0, by decide, h0, h1⟩, h2, ?_, ?_⟩
    · rw [simOps_updates]; exact ins
    · intro op ho
      rw [simOps_updates] at ho
      rw [(List.mem_replicate.mp ho).2]
      trivial
  have comp : Computable w2 (.report w1.sim.mons.length .flux) := by
    intro m x hm hx
    obtain ⟨s2, qs, m1, m2, -, -, -, hq, e1, -, e2, hm', -⟩ := Qbox.Props.attaches watched.attaches
    obtain ⟨is, hi, -, -, -⟩ := toGridS_make g a b sg s hs hne
    obtain ⟨ss, hf, -⟩ := surf_finds g hl.dx a b sg s hs hne (inner _ xa ya) (inner _ xb yb) is hi tag qs hq
    obtain ⟨M1, M, r1, r2, r3, -, -, r6, -⟩ := surf_recorded g name a b sg s hs hne tag htag freq qs ss is hi hf
    obtain ⟨S, r5, -⟩ := C41_flux g M a b sg (by rw [r3]; exact hs) _ _ _ r6
    have : m1 = .surf M1 := by
      rw [hmon] at e1
      unfold Monitor.setF at e1
      simp only [r1, Except.ok_bind] at e1
      exact (Except.ok.inj e1).symm
    subst this
    rw [runs_surf, r2] at e2
    obtain rfl : m2 = .surf M := (Except.ok.inj e2).symm
    rw [hm'] at hm
    obtain rfl := Option.some.inj hm
    rw [watched.grid] at hx
    simp only [Monitor.compute, r5] at hx
    exact ⟨_, (Option.some.inj hx).symm⟩
  obtain ⟨w3, h3, -⟩ := C95_first now g "out" w0 w2 _ h0 (by
      intro m hm
      rcases List.mem_append.mp hm with hm | hm
      · rcases List.mem_append.mp hm with hm | hm <;> (obtain ⟨o, -, e⟩ := List.mem_map.mp hm; cases e)
      · rcases List.mem_cons.mp hm with e | hm
        · cases e; rfl
        · cases (List.mem_replicate.mp hm).2) hrun (.report w1.sim.mons.length .flux) comp (by
      intro pre c' post wp e _ q hq _
      have hcm : c' ∈ furnish objs srcs ++ .op (.addMonitor mon) :: List.replicate n (.op .update) := by rw [e]; simp
      rcases List.mem_append.mp hcm with hcm | hcm
      · rcases List.mem_append.mp hcm with hcm | hcm <;> (obtain ⟨o, -, rfl⟩ := List.mem_map.mp hcm; simp [results] at hq)
      · rcases List.mem_cons.mp hcm with rfl | hcm
        · simp [results] at hq
        · rw [(List.mem_replicate.mp hcm).2] at hq; simp [results] at hq)
  refine ⟨w3, hl, hT, hdx, hw, ?_, ?_, ?_, htag, hne, xa, ya, xb, yb, s, w1, w2, w3, hs, watched, h3, rfl⟩
  · intro op ho
    rw [simOps_furnish] at ho
    rcases List.mem_append.mp ho with ho | ho
    · obtain ⟨o, -, rfl⟩ := List.mem_map.mp ho
      exact .inr (.inl ⟨o, rfl⟩)
    · obtain ⟨o, -, rfl⟩ := List.mem_map.mp ho
      exact .inr (.inr ⟨o, rfl⟩)
  · intro op ho
    rw [simOps_updates] at ho
    exact .inr (List.mem_replicate.mp ho).2
  · rw [simOps_updates, List.countP_replicate]
    rfl

theorem surf_vertical (x y y' : ℝ) (sg : Sgn) : ∃ s, Surf.make ⟨x, y⟩ ⟨x, y'⟩ sg = .ok s := by
  unfold Surf.make
  simp [V2.cabs]

theorem lamp_even (g : Grid ℝ) (τ : ℝ) : lamp.Even g τ 1 := by
  have c : ∀ u, |Real.cos u| ≤ 1 := Real.abs_cos_le_one
  have s : ∀ u, |Real.sin u| ≤ 1 := Real.abs_sin_le_one
  have K := modeK_abs
  have n : ∀ {a : ℝ}, |a| ≤ 1 → |-a| ≤ 1 := fun h => by rw [abs_neg]; exact h
  refine ⟨fun t x x' y _ _ h _ _ => ?_, fun t x y y' _ _ h _ _ => ?_⟩
  · exact (le_of_eq (congrArg _ (by simp only [lamp]; ring))).trans (lip_cos (prod_le_one (k8u (1 * (t - 0))) (s (modeK * (y - 1 / 2)))) K (1 / 2) h)
  · exact (le_of_eq (congrArg _ (by simp only [lamp]; ring))).trans (lip_cos (prod_le_one (n (k8u (1 * (t - 0)))) (s (modeK * (x - 1 / 2)))) K (1 / 2) h)

/-- A non-trivial case of `C96_simple`: the lamp at the conducting dielectric disc, with the energy flow through the line between the nodes (3, 4) and (3, 12). -/
example (now : ℕ → ℝ) (freq : List ℝ) (n : ℕ) : ∃ w4,
    LineWritten now gOpen (furnish [lampDisc] lampSources) (List.replicate n (.op .update)) [] "v" ⟨((3 : ℤ) : ℝ), ((4 : ℤ) : ℝ)⟩ ⟨((3 : ℤ) : ℝ), ((12 : ℤ) : ℝ)⟩ .Positive .tangent freq n w4 ∧
    HoldsFlux w4 gOpen "v" ⟨((3 : ℤ) : ℝ), ((4 : ℤ) : ℝ)⟩ ⟨((3 : ℤ) : ℝ), ((12 : ℤ) : ℝ)⟩ .Positive freq lamp (n * gOpen.dt)
      (flowError gOpen (cells gOpen ⟨((3 : ℤ) : ℝ), ((4 : ℤ) : ℝ)⟩ ⟨((3 : ℤ) : ℝ), ((12 : ℤ) : ℝ)⟩) 1 (n * gOpen.dt) (restError (fun _ _ => True) gOpen 1 3 + n * gOpen.dt * drivenError (fun _ _ => True) gOpen 1 3 1 0)) := by
  have hl : Lawful gOpen := gOpen_lawful
  have nn := Nat.cast_nonneg (α := ℝ) n
  have hd : gOpen.dt = 1 / 2 := by rw [hl.dt, gOpen_dx]
  have fits : ∀ s ∈ lampSources, Fits gOpen s := renamed_fits (radiators_fit hl _ _ _ _)
  have carry : Spec.Carries gOpen lampSources discEps discSig lampJ (n + 1) 0 := by
    refine renamed_carry (radiators_carry hl lampJ (fun i j _ => ?_) fun m i j _ _ => ?_)
    · rcases discEps_cases (i * gOpen.dx) (j * gOpen.dx) with ⟨e1, e2⟩ | ⟨e1, e2⟩ <;> rw [e1, e2] <;> norm_num
    · rw [show ((m : ℝ) + 1) * gOpen.dt + - (gOpen.dt / 2) = (m + 1 / 2) * gOpen.dt by ring, sub_self, abs_zero]
  obtain ⟨s, hs⟩ := surf_vertical ((3 : ℤ) : ℝ) ((4 : ℤ) : ℝ) ((12 : ℤ) : ℝ) .Positive
  obtain ⟨w4, h⟩ := C96_program now gOpen gOpen_wide hl gOpen_T [lampDisc] lampDisc_clear lampSources fits "v" ⟨((3 : ℤ) : ℝ), ((4 : ℤ) : ℝ)⟩ ⟨((3 : ℤ) : ℝ), ((12 : ℤ) : ℝ)⟩ .Positive s hs .tangent (.inr rfl) freq n
    (by rw [gOpen_dx]) (by rw [gOpen_node, gOpen_node]; decide) (by rw [gOpen_node, gOpen_Nx]; decide) (by rw [gOpen_node, gOpen_Ny]; decide) (by rw [gOpen_node, gOpen_Nx]; decide)
    (by rw [gOpen_node, gOpen_Ny]; decide)
    (by
      unfold DistinctNames furnish
      rw [List.flatMap_append, List.flatMap_map, List.flatMap_map]
      refine List.nodup_append.mpr ⟨List.nodup_singleton _, renamed_claims _ 0, fun p hp q hq e => ?_⟩
      obtain ⟨o, -, hp⟩ := List.mem_flatMap.mp hp
      obtain ⟨s, -, hq⟩ := List.mem_flatMap.mp hq
      rw [List.mem_singleton.mp hp, List.mem_singleton.mp hq] at e
      exact absurd (List.cons.inj e).1 (by decide))
    (by
      intro c hc
      rcases List.mem_append.mp hc with hc | hc
      · obtain ⟨o, ho, rfl⟩ := List.mem_map.mp hc
        rw [List.mem_singleton.mp ho]
        unfold PlainNames lampDisc disc
        decide
      · obtain ⟨s, hs, rfl⟩ := List.mem_map.mp hc
        obtain ⟨⟨r, h1, -, h2⟩, -⟩ := renamed_mem hs
        obtain ⟨p, -, rfl⟩ := List.mem_map.mp h1
        have e : s.tp.params = [] := by rw [← h2]; rfl
        show ("position" :: "p1" :: "p2" :: "sign" :: s.tp.params.map (·.1)).Nodup
        rw [e]
        decide)
  refine ⟨w4, h, C96_simple h [lampDisc] lampSources (objectsOf_furnish _ _).1 (objectsOf_furnish _ _).2 ?_ lampDisc_clear ?_ 3 1 ⟨by norm_num, ?_⟩ ⟨by norm_num, ?_⟩ discEps discSig
    lampDisc_medium lamp (fun _ _ => True) lampJ (n + 1) 1 0 (lamp_smooth _ _) (lamp_steady _ _) (lamp_even _ _) (lamp_driven _ _) (lampJ_at_most _ _) (lamp_walls _) (lamp_rest _) fits le_rfl carry
    (by rw [hd]; linarith)⟩
  · intro o ho
    rw [List.mem_singleton.mp ho]
    exact disc_sound _ _ _
  · intro o ho
    rw [List.mem_singleton.mp ho]
    exact ⟨⟨3, 1, 1⟩, rfl, by norm_num, by norm_num⟩
  · intro o ho m hm
    rw [List.mem_singleton.mp ho] at hm
    cases hm
    exact le_rfl
  · intro o ho m hm
    rw [List.mem_singleton.mp ho] at hm
    cases hm
    norm_num

end Qbox.Props
