import Verif.Props.LitSpectraProps
import Verif.Props.LitCases

/-! # Programs with an incident wave and a volume or surface monitor, and non-trivial cases of C105 -/

namespace Qbox.Props
open Qbox Scalar Spec

/-- Programs that add things, then a monitor, take steps, and write. -/
theorem monitor_writes (now : ℕ → ℝ) (g : Grid ℝ) (hw : g.Wide) (hl : Lawful g) (cs1 : List (Call ℝ))
    (safe : ∀ l, (∀ ob, Inside False g ob l) → Inside False g [] (simOps cs1 ++ l))
    (kind : ∀ c ∈ cs1, (∃ o, c = .op (.addObject o)) ∨ (∃ s, c = .op (.addSource s)) ∨ ∃ v tp, c = .op (.setTfsf v tp)) (n : ℕ)
    (hd : DistinctNames cs1) (hp : ∀ c ∈ cs1, PlainNames c) (mon : Monitor ℝ) (mf : ∀ ob, Inside False g ob (.addMonitor mon :: List.replicate n .update))
    (cl1 : (claims (Call.op (.addMonitor mon))).Nodup) (cl2 : ∀ p ∈ claims (Call.op (.addMonitor mon)), p.head? = some "monitors") (cl3 : recorded mon = []) (fin : ℕ → Call ℝ)
    (comp : ∀ w1 w2, Watched now g cs1 mon (List.replicate n (.op .update)) w1 w2 → Computable w2 (fin w1.sim.mons.length)) :
    ∃ w1 w2 w3, Watched now g cs1 mon (List.replicate n (.op .update)) w1 w2 ∧
      w2.step now (fin w1.sim.mons.length) = .ok w3 ∧ Advances (simOps (List.replicate n (.op .update) : List (Call ℝ))) ∧
      n = (simOps (List.replicate n (.op .update) : List (Call ℝ))).countP isUpdate := by
  have dt0 : 0 < g.dt := by rw [hl.dt]; linarith [hl.dx]
  have ins : Inside False g [] (simOps cs1 ++ .addMonitor mon :: List.replicate n .update) := safe _ mf
  have calls : simOps (cs1 ++ .op (.addMonitor mon) :: List.replicate n (.op .update)) =
      simOps cs1 ++ .addMonitor mon :: List.replicate n .update := by
    rw [simOps_append]
    simp only [simOps]
    rw [simOps_updates]
  have cl0 : (List.replicate n (Call.op (K := ℝ) .update)).flatMap claims = [] := claims_updates n
  have new : ∀ p ∈ claims (Call.op (.addMonitor mon)), p ∉ cs1.flatMap claims := by
    intro p hp h
    have hp := cl2 p hp
    obtain ⟨c, h1, h2⟩ := List.mem_flatMap.mp h
    rcases kind c h1 with ⟨o, rfl⟩ | ⟨o, rfl⟩ | ⟨v, tp, rfl⟩
    · rw [List.mem_singleton.mp h2] at hp
      unfold objectGroup at hp
      exact absurd (Option.some.inj hp) (by decide)
    · rw [List.mem_singleton.mp h2] at hp
      exact absurd (Option.some.inj hp) (by decide)
    · rw [List.mem_singleton.mp h2] at hp
      exact absurd (Option.some.inj hp) (by decide)
  obtain ⟨w0, w2, h0, h2⟩ := C66_completes now g hw hl.dx "out" (by decide) (cs1 ++ .op (.addMonitor mon) :: List.replicate n (.op .update))
    (by rw [calls]; exact ins)
    (by
      rw [calls]
      refine proper_plain _ _ fun op ho => ?_
      simp only [List.mem_append, List.mem_cons, List.mem_replicate] at ho
      rcases ho with ho | rfl | ⟨-, rfl⟩
      · rcases kind _ (op_of_simOps cs1 kind ho) with ⟨o, e⟩ | ⟨o, e⟩ | ⟨v, tp, e⟩ <;> cases e <;> simp
      · simp
      · simp)
    (by
      unfold DistinctNames at hd ⊢
      rw [List.flatMap_append, List.flatMap_cons, cl0, List.append_nil]
      exact List.nodup_append.mpr ⟨hd, cl1, fun p hp q hq e => new q hq (e ▸ hp)⟩)
    (by
      intro c hcm
      rcases List.mem_append.mp hcm with hcm | hcm
      · exact hp c hcm
      · rcases List.mem_cons.mp hcm with rfl | hcm
        · cases mon <;> trivial
        · rw [(List.mem_replicate.mp hcm).2]; trivial)
    (by
      intro c hcm
      rcases List.mem_append.mp hcm with hcm | hcm
      · rcases kind c hcm with ⟨o, rfl⟩ | ⟨o, rfl⟩ | ⟨v, tp, rfl⟩ <;> trivial
      · rcases List.mem_cons.mp hcm with rfl | hcm
        · cases mon <;> trivial
        · rw [(List.mem_replicate.mp hcm).2]; trivial)
  have hrun := World.runOk_run h2
  rw [World.runOk_append] at h2
  obtain ⟨w1, h1, h2⟩ := (Except.bind_ok ..).mp h2
  have watched : Watched now g cs1 mon (List.replicate n (.op .update)) w1 w2 := by
    refine ⟨hw, hl.dx, dt0, ⟨"out", w0, by decide, h0, h1⟩, h2, ?_, ?_⟩
    · rw [simOps_updates]; exact ins
    · intro op ho
      rw [simOps_updates] at ho
      rw [(List.mem_replicate.mp ho).2]
      trivial
  obtain ⟨w3, h3, -⟩ := C95_first now g "out" w0 w2 _ h0 (by
      intro m hm
      rcases List.mem_append.mp hm with hm | hm
      · rcases kind _ hm with ⟨o, e⟩ | ⟨o, e⟩ | ⟨v, tp, e⟩ <;> cases e
      · rcases List.mem_cons.mp hm with e | hm
        · cases e; exact cl3
        · cases (List.mem_replicate.mp hm).2) hrun (fin w1.sim.mons.length) (comp w1 w2 watched) (by
      intro pre c' post wp e _ q hq _
      have hcm : c' ∈ cs1 ++ .op (.addMonitor mon) :: List.replicate n (.op .update) := by rw [e]; simp
      rcases List.mem_append.mp hcm with hcm | hcm
      · rcases kind c' hcm with ⟨o, rfl⟩ | ⟨o, rfl⟩ | ⟨v, tp, rfl⟩ <;> simp [results] at hq
      · rcases List.mem_cons.mp hcm with rfl | hcm
        · simp [results] at hq
        · rw [(List.mem_replicate.mp hcm).2] at hq; simp [results] at hq)
  refine ⟨w1, w2, w3, watched, h3, ?_, ?_⟩
  · intro op ho
    rw [simOps_updates] at ho
    exact .inr (List.mem_replicate.mp ho).2
  · rw [simOps_updates, List.countP_replicate]
    rfl

/-- Such programs exist: any objects clear of the edges, any sources that fit, any region for the incident wave, any rectangle of nodes, any number of steps. -/
theorem C105_volume_program (now : ℕ → ℝ) (g : Grid ℝ) (hw : g.Wide) (hl : Lawful g) (hT : g.T = 0) (objs : List (Object ℝ)) (hc : ∀ o ∈ objs, ClearOfUnguardedEdges g o)
    (srcs : List (Source ℝ)) (fits : ∀ s ∈ srcs, Fits g s) (vol : Vol ℝ) (tp : TimeProfile ℝ) (hv : ClearRegion g (g.toGrid vol.a) (g.toGrid vol.b)) (name : String) (a b : V2 ℝ) (tag : DftTag)
    (freq : List ℝ) (n : ℕ) (hx : (g.toGrid a).x ≤ (g.toGrid b).x) (hy : (g.toGrid a).y ≤ (g.toGrid b).y)
    (hR : ∀ i j, (Box.mk (g.toGrid a).x (g.toGrid b).x (g.toGrid a).y (g.toGrid b).y).Mem i j → (updatedNodes g).Mem i j)
    (hd : DistinctNames (furnish objs srcs)) (hp : ∀ c ∈ furnish objs srcs, PlainNames c) :
    ∃ w4, LitVolume now g (furnishLit objs srcs vol tp) (List.replicate n (.op .update)) [] name a b tag freq n w4 := by
  obtain ⟨k1, k2, k3, k4, k5⟩ := furnishLit_fine g hl hT objs hc srcs fits vol tp hv hd hp
  have ia : InGrid g (g.toGrid a) := by
    have := hR (g.toGrid a).x (g.toGrid a).y ⟨⟨le_rfl, hx⟩, le_rfl, hy⟩
    unfold Box.Mem updatedNodes at this
    simp only at this
    exact ⟨by omega, by omega, by omega, by omega⟩
  have ib : InGrid g (g.toGrid b) := by
    have := hR (g.toGrid b).x (g.toGrid b).y ⟨⟨hx, le_rfl⟩, hy, le_rfl⟩
    unfold Box.Mem updatedNodes at this
    simp only at this
    exact ⟨by omega, by omega, by omega, by omega⟩
  obtain ⟨w1, w2, w3, h1, h2, h3, h4⟩ := monitor_writes now g hw hl (furnishLit objs srcs vol tp) k1 k2 n k3 k4 (.vol (.make name (Vol.make a b) tag freq))
    (fun ob => ⟨.vol name a b tag freq ia ib hx hy, inside_steps g ob n⟩) (List.nodup_singleton _) (fun p hp => by rw [List.mem_singleton.mp hp]; rfl) rfl (fun i => .writeSpectra i)
    (fun _ _ _ => trivial)
  exact ⟨w3, hl, hT, hw, k5, h3, h4, hx, hy, hR, w1, w2, w3, h1, h2, rfl⟩

/-- The same for a line two nodes away from the walls. -/
theorem C105_line_program (now : ℕ → ℝ) (g : Grid ℝ) (hw : g.Wide) (hl : Lawful g) (hT : g.T = 0) (objs : List (Object ℝ)) (hc : ∀ o ∈ objs, ClearOfUnguardedEdges g o)
    (srcs : List (Source ℝ)) (fits : ∀ s ∈ srcs, Fits g s) (vol : Vol ℝ) (tp : TimeProfile ℝ) (hv : ClearRegion g (g.toGrid vol.a) (g.toGrid vol.b)) (name : String) (a b : V2 ℝ) (sg : Sgn)
    (s : Surf ℝ) (hs : Surf.make a b sg = .ok s) (tag : DftTag) (htag : tag = .all ∨ tag = .tangent) (freq : List ℝ) (n : ℕ) (hdx : g.dx ≤ 1) (hne : g.toGrid a ≠ g.toGrid b)
    (xa : 2 ≤ (g.toGrid a).x ∧ (g.toGrid a).x ≤ g.Nx - 2) (ya : 2 ≤ (g.toGrid a).y ∧ (g.toGrid a).y ≤ g.Ny - 2)
    (xb : 2 ≤ (g.toGrid b).x ∧ (g.toGrid b).x ≤ g.Nx - 2) (yb : 2 ≤ (g.toGrid b).y ∧ (g.toGrid b).y ≤ g.Ny - 2)
    (hd : DistinctNames (furnish objs srcs)) (hp : ∀ c ∈ furnish objs srcs, PlainNames c) :
    ∃ w4, LitLine now g (furnishLit objs srcs vol tp) (List.replicate n (.op .update)) [] name a b sg tag freq n w4 := by
  obtain ⟨k1, k2, k3, k4, k5⟩ := furnishLit_fine g hl hT objs hc srcs fits vol tp hv hd hp
  have ia := inner_of_two xa ya hdx
  have ib := inner_of_two xb yb hdx
  obtain ⟨w1, w2, w3, h1, h2, h3, h4⟩ := monitor_writes now g hw hl (furnishLit objs srcs vol tp) k1 k2 n k3 k4 (.surf (.make name s tag freq))
    (fun ob => ⟨.surf name a b sg s tag freq hs hne ia ib, inside_steps g ob n⟩) (List.nodup_singleton _) (fun p hp => by rw [List.mem_singleton.mp hp]; rfl) rfl (fun i => .report i .flux)
    (fun w1 w2 watched m x hm hx => by
      obtain ⟨s2, qs, m1, m2, -, -, -, hq, e1, -, e2, hm', -⟩ := Qbox.Props.attaches watched.attaches
      obtain ⟨is, hi, -, -, -⟩ := toGridS_make g a b sg s hs hne
      obtain ⟨ss, hf, -⟩ := surf_finds g hl.dx a b sg s hs hne ia ib is hi tag qs hq
      obtain ⟨M1, M, r1, r2, r3, -, -, r6, -⟩ := surf_recorded g name a b sg s hs hne tag htag freq qs ss is hi hf
      obtain ⟨S, r5, -⟩ := C41_flux g M a b sg (by rw [r3]; exact hs) _ _ _ r6
      have : m1 = .surf M1 := by
        unfold Monitor.setF at e1
        simp only [r1, Except.ok_bind] at e1
        exact (Except.ok.inj e1).symm
      subst this
      rw [runs_surf, r2] at e2
      obtain rfl : m2 = .surf M := (Except.ok.inj e2).symm
      rw [hm'] at hm
      obtain rfl := Option.some.inj hm
      rw [watched.grid] at hx
      simp only [Monitor.compute, r5] at hx
      exact ⟨_, (Option.some.inj hx).symm⟩)
  exact ⟨w3, hl, hT, hdx, hw, k5, h3, h4, htag, hne, xa, ya, xb, yb, s, w1, w2, w3, hs, h1, h2, rfl⟩

theorem disc_named (J : ℝ → ℝ → ℝ → ℝ) : DistinctNames (furnish [lampDisc] (discSources J)) ∧ ∀ c ∈ furnish [lampDisc] (discSources J), PlainNames c :=
  disc_names ⟨"m", .simple ⟨3, 1, 1⟩⟩ 10 10 (by unfold PlainNames disc; decide) gOpen discEps discSig J (- (gOpen.dt / 2))

/-- Cases of `C105_scattered` and `C105_total`: the disc in the incident wave that rises smoothly, with a volume monitor beside the region, and one over the disc. -/
example (now : ℕ → ℝ) (freq : List ℝ) (n : ℕ) : ∃ w4 w5 Ms,
    LitVolume now gOpen (furnishLit [lampDisc] (discSources litJ) litVol rise) (List.replicate n (.op .update)) [] "v" ⟨((15 : ℤ) : ℝ), ((4 : ℤ) : ℝ)⟩ ⟨((17 : ℤ) : ℝ), ((17 : ℤ) : ℝ)⟩ .all
      freq n w4 ∧
    HoldsSpectra w4 gOpen "v" ⟨((15 : ℤ) : ℝ), ((4 : ℤ) : ℝ)⟩ ⟨((17 : ℤ) : ℝ), ((17 : ℤ) : ℝ)⟩ .all freq lamp (n * gOpen.dt)
      (spectralError gOpen 1 (n * gOpen.dt) (litError (fun _ _ => True) gOpen litVol 1 Ms 3 1 (n + 1) 0 n)) ∧
    LitVolume now gOpen (furnishLit [lampDisc] (discSources litJ) litVol rise) (List.replicate n (.op .update)) [] "v" ⟨((7 : ℤ) : ℝ), ((7 : ℤ) : ℝ)⟩ ⟨((13 : ℤ) : ℝ), ((13 : ℤ) : ℝ)⟩ .all
      freq n w5 ∧
    HoldsSpectra w5 gOpen "v" ⟨((7 : ℤ) : ℝ), ((7 : ℤ) : ℝ)⟩ ⟨((13 : ℤ) : ℝ), ((13 : ℤ) : ℝ)⟩ .all freq (lamp.lit rise.resp (entry gOpen litVol)) (n * gOpen.dt)
      (spectralError gOpen (litSize 1 Ms (n + 1)) (n * gOpen.dt) (litError (fun _ _ => True) gOpen litVol 1 Ms 3 1 (n + 1) 0 n)) := by
  obtain ⟨Ms, hM⟩ := smooth_rise
  have nn := Nat.cast_nonneg (α := ℝ) n
  have hd : gOpen.dt = 1 / 2 := by rw [gOpen_lawful.dt, gOpen_dx]
  obtain ⟨o1, o2, o3⟩ := of_furnishLit [lampDisc] (discSources litJ) litVol rise
  have P := disc_scatters (τ := n + 1) hM (lamp_smooth _ _) (lamp_steady _ _) (lamp_even _ _) (lamp_driven _ _) (lampJ_at_most _ _) (lamp_walls _) (lamp_rest _)
  have go := fun (a b : V2 ℤ) (hx : 2 ≤ a.x ∧ a.x ≤ b.x ∧ b.x ≤ 17) (hy : 2 ≤ a.y ∧ a.y ≤ b.y ∧ b.y ≤ 17) =>
    C105_volume_program now gOpen gOpen_wide gOpen_lawful gOpen_T [lampDisc] lampDisc_clear (discSources litJ) (discSources_fit litJ) litVol rise lit_region "v"
      ⟨(a.x : ℝ), (a.y : ℝ)⟩ ⟨(b.x : ℝ), (b.y : ℝ)⟩ .all freq n (by rw [gOpen_node, gOpen_node]; exact hx.2.1) (by rw [gOpen_node, gOpen_node]; exact hy.2.1)
      (by
        rw [gOpen_node, gOpen_node]
        intro i j h
        unfold Box.Mem updatedNodes at *
        rw [gOpen_Nx, gOpen_Ny]
        simp only at h ⊢
        omega) (disc_named litJ).1 (disc_named litJ).2
  obtain ⟨w4, h4⟩ := go ⟨15, 4⟩ ⟨17, 17⟩ (by decide) (by decide)
  obtain ⟨w5, h5⟩ := go ⟨7, 7⟩ ⟨13, 13⟩ (by decide) (by decide)
  exact ⟨w4, w5, Ms, h4, C105_scattered h4 o1 o2 o3 P (by rw [hd]; linarith) (by unfold NodesBeside; rw [gOpen_node, gOpen_node, lit_a, lit_b]; decide),
    h5, C105_total h5 o1 o2 o3 P (by rw [hd]; linarith) (by unfold NodesWithin; rw [gOpen_node, gOpen_node, lit_a, lit_b]; decide)⟩

/-- Cases of `C105_flux_scattered` and `C105_flux_total`: a line beside the region, and one in the region beside the disc. -/
example (now : ℕ → ℝ) (freq : List ℝ) (n : ℕ) : ∃ w4 w5 Ms,
    LitLine now gOpen (furnishLit [lampDisc] (discSources litJ) litVol rise) (List.replicate n (.op .update)) [] "v" ⟨((16 : ℤ) : ℝ), ((4 : ℤ) : ℝ)⟩ ⟨((16 : ℤ) : ℝ), ((17 : ℤ) : ℝ)⟩ .Positive
      .tangent freq n w4 ∧
    HoldsFlux w4 gOpen "v" ⟨((16 : ℤ) : ℝ), ((4 : ℤ) : ℝ)⟩ ⟨((16 : ℤ) : ℝ), ((17 : ℤ) : ℝ)⟩ .Positive freq lamp (n * gOpen.dt)
      (flowError gOpen (cells gOpen ⟨((16 : ℤ) : ℝ), ((4 : ℤ) : ℝ)⟩ ⟨((16 : ℤ) : ℝ), ((17 : ℤ) : ℝ)⟩) 1 (n * gOpen.dt) (litError (fun _ _ => True) gOpen litVol 1 Ms 3 1 (n + 1) 0 n)) ∧
    LitLine now gOpen (furnishLit [lampDisc] (discSources litJ) litVol rise) (List.replicate n (.op .update)) [] "v" ⟨((7 : ℤ) : ℝ), ((8 : ℤ) : ℝ)⟩ ⟨((7 : ℤ) : ℝ), ((13 : ℤ) : ℝ)⟩ .Positive
      .tangent freq n w5 ∧
    HoldsFlux w5 gOpen "v" ⟨((7 : ℤ) : ℝ), ((8 : ℤ) : ℝ)⟩ ⟨((7 : ℤ) : ℝ), ((13 : ℤ) : ℝ)⟩ .Positive freq (lamp.lit rise.resp (entry gOpen litVol)) (n * gOpen.dt)
      (flowError gOpen (cells gOpen ⟨((7 : ℤ) : ℝ), ((8 : ℤ) : ℝ)⟩ ⟨((7 : ℤ) : ℝ), ((13 : ℤ) : ℝ)⟩) (litSize 1 Ms (n + 1)) (n * gOpen.dt)
        (litError (fun _ _ => True) gOpen litVol 1 Ms 3 1 (n + 1) 0 n)) := by
  obtain ⟨Ms, hM⟩ := smooth_rise
  have nn := Nat.cast_nonneg (α := ℝ) n
  have hd : gOpen.dt = 1 / 2 := by rw [gOpen_lawful.dt, gOpen_dx]
  obtain ⟨o1, o2, o3⟩ := of_furnishLit [lampDisc] (discSources litJ) litVol rise
  have P := disc_scatters (τ := n + 1) hM (lamp_smooth _ _) (lamp_steady _ _) (lamp_even _ _) (lamp_driven _ _) (lampJ_at_most _ _) (lamp_walls _) (lamp_rest _)
  have go : ∀ (x y y' : ℤ), 2 ≤ x ∧ x ≤ 18 → 2 ≤ y ∧ y < y' ∧ y' ≤ 18 → ∃ w4, LitLine now gOpen (furnishLit [lampDisc] (discSources litJ) litVol rise) (List.replicate n (.op .update)) [] "v"
      ⟨(x : ℝ), (y : ℝ)⟩ ⟨(x : ℝ), (y' : ℝ)⟩ .Positive .tangent freq n w4 := fun x y y' hx hy => by
    obtain ⟨s, hs⟩ := surf_vertical (x : ℝ) (y : ℝ) (y' : ℝ) .Positive
    exact C105_line_program now gOpen gOpen_wide gOpen_lawful gOpen_T [lampDisc] lampDisc_clear (discSources litJ) (discSources_fit litJ) litVol rise lit_region "v"
      ⟨(x : ℝ), (y : ℝ)⟩ ⟨(x : ℝ), (y' : ℝ)⟩ .Positive s hs .tangent (.inr rfl) freq n (by rw [gOpen_dx])
      (by rw [gOpen_node, gOpen_node]; intro e; have := congrArg V2.y e; simp only at this; omega)
      (by rw [gOpen_node, gOpen_Nx]; exact hx) (by rw [gOpen_node, gOpen_Ny]; simp only; omega) (by rw [gOpen_node, gOpen_Nx]; exact hx) (by rw [gOpen_node, gOpen_Ny]; simp only; omega)
      (disc_named litJ).1 (disc_named litJ).2
  obtain ⟨w4, h4⟩ := go 16 4 17 (by decide) (by decide)
  obtain ⟨w5, h5⟩ := go 7 8 13 (by decide) (by decide)
  exact ⟨w4, w5, Ms, h4, C105_flux_scattered h4 o1 o2 o3 P (by rw [hd]; linarith) (by unfold NodesBeside lineLow lineHigh; rw [gOpen_node, gOpen_node, lit_a, lit_b]; decide),
    h5, C105_flux_total h5 o1 o2 o3 P (by rw [hd]; linarith) (by unfold NodesWithin lineLow lineHigh; rw [gOpen_node, gOpen_node, lit_a, lit_b]; decide)⟩

end Qbox.Props
