import Verif.Props.CrossProps
import Verif.Props.LitCases

/-!
# Programs that write cross sections
-/

namespace Qbox.Props
open Scalar Spec

/-- Whenever a program has set up a scattering problem with frequencies, taken its steps and written the flux of a box, it can write the flux of the incident wave. -/
theorem C104_program {now : ℕ → ℝ} {g : Grid ℝ} {cs1 : List (Call ℝ)} {name : String} {a b : V2 ℝ} {tag : DftTag} {freq : List ℝ} {n : ℕ} {w3 : World ℝ}
    (kind : ∀ c ∈ cs1, (∃ o, c = .op (.addObject o)) ∨ (∃ s, c = .op (.addSource s)) ∨ ∃ v tp, c = .op (.setTfsf v tp))
    (h : LitWritten now g cs1 (List.replicate n (.op .update)) [] name a b tag freq n w3) {vol : Vol ℝ} {tp : TimeProfile ℝ}
    (hwv : incidentOf (simOps cs1) = some (vol, tp)) (d : Dft ℝ Unit) (hd : tp.dft = some d) :
    ∃ cs2 w4, LitWritten now g cs1 (List.replicate n (.op .update)) [.tfsfFlux] name a b tag freq n w4 ∧ IncidentWritten now g cs1 cs2 [] vol tp n w4 := by
  obtain ⟨m0, w1, w2, w3', k0, k1, k2, k3⟩ := h.runs
  cases k3
  obtain ⟨fn, w0, -, h0, h1⟩ := k1.start
  have dt0 : 0 < g.dt := by rw [h.lawful.dt]; linarith [h.lawful.dx]
  set cs2 : List (Call ℝ) := (.op (.addMonitor (.box m0)) :: List.replicate n (.op .update)) ++ [.report w1.sim.mons.length .flux] with hcs
  have r2 : w1.runOk now cs2 = .ok w3 := by
    rw [hcs, World.runOk_append, k1.run]
    show World.runOk now w2 [_] = _
    unfold World.runOk
    rw [k2]
    rfl
  have ops : simOps cs2 = .addMonitor (.box m0) :: List.replicate n .update := by
    rw [hcs, simOps_append]
    simp only [simOps]
    rw [simOps_updates, List.append_nil]
  have adv : Advances (simOps cs2) := by
    rw [ops]
    intro op ho
    rcases List.mem_cons.mp ho with rfl | ho
    · exact .inl rfl
    · exact .inr (List.mem_replicate.mp ho).2
  have cnt : n = (simOps cs2).countP isUpdate := by
    rw [ops, List.countP_cons_of_neg (by simp [isUpdate]), List.countP_replicate]
    rfl
  obtain ⟨y, q1, q2⟩ := incident_core h.lights hwv adv cnt h0 h1 r2
  have comp : Computable w3 .tfsfFlux := by
    intro x hx
    rw [q2] at hx
    obtain rfl := Option.some.inj hx
    set N := (Tfsf.make g tp vol g.dt).Nx with hN
    have n4 : 5 ≤ N := by
      rw [hN]
      simp only [Tfsf.make, Grid.toGridV, IVol.make]
      show 5 ≤ |(g.toGrid vol.a).y - (g.toGrid vol.b).y| + 5
      have := abs_nonneg ((g.toGrid vol.a).y - (g.toGrid vol.b).y)
      omega
    obtain ⟨y', F, p1, p2, -⟩ := C52_flux_partial g vol tp d hd g.dt dt0 _ _ (lineWave_exists tp.resp g.dt (N := N) n4) n
    obtain rfl := Except.ok.inj (p1.symm.trans q1)
    exact ⟨F, p2⟩
  have all : w0.runOk now (cs1 ++ cs2) = .ok w3 := by
    rw [World.runOk_append, h1]
    exact r2
  obtain ⟨-, -, cl⟩ := boxMake_claims k0
  obtain ⟨w4, h4, -⟩ := C95_first now g fn w0 w3 (cs1 ++ cs2) h0 (by
      intro m hm
      rcases List.mem_append.mp hm with hm | hm
      · rcases kind _ hm with ⟨o, e⟩ | ⟨o, e⟩ | ⟨v, tp, e⟩ <;> cases e
      · rcases List.mem_append.mp hm with hm | hm
        · rcases List.mem_cons.mp hm with e | hm
          · cases e; show m0.fourier.acc.map Prod.fst = []; rw [cl]; rfl
          · cases (List.mem_replicate.mp hm).2
        · cases List.mem_singleton.mp hm) (World.runOk_run all) .tfsfFlux comp (by
      intro pre c' post wp e _ q hq hq'
      have q3 : q = ["sources", "tfsf", "flux"] := by
        simp only [results] at hq'
        split at hq'
        · exact List.mem_singleton.mp hq'
        · cases hq'
      subst q3
      have hcm : c' ∈ cs1 ++ cs2 := by rw [e]; simp
      rcases List.mem_append.mp hcm with hcm | hcm
      · rcases kind c' hcm with ⟨o, rfl⟩ | ⟨o, rfl⟩ | ⟨v, tp, rfl⟩ <;> simp [results] at hq
      · rcases List.mem_append.mp hcm with hcm | hcm
        · rcases List.mem_cons.mp hcm with rfl | hcm
          · simp [results] at hq
          · rw [(List.mem_replicate.mp hcm).2] at hq; simp [results] at hq
        · rw [List.mem_singleton.mp hcm] at hq
          simp only [results] at hq
          split at hq
          · split at hq
            · have := List.mem_singleton.mp hq
              unfold Monitor.path at this
              simp at this
            · cases hq
          · cases hq)
  refine ⟨cs2, w4, ⟨⟨h.lawful, h.closed, h.fine, h.wide, h.advances, h.steps, h.records, h.x, h.y, m0, w1, w2, w3, k0, k1, k2, ?_⟩, h.lights⟩,
    ⟨h.lawful, h.lights, hwv, adv, cnt, fn, w0, w1, w3, w4, h0, h1, r2, h4, rfl⟩⟩
  show World.run now w3 [_] = _
  unfold World.run
  rw [h4]
  rfl

/-- A case: the scattering problem of `LitCases` with frequencies; a box around the region. -/
example (now : ℕ → ℝ) (freq : List ℝ) (n : ℕ) : ∃ w4 Ms cs2,
    LitWritten now gOpen (furnishLit [lampDisc] (discSources litJ) litVol (rise.freq freq)) (List.replicate n (.op .update)) [.tfsfFlux] "v" ⟨((3 : ℤ) : ℝ), ((4 : ℤ) : ℝ)⟩
      ⟨((17 : ℤ) : ℝ), ((17 : ℤ) : ℝ)⟩ .tangent freq n w4 ∧
    IncidentWritten now gOpen (furnishLit [lampDisc] (discSources litJ) litVol (rise.freq freq)) cs2 [] litVol (rise.freq freq) n w4 ∧
    HoldsCrossSection w4 gOpen "v" ⟨((3 : ℤ) : ℝ), ((4 : ℤ) : ℝ)⟩ ⟨((17 : ℤ) : ℝ), ((17 : ℤ) : ℝ)⟩ freq lamp rise.resp (n * gOpen.dt)
      (boxFlowError gOpen (gOpen.toGrid ⟨((3 : ℤ) : ℝ), ((4 : ℤ) : ℝ)⟩) (gOpen.toGrid ⟨((17 : ℤ) : ℝ), ((17 : ℤ) : ℝ)⟩) 1 (n * gOpen.dt)
        (litError (fun _ _ => True) gOpen litVol 1 Ms 3 1 (n + 1) 0 n)) (incidentFlowError gOpen (rows gOpen litVol) Ms n) := by
  obtain ⟨Ms, hM⟩ := smooth_rise
  have nn := Nat.cast_nonneg (α := ℝ) n
  have hd : gOpen.dt = 1 / 2 := by rw [gOpen_lawful.dt, gOpen_dx]
  obtain ⟨w3, h3⟩ := disc_lit now freq n litJ (rise.freq freq) ⟨3, 4⟩ ⟨17, 17⟩ (by decide) (by decide)
  obtain ⟨o1, o2, o3⟩ := of_furnishLit [lampDisc] (discSources litJ) litVol (rise.freq freq)
  have names := disc_names ⟨"m", .simple ⟨3, 1, 1⟩⟩ 10 10 (by unfold PlainNames disc; decide) gOpen discEps discSig litJ (- (gOpen.dt / 2))
  obtain ⟨-, kind, -⟩ := furnishLit_fine gOpen gOpen_lawful gOpen_T [lampDisc] lampDisc_clear (discSources litJ) (discSources_fit litJ) litVol (rise.freq freq) lit_region names.1 names.2
  obtain ⟨cs2, w4, h, hi⟩ := C104_program kind h3 o3 _ rfl
  refine ⟨w4, Ms, cs2, h, hi, ?_⟩
  exact C104_scattering (tp := rise.freq freq) h hi o1 o2 o3 _ rfl rfl
    (disc_scatters (s := rise.resp) (τ := n + 1) hM (lamp_smooth _ _) (lamp_steady _ _) (lamp_even _ _) (lamp_driven _ _) (lampJ_at_most _ _) (lamp_walls _) (lamp_rest _))
    (by rw [hd]; linarith) (by unfold BoxAround; rw [gOpen_node, gOpen_node, lit_a, lit_b]; decide)

end Qbox.Props
