import Verif.Lemmas.DivergeDebye

/-! # A Debye medium of many poles that amplifies (C72) -/

namespace Qbox.Props
open Qbox Scalar Spec

/-- Physical Debye media of eight poles. -/
def EightPoleDebye : MatKind ℝ → Prop
  | .debye m => 1 ≤ m.epsInf ∧ m.poles.length = 8 ∧ ∀ p ∈ m.poles, 0 < p.tau ∧ 0 < p.dEps
  | _ => False

/-- **C72** is false for Debye media of many poles: in a domain of 6 by 6 nodes filled with a medium of eight equal poles a standing wave grows
without bound. -/
theorem C72_debye_false : ¬ StaysBounded EightPoleDebye := by
  intro h
  obtain ⟨c0, c1, h1, h2, h3, h4, h5, h6, h7, h8, n1, n2, n3⟩ := fill_sim ⟨"m", .debye choir⟩
  obtain ⟨a1, a2⟩ := fill_alone ⟨"m", .debye choir⟩
  obtain ⟨B, hB⟩ := h gSix gSix_wide gSix_lawful gSix_T [fill ⟨"m", .debye choir⟩] (fun o ho => by rw [List.mem_singleton.mp ho]; exact fill_sound _)
    (fun o ho => by rw [List.mem_singleton.mp ho]; exact fill_clear _) (fun o ho => by
      rw [List.mem_singleton.mp ho]
      refine ⟨by norm_num [choir], choir_poles, fun p hp => ?_⟩
      rw [List.eq_of_mem_replicate hp]
      norm_num) a1 a2 (fun _ _ => 0) startX startY startH_off
  obtain ⟨P, p1, p2, -, p4⟩ := firstDebye h7 (by rw [h8]; exact safe_of_clear gSix_lawful (fill_clear _)) (by rw [h8]; exact covered_of_sound gSix_lawful (fill_sound _))
    rfl n1 n2 n3 h6
  obtain ⟨s1, s2⟩ := startH_wave c1
  have node : ∀ i j, 1 ≤ i → i ≤ 4 → 1 ≤ j → j ≤ 4 → InDebye c1 "m" P [] [] i j := fun i j i0 i1 j0 j1 =>
    p4 i j (by omega) (by rw [h8, gSix_Nx]; omega) (by omega) (by rw [h8, gSix_Ny]; omega) (by rw [h8]; exact fill_node _ i0 i1 j0 j1)
  have lo : c1.lorentz = [] := (node 1 1 (by norm_num) (by norm_num) (by norm_num) (by norm_num)).lorentz
  have w : DebyeWave (withFields c1 (fun _ _ => 0) startX startY) (0, 1, fun _ => 0) := by
    refine ⟨h3.of_same { h3.wf with f := { h3.wf.f with Ez := h3.wf.f.Ez, Hx := h3.wf.f.Hx, Hy := h3.wf.f.Hy } } rfl rfl rfl rfl, h4, h5.tfsf, lo,
      ⟨fun q hq i j N _ _ _ _ _ _ _ => h5.debye q hq i j N, fun q hq i j N _ _ _ _ _ _ _ => h5.drude q hq i j N⟩, s2, s1, "m", P, [], p1,
      fun i j i0 i1 j0 j1 => ⟨?_, fun N _ => by rw [p2]; ring⟩⟩
    have F := node i j i0 i1 j0 j1
    exact ⟨F.entry, F.others, F.drude, F.lorentz, ⟨F.medium.Ca, F.medium.Cb, F.medium.Da, F.medium.Db⟩, F.strength⟩
  obtain ⟨n, hn⟩ := debye_unbounded (4 * B)
  obtain ⟨c2, r, w2⟩ := w.run n
  have b := hB n c0 c1 c2 h1 h2 r
  have := standing_size w2.wave
  linarith

end Qbox.Props
