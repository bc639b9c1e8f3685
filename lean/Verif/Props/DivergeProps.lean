import Verif.Lemmas.Diverge

/-! # Where a closed simulation does not stay bounded (C72) -/

namespace Qbox.Props
open Qbox Scalar Spec

/-- **C72**, the full claim for a class `K` of materials: in a closed domain with any objects of these materials, none of them covering a dispersive one of
another material, a field that is left alone stays bounded for all time. -/
def StaysBounded (K : MatKind ℝ → Prop) : Prop :=
  ∀ g : Grid ℝ, g.Wide → Lawful g → g.T = 0 → ∀ objs : List (Object ℝ), (∀ o ∈ objs, BoxSound o) → (∀ o ∈ objs, ClearOfUnguardedEdges g o) →
    (∀ o ∈ objs, K o.mat.kind) → OneMeaning objs → Uncovered g objs → ∀ e x y : ℤ → ℤ → ℝ, (∀ i j, ¬ (updatedNodes g).Mem i j → e i j = 0 ∧ x i j = 0 ∧ y i j = 0) →
    ∃ B, ∀ n c0 c1 c2, Core.make g = .ok c0 → forList objs c0 (fun o c => c.insertObject o) = .ok c1 → (withFields c1 e x y).run n [] = .ok (c2, []) →
      size g c2.f (updatedNodes g) ≤ B

/-- **C72** holds for simple media, Debye media of at most two poles and Drude media of at most one. -/
theorem C72_bounded_partial : StaysBounded PassiveKind := by
  intro g hw hl hT objs hb hc hp hn hu e x y h0
  obtain ⟨c0, c1, med, h1, h2, -, h4⟩ := C72_all_time_partial g hw hl hT objs hb hc hp hn hu e x y (fun i j h => (h0 i j h).1) (fun i j h => (h0 i j h).2.1)
    fun i j h => (h0 i j h).2.2
  refine ⟨8 * energy g (fun i j => (med i j).static g.dt) (withFields c1 e x y).f (updatedNodes g), fun n c0' c1' c2 k1 k2 k3 => ?_⟩
  rw [h1] at k1
  cases k1
  rw [h2] at k2
  cases k2
  obtain ⟨c2', r, -, b⟩ := h4 n
  rw [r] at k3
  cases k3
  exact b

/-- Physical Drude media of two poles. -/
def TwoPoleDrude : MatKind ℝ → Prop
  | .drude m => 1 ≤ m.epsInf ∧ m.poles.length = 2 ∧ ∀ p ∈ m.poles, 0 ≤ p.gamma ∧ 0 < p.omega
  | _ => False

/-- Physical Lorentz media of one pole. -/
def OnePoleLorentz : MatKind ℝ → Prop
  | .lorentz m => 1 ≤ m.epsInf ∧ m.poles.length = 1 ∧ ∀ p ∈ m.poles, 0 ≤ p.gamma ∧ 0 < p.omega ∧ 0 < p.dEps
  | _ => False

/-- A block that holds the sixteen inner nodes of the grid. -/
noncomputable def fill (m : Material ℝ) : Object ℝ := ⟨"fill", .block ⟨4, 4⟩, m, ⟨5 / 2, 5 / 2⟩, 0⟩

theorem fill_inside (m : Material ℝ) (p : V2 ℝ) : (fill m).inside p = true ↔ |p.x - 5 / 2| ≤ 2 ∧ |p.y - 5 / 2| ≤ 2 := by
  rw [inside_pullback]
  simp only [fill, Geometry.block, V2.cabs, ltb_real, Real.cos_zero, Real.sin_zero]
  norm_num

theorem fill_node (m : Material ℝ) {i j : ℤ} (i0 : 1 ≤ i) (i1 : i ≤ 4) (j0 : 1 ≤ j) (j1 : j ≤ 4) : (fill m).inside (gSix.toReal ⟨i, j⟩) = true := by
  rw [fill_inside]
  simp only [Grid.toReal, gSix_dx]
  interval_cases i <;> interval_cases j <;> norm_num [abs_le]

theorem fill_sound (m : Material ℝ) : BoxSound (fill m) := boxSound_lib _ (.block _)

theorem fill_clear (m : Material ℝ) : ClearOfUnguardedEdges gSix (fill m) := by
  intro p h
  rw [fill_inside, abs_le, abs_le] at h
  rw [gSix_Lx]
  constructor <;> linarith [h.1.1, h.1.2, h.2.1, h.2.2]

/-- The wave at the start. -/
noncomputable def startE (i j : ℤ) : ℝ := if 1 ≤ i ∧ i ≤ 4 ∧ 1 ≤ j ∧ j ≤ 4 then wa i * wa j else 0

theorem start_off (i j : ℤ) (h : ¬ (updatedNodes gSix).Mem i j) : startE i j = 0 ∧ (0 : ℝ) = 0 ∧ (0 : ℝ) = 0 := by
  refine ⟨if_neg fun hh => h ?_, rfl, rfl⟩
  rw [gSix_nodes]
  exact ⟨⟨hh.1, hh.2.1⟩, hh.2.2.1, hh.2.2.2⟩

theorem start_wave (c : Core ℝ) : Standing (withFields c startE (fun _ _ => 0) (fun _ _ => 0)).f 1 0 ∧
    FrameQuiet (withFields c startE (fun _ _ => 0) (fun _ _ => 0)).f ⟨1, 4, 1, 4⟩ := by
  refine ⟨⟨fun i j i0 i1 j0 j1 => ?_, fun i j _ _ _ _ => ?_, fun i j _ _ _ _ => ?_⟩, ⟨fun _ => rfl, fun j => ?_, fun _ => rfl, fun i => ?_⟩⟩
  · show startE i j = _
    rw [startE, if_pos ⟨i0, i1, j0, j1⟩, one_mul]
  · show (0 : ℝ) = _
    ring
  · show (0 : ℝ) = _
    ring
  · show startE (4 + 1) j = 0
    exact if_neg (by omega)
  · show startE i (4 + 1) = 0
    exact if_neg (by omega)

/-- The block and nothing else. -/
theorem fill_sim (m : Material ℝ) : ∃ c0 c1, Core.make gSix = .ok c0 ∧ forList [fill m] c0 (fun o c => c.insertObject o) = .ok c1 ∧ c1.Std ∧ c1.g = gSix ∧ Silent c1 ∧
    c0.insertObject (fill m) = .ok c1 ∧ c0.f.Dims c0.g.Nx c0.g.Ny ∧ c0.g = gSix ∧ c0.debye = [] ∧ c0.drude = [] ∧ c0.lorentz = [] := by
  obtain ⟨c0, h1, h2, h3, h4, h5⟩ := make_empty gSix_wide gSix_lawful (.inl gSix_T)
  obtain ⟨c1, k1, k2, k3, k4⟩ := Core.Std.insertAll [fill m] h2 h4 (fun o ho => by
    rw [List.mem_singleton.mp ho, h3]; exact safe_of_clear gSix_lawful (fill_clear m))
  refine ⟨c0, c1, h1, k1, k2, k3.trans h3, k4, ?_, h2.wf.f, h3, h5.debye, h5.drude, h5.lorentz⟩
  rw [forList_cons] at k1
  obtain ⟨c2, e1, e2⟩ := (Except.bind_ok ..).mp k1
  cases e2
  exact e1

theorem fill_alone (m : Material ℝ) : OneMeaning [fill m] ∧ Uncovered gSix [fill m] := by
  constructor
  · intro o ho o' ho' _ _ _
    rw [List.mem_singleton.mp ho, List.mem_singleton.mp ho']
  · intro o ho _ i j _ o' ho'
    rw [List.mem_singleton.mp ho, List.mem_singleton.mp (top_mem ho').1]

/-- **C72** is false for Drude media of two poles: in a domain of 6 by 6 nodes filled with a medium of two equal poles without damping a standing wave grows
without bound. -/
theorem C72_drude_false : ¬ StaysBounded TwoPoleDrude := by
  intro h
  obtain ⟨c0, c1, h1, h2, h3, h4, h5, h6, h7, h8, n1, n2, n3⟩ := fill_sim ⟨"m", .drude twins⟩
  obtain ⟨a1, a2⟩ := fill_alone ⟨"m", .drude twins⟩
  obtain ⟨B, hB⟩ := h gSix gSix_wide gSix_lawful gSix_T [fill ⟨"m", .drude twins⟩] (fun o ho => by rw [List.mem_singleton.mp ho]; exact fill_sound _)
    (fun o ho => by rw [List.mem_singleton.mp ho]; exact fill_clear _) (fun o ho => by
      rw [List.mem_singleton.mp ho]
      refine ⟨by norm_num [twins], by simp [twins], ?_⟩
      simp [twins]) a1 a2 startE (fun _ _ => 0) (fun _ _ => 0) start_off
  obtain ⟨P, p1, p2, -, p4⟩ := firstDrude h7 (by rw [h8]; exact safe_of_clear gSix_lawful (fill_clear _)) (by rw [h8]; exact covered_of_sound gSix_lawful (fill_sound _))
    rfl n1 n2 n3 h6
  obtain ⟨s1, s2⟩ := start_wave c1
  have node : ∀ i j, 1 ≤ i → i ≤ 4 → 1 ≤ j → j ≤ 4 → InDrude c1 "m" P [] [] i j := fun i j i0 i1 j0 j1 =>
    p4 i j (by omega) (by rw [h8, gSix_Nx]; omega) (by omega) (by rw [h8, gSix_Ny]; omega) (by rw [h8]; exact fill_node _ i0 i1 j0 j1)
  have lo : c1.lorentz = [] := (node 1 1 (by norm_num) (by norm_num) (by norm_num) (by norm_num)).lorentz
  have w : DrudeWave (withFields c1 startE (fun _ _ => 0) (fun _ _ => 0)) (1, 0, 0, 0) := by
    refine ⟨h3.of_same { h3.wf with f := { h3.wf.f with Ez := h3.wf.f.Ez, Hx := h3.wf.f.Hx, Hy := h3.wf.f.Hy } } rfl rfl rfl rfl, h4, h5.tfsf, lo,
      ⟨fun q hq i j N _ _ _ _ _ _ _ => h5.debye q hq i j N, fun q hq i j N _ _ _ _ _ _ _ => h5.drude q hq i j N⟩, s2, s1, "m", P, [], p1,
      fun i j i0 i1 j0 j1 => ⟨?_, by rw [p2]; ring, by rw [p2]; ring⟩⟩
    have F := node i j i0 i1 j0 j1
    exact ⟨F.entry, F.others, F.debye, F.lorentz, ⟨F.medium.Ca, F.medium.Cb, F.medium.Da, F.medium.Db⟩, F.strength⟩
  obtain ⟨n, hn⟩ := drude_unbounded (4 * B)
  obtain ⟨c2, r, w2⟩ := w.run n
  have b := hB n c0 c1 c2 h1 h2 r
  have := standing_size w2.wave
  linarith

/-- **C72** is false for Lorentz media of one pole. -/
theorem C72_lorentz_false : ¬ StaysBounded OnePoleLorentz := by
  intro h
  obtain ⟨c0, c1, h1, h2, h3, h4, h5, h6, h7, h8, n1, n2, n3⟩ := fill_sim ⟨"m", .lorentz stiff⟩
  obtain ⟨a1, a2⟩ := fill_alone ⟨"m", .lorentz stiff⟩
  obtain ⟨B, hB⟩ := h gSix gSix_wide gSix_lawful gSix_T [fill ⟨"m", .lorentz stiff⟩] (fun o ho => by rw [List.mem_singleton.mp ho]; exact fill_sound _)
    (fun o ho => by rw [List.mem_singleton.mp ho]; exact fill_clear _) (fun o ho => by
      rw [List.mem_singleton.mp ho]
      refine ⟨by norm_num [stiff], by simp [stiff], ?_⟩
      simp [stiff]) a1 a2 startE (fun _ _ => 0) (fun _ _ => 0) start_off
  obtain ⟨P, p1, p2, p3, p4, -, p5, p6, -, p7⟩ := firstLorentz h7 (by rw [h8]; exact safe_of_clear gSix_lawful (fill_clear _))
    (by rw [h8]; exact covered_of_sound gSix_lawful (fill_sound _)) rfl n1 n2 n3 h6
  obtain ⟨s1, s2⟩ := start_wave c1
  have node : ∀ i j, 1 ≤ i → i ≤ 4 → 1 ≤ j → j ≤ 4 → InLorentz c1 "m" P i j := fun i j i0 i1 j0 j1 =>
    p7 i j (by omega) (by rw [h8, gSix_Nx]; omega) (by omega) (by rw [h8, gSix_Ny]; omega) (by rw [h8]; exact fill_node _ i0 i1 j0 j1)
  have z := h5.prevE _ p4
  have w : LorentzWave (withFields c1 startE (fun _ _ => 0) (fun _ _ => 0)) (1, 0, 0, 0, 0) := by
    refine ⟨h3.of_same { h3.wf with f := { h3.wf.f with Ez := h3.wf.f.Ez, Hx := h3.wf.f.Hx, Hy := h3.wf.f.Hy } } rfl rfl rfl rfl, h4, h5.tfsf, p5, p6, s2, s1,
      "m", P, _, p1, p4, fun x y _ => z x y, fun _ _ _ _ _ _ _ _ _ _ => ⟨p2 _ _ _, p3 _ _ _⟩,
      fun i j i0 i1 j0 j1 => ⟨?_, by rw [z i j]; ring, by rw [p2]; ring, by rw [p3]; ring⟩⟩
    have F := node i j i0 i1 j0 j1
    exact ⟨F.entry, F.debye, F.drude, ⟨F.medium.Ca, F.medium.Cb, F.medium.Da, F.medium.Db⟩, F.strength⟩
  obtain ⟨n, hn⟩ := lorentz_unbounded (4 * B)
  obtain ⟨c2, r, w2⟩ := w.run n
  have b := hB n c0 c1 c2 h1 h2 r
  have := standing_size w2.wave
  linarith

end Qbox.Props
