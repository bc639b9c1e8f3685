import Verif.Lemmas.DivergeThree

/-! # A Debye medium of three poles beside a dielectric amplifies (C72) -/

namespace Qbox.Props
open Qbox Scalar Spec

/-- Physical dielectrics, and Debye media of three poles. -/
def UpToThreePoles : MatKind ℝ → Prop
  | .simple m => 1 ≤ m.eps ∧ m.mu = 1 ∧ m.conduc = 0
  | .debye m => 1 ≤ m.epsInf ∧ m.poles.length = 3 ∧ ∀ p ∈ m.poles, 0 < p.tau ∧ 0 < p.dEps
  | _ => False

/-- A block that holds one node. -/
noncomputable def cell (x : ℝ) (m : Material ℝ) : Object ℝ := ⟨"cell", .block ⟨1, 1⟩, m, ⟨x, 1⟩, 0⟩

theorem cell_inside (x : ℝ) (m : Material ℝ) (p : V2 ℝ) : (cell x m).inside p = true ↔ |p.x - x| ≤ 1 / 2 ∧ |p.y - 1| ≤ 1 / 2 := by
  rw [inside_pullback]
  simp only [cell, Geometry.block, V2.cabs, ltb_real, Real.cos_zero, Real.sin_zero]
  norm_num

theorem cell_sound (x : ℝ) (m : Material ℝ) : BoxSound (cell x m) := boxSound_lib _ (.block _)

theorem cell_clear {x : ℝ} (hx : x ≤ 2) (m : Material ℝ) : ClearOfUnguardedEdges gTwo (cell x m) := by
  intro p h
  rw [cell_inside, abs_le, abs_le] at h
  have : gTwo.Lx = 3 := by simp [gTwo, Grid.make]
  rw [this]
  constructor <;> linarith [h.1.1, h.1.2, h.2.1, h.2.2]

theorem gTwo_toReal (i j : ℤ) : gTwo.toReal ⟨i, j⟩ = ⟨(i : ℝ), (j : ℝ)⟩ := by simp [Grid.toReal, gTwo_dx]

/-- The dielectric at the node (1, 1). -/
noncomputable def glassCell : Object ℝ := cell 1 ⟨"g", .simple heavyGlass⟩
/-- The dispersive medium at the node (2, 1). -/
noncomputable def trioCell : Object ℝ := cell 2 ⟨"m", .debye trio⟩

/-- The field at the start. -/
noncomputable def startOne (i j : ℤ) : ℝ := if i = 1 ∧ j = 1 then 1 else 0

theorem startOne_off (i j : ℤ) (h : ¬ (updatedNodes gTwo).Mem i j) : startOne i j = 0 ∧ (0 : ℝ) = 0 ∧ (0 : ℝ) = 0 := by
  refine ⟨if_neg fun hh => h ?_, rfl, rfl⟩
  rw [gTwo_nodes, hh.1, hh.2]
  exact ⟨⟨by norm_num, by norm_num⟩, by norm_num, by norm_num⟩

theorem cells_fit : OneMeaning [glassCell, trioCell] ∧ Uncovered gTwo [glassCell, trioCell] := by
  constructor
  · intro o ho o' ho' d d' _
    simp only [List.mem_cons, List.not_mem_nil, or_false] at ho ho'
    rcases ho with rfl | rfl
    · exact absurd d (by simp [glassCell, cell, MatKind.Delayed])
    · rcases ho' with rfl | rfl
      · exact absurd d' (by simp [glassCell, cell, MatKind.Delayed])
      · rfl
  · intro o ho d i j hi o' ho'
    obtain ⟨m1, m2⟩ := top_mem ho'
    simp only [List.mem_cons, List.not_mem_nil, or_false] at ho m1
    rcases ho with rfl | rfl
    · exact absurd d (by simp [glassCell, cell, MatKind.Delayed])
    · rcases m1 with rfl | rfl
      · rw [glassCell, cell_inside, abs_le, abs_le, gTwo_toReal] at m2
        rw [trioCell, cell_inside, abs_le, abs_le, gTwo_toReal] at hi
        exfalso
        have a1 : (i : ℝ) < 2 := by linarith [m2.1.2]
        have a2 : (1 : ℝ) < i := by linarith [hi.1.1]
        have b1 : i < 2 := by exact_mod_cast a1
        have b2 : 1 < i := by exact_mod_cast a2
        omega
      · rfl

/-- **C72** is false for Debye media of three poles: two nodes, one of a dielectric and one of a medium of three equal poles, exchange a field that grows
without bound. With at most two poles there is no such arrangement (`C72_bounded_partial`). -/
theorem C72_three_false : ¬ StaysBounded UpToThreePoles := by
  intro h
  obtain ⟨c0, h1, h2, h3, h4, h5⟩ := make_empty gTwo_wide gTwo_lawful (.inl gTwo_T)
  have sg : glassCell.Safe c0.g := by rw [h3]; exact safe_of_clear gTwo_lawful (cell_clear (by norm_num) _)
  have st : trioCell.Safe c0.g := by rw [h3]; exact safe_of_clear gTwo_lawful (cell_clear (by norm_num) _)
  obtain ⟨c1, i1, s1, g1⟩ := h2.insertObject sg
  have z1 := h4.insertObject h2.wf.f sg i1
  rw [← g1] at st
  obtain ⟨c2, i2, s2, g2⟩ := s1.insertObject st
  have z2 := z1.insertObject s1.wf.f st i2
  have gg : c2.g = gTwo := by rw [g2, g1, h3]
  have hins : forList [glassCell, trioCell] c0 (fun o c => c.insertObject o) = .ok c2 := by
    rw [forList_cons, i1, Except.ok_bind, forList_cons, i2, Except.ok_bind]
    rfl
  obtain ⟨a1, a2⟩ := cells_fit
  obtain ⟨B, hB⟩ := h gTwo gTwo_wide gTwo_lawful gTwo_T [glassCell, trioCell] (by
      simp only [List.forall_mem_cons]; exact ⟨cell_sound _ _, cell_sound _ _, by simp⟩) (by
      simp only [List.forall_mem_cons]; exact ⟨cell_clear (by norm_num) _, cell_clear (by norm_num) _, by simp⟩) (by
      simp only [List.forall_mem_cons]
      refine ⟨⟨by norm_num [heavyGlass], rfl, rfl⟩, ⟨by norm_num [trio], trio_poles, ?_⟩, by simp⟩
      simp [trio]) a1 a2 startOne (fun _ _ => 0) (fun _ _ => 0) startOne_off
  -- the glass
  have e0 : c1.debye = [] ∧ c1.drude = [] ∧ c1.lorentz = [] := by
    have := i1
    unfold Core.insertObject at this
    simp only [Except.bind_ok] at this
    obtain ⟨f, -, this⟩ := this
    cases this
    exact ⟨h5.debye, h5.drude, h5.lorentz⟩
  have gl : InSimple c1 heavyGlass 1 1 := by
    refine ⟨by rw [e0.1]; simp, by rw [e0.2.1]; simp, by rw [e0.2.2]; simp, ?_⟩
    obtain ⟨e1, e2⟩ := insertObject_f h2.wf.f sg i1
    have ins : glassCell.inside (c0.g.toReal ⟨1, 1⟩) = true := by
      rw [h3, gTwo_toReal, glassCell, cell_inside]; norm_num
    have cov : glassCell.Covered c0.g := by rw [h3]; exact covered_of_sound gTwo_lawful (cell_sound _ _)
    rw [e1, e2]
    exact Flds.paint_hit (f := c0.f) (k := glassCell.mat.kind) (dt := c0.g.dt) (D := scan c0.g glassCell) (q := fun x y => glassCell.inside (c0.g.toReal ⟨x, y⟩))
      (cov 1 1 (by norm_num) (by rw [h3, gTwo_Nx]; norm_num) (by norm_num) (by rw [h3, gTwo_Ny]; norm_num) ins) ins
  have out : trioCell.inside (c1.g.toReal ⟨1, 1⟩) = false := by
    rw [← Bool.not_eq_true, g1, h3, gTwo_toReal, trioCell, cell_inside]
    norm_num
  have gl2 := gl.insertObject s1.wf st out i2
  -- the medium with memory
  obtain ⟨P, p1, p2, -, p4⟩ := firstDebye s1.wf.f st (by rw [g1, h3]; exact covered_of_sound gTwo_lawful (cell_sound _ _)) rfl e0.1 e0.2.1 e0.2.2 i2
  have F := p4 2 1 (by norm_num) (by rw [g1, h3, gTwo_Nx]; norm_num) (by norm_num) (by rw [g1, h3, gTwo_Ny]; norm_num) (by
    rw [g1, h3, gTwo_toReal, trioCell, cell_inside]; norm_num)
  have w : ThreeWave (withFields c2 startOne (fun _ _ => 0) (fun _ _ => 0)) (1, 0, 0, 0, 0, 0, 0) := by
    refine ⟨s2.of_same { s2.wf with f := { s2.wf.f with Ez := s2.wf.f.Ez, Hx := s2.wf.f.Hx, Hy := s2.wf.f.Hy } } rfl rfl rfl rfl, gg, z2.tfsf, F.lorentz,
      ⟨fun q hq i j N _ _ _ _ _ _ _ => z2.debye q hq i j N, fun q hq i j N _ _ _ _ _ _ _ => z2.drude q hq i j N⟩, ⟨fun _ => rfl, fun j => ?_, fun _ => rfl, fun i => ?_⟩,
      ?_, ?_, ?_, ?_, ⟨gl2.debye, gl2.drude, gl2.lorentz, ⟨gl2.medium.Ca, gl2.medium.Cb, gl2.medium.Da, gl2.medium.Db⟩⟩, "m", P, [], p1,
      ⟨F.entry, F.others, F.drude, F.lorentz, ⟨F.medium.Ca, F.medium.Cb, F.medium.Da, F.medium.Db⟩, F.strength⟩, p2 _ _ _, p2 _ _ _, p2 _ _ _⟩
    · show startOne (2 + 1) j = 0
      exact if_neg (by omega)
    · show startOne i (1 + 1) = 0
      exact if_neg (by omega)
    · show startOne 1 1 = 1
      exact if_pos ⟨rfl, rfl⟩
    · show startOne 2 1 = 0
      exact if_neg (by omega)
    · simp [curlH, withFields]
    · simp [curlH, withFields]
  obtain ⟨n, hn⟩ := three_unbounded (6 * B)
  obtain ⟨c3, r, w2⟩ := w.run n
  have b := hB n c0 c2 c3 h1 hins r
  have := w2.size
  linarith

end Qbox.Props
