import Verif.Props.ResonanceProps
import Verif.Props.DivergeThreeProps

/-! # Non-trivial cases of C86: a domain of 20 by 20 nodes filled with glass -/

namespace Qbox.Props
open Qbox Scalar Spec

/-- A block of glass of permittivity 4 on all updated nodes. -/
noncomputable def slab : Object ℝ := ⟨"slab", .block ⟨18, 18⟩, ⟨"glass", .simple ⟨4, 1, 0⟩⟩, ⟨19 / 2, 19 / 2⟩, 0⟩

theorem slab_inside (p : V2 ℝ) : slab.inside p = true ↔ |p.x - 19 / 2| ≤ 9 ∧ |p.y - 19 / 2| ≤ 9 := by
  rw [inside_pullback]
  simp only [slab, Geometry.block, V2.cabs, ltb_real, Real.cos_zero, Real.sin_zero]
  norm_num

theorem gOpen_nodes : rowNodes gOpen = 18 ∧ colNodes gOpen = 18 := by
  unfold rowNodes colNodes
  rw [gOpen_Nx, gOpen_Ny]
  exact ⟨rfl, rfl⟩

/-- **The hypotheses of C86 are met**: glass on all nodes, all 18 times 18 standing waves. -/
example : ∃ med, gOpen.Wide ∧ Lawful gOpen ∧ gOpen.T = 0 ∧ (∀ o ∈ [slab], BoxSound o) ∧ (∀ o ∈ [slab], ClearOfUnguardedEdges gOpen o) ∧
    (∀ o ∈ [slab], PassiveObject o) ∧ FilledBy gOpen [slab] med ∧ (∀ i j, (updatedNodes gOpen).Mem i j → (med i j).eps = 4 ∧ (med i j).conduc = 0) ∧
    rowNodes gOpen = 18 ∧ colNodes gOpen = 18 := by
  have hp : ∀ o ∈ [slab], PassiveObject o := by
    intro o ho
    rw [List.mem_singleton.mp ho]
    exact ⟨⟨4, 1, 0⟩, rfl, by norm_num, le_rfl⟩
  obtain ⟨med, hm⟩ := filled_exists gOpen _ hp
  refine ⟨med, ⟨by rw [gOpen_T, gOpen_Nx]; norm_num, by rw [gOpen_T, gOpen_Ny]; norm_num⟩, gOpen_lawful, gOpen_T, ?_, ?_, hp, hm, ?_, gOpen_nodes⟩
  · intro o ho
    rw [List.mem_singleton.mp ho]
    exact boxSound_lib _ (.block _)
  · intro o ho p hin
    rw [List.mem_singleton.mp ho, slab_inside, abs_le, abs_le] at hin
    have : gOpen.Lx = 19 := by simp [gOpen, Grid.make]
    rw [this]
    constructor <;> linarith [hin.1.1, hin.1.2, hin.2.1, hin.2.2]
  · intro i j h
    unfold Box.Mem updatedNodes at h
    rw [gOpen_Nx, gOpen_Ny] at h
    simp only at h
    have i0 : (1 : ℝ) ≤ i := by exact_mod_cast h.1.1
    have i1 : (i : ℝ) ≤ 18 := by exact_mod_cast h.1.2
    have j0 : (1 : ℝ) ≤ j := by exact_mod_cast h.2.1
    have j1 : (j : ℝ) ≤ 18 := by exact_mod_cast h.2.2
    have dx : gOpen.dx = 1 := by simp [gOpen, Grid.make]
    have top : TopAt [slab] (gOpen.toReal ⟨i, j⟩) slab := by
      refine ⟨[], [], rfl, ?_, by simp⟩
      rw [slab_inside, abs_le, abs_le]
      simp only [Grid.toReal, dx, ofInt_real, one_mul]
      refine ⟨⟨?_, ?_⟩, ?_, ?_⟩ <;> linarith
    have := hm.object i j slab top
    simp only [slab, MatKind.simple.injEq] at this
    rw [← this]
    exact ⟨rfl, rfl⟩

/-- The true frequency of the fundamental of that domain is `π √2 / 74`, the one on the grid is below it by less than one part in 1000. -/
example : trueTone gOpen 4 0 0 = Real.pi * Real.sqrt 2 / 74 ∧ gridTone gOpen 4 0 0 ≤ Real.pi * Real.sqrt 2 / 74 ∧
    Real.pi * Real.sqrt 2 / 74 * (1 - 1 / 1000) ≤ gridTone gOpen 4 0 0 := by
  have dx : gOpen.dx = 1 := by simp [gOpen, Grid.make]
  have lx : gOpen.Lx = 19 := by simp [gOpen, Grid.make]
  have ly : gOpen.Ly = 19 := by simp [gOpen, Grid.make]
  have hpi := Real.pi_pos
  have b1 : boxX gOpen 0 = Real.pi / 37 := by unfold boxX waveNumber; rw [dx, lx]; norm_num; ring
  have b2 : boxY gOpen 0 = Real.pi / 37 := by unfold boxY waveNumber; rw [dx, ly]; norm_num; ring
  have s4 : Real.sqrt 4 = 2 := by rw [show (4 : ℝ) = 2 ^ 2 by norm_num, Real.sqrt_sq (by norm_num)]
  have e : trueTone gOpen 4 0 0 = Real.pi * Real.sqrt 2 / 74 := by
    unfold trueTone
    rw [b1, b2, s4, show (Real.pi / 37) ^ 2 + (Real.pi / 37) ^ 2 = (Real.pi / 37) ^ 2 * 2 by ring, Real.sqrt_mul (sq_nonneg _), Real.sqrt_sq (by positivity)]
    ring
  obtain ⟨h1, h2⟩ := C86_frequency gOpen ⟨by rw [gOpen_T, gOpen_Nx]; norm_num, by rw [gOpen_T, gOpen_Ny]; norm_num⟩ gOpen_lawful gOpen_T 4 (by norm_num) 0 0
    (by rw [gOpen_nodes.1]; norm_num) (by rw [gOpen_nodes.2]; norm_num)
  rw [e] at h1 h2
  refine ⟨e, h1, le_trans ?_ h2⟩
  refine mul_le_mul_of_nonneg_left ?_ (by positivity)
  rw [b1, b2, dx]
  have : Real.pi ≤ 4 := Real.pi_le_four
  nlinarith

end Qbox.Props
