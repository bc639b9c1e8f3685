import Verif.Props.RoundedSignalProps
import Verif.Props.RoundedExample

/-! # A program that meets the hypotheses of C74 with sources: the glass cylinder and a point source of frequency 1/8 next to it -/

namespace Qbox.Props
open Qbox Scalar Spec

/-- The frequency 1/8. -/
noncomputable def eighth : Rnd dbl := ⟨1 / 8, by
  have := toDouble_dyadic (n := 1) (e := -3) (by norm_num) (by norm_num)
  have e : ((1 : ℤ) : ℝ) * 2 ^ (-3 : ℤ) = 1 / 8 := by norm_num
  rwa [e] at this⟩

/-- The point source with rounding. -/
noncomputable def srcDbl : Source (Rnd dbl) := ⟨"s", .point .Ez ⟨whole 5 (by norm_num), whole 4 (by norm_num)⟩, TimeProfile.continuous eighth⟩
/-- The point source without rounding. -/
noncomputable def srcReal : Source ℝ := ⟨"s", .point .Ez ⟨5, 4⟩, TimeProfile.continuous (1 / 8)⟩

theorem srcDbl_node : gDbl.toGrid ⟨whole 5 (by norm_num), whole 4 (by norm_num)⟩ = ⟨5, 4⟩ := by
  show (⟨roundAway (dbl.r (((5 : ℤ) : ℝ) / gDbl.dx.val)), roundAway (dbl.r (((4 : ℤ) : ℝ) / gDbl.dx.val))⟩ : V2 ℤ) = _
  rw [gDbl_dx, div_one, div_one, show dbl.r ((5 : ℤ) : ℝ) = ((5 : ℤ) : ℝ) from toDouble_int (by norm_num),
    show dbl.r ((4 : ℤ) : ℝ) = ((4 : ℤ) : ℝ) from toDouble_int (by norm_num), roundAway_int, roundAway_int]

theorem srcReal_node : (exactGrid gDbl).toGrid ⟨5, 4⟩ = ⟨5, 4⟩ := by
  show (⟨roundAway (5 / (exactGrid gDbl).dx), roundAway (4 / (exactGrid gDbl).dx)⟩ : V2 ℤ) = _
  rw [show (exactGrid gDbl).dx = 1 from gDbl_dx, show (5 : ℝ) / 1 = ((5 : ℤ) : ℝ) by norm_num, show (4 : ℝ) / 1 = ((4 : ℤ) : ℝ) by norm_num, roundAway_int, roundAway_int]

/-- **The hypotheses of C74 with sources are met**: a million updates. -/
example (e x y : ℤ → ℤ → Rnd dbl) (out : ∀ i j, ¬ (updatedNodes (exactGrid gDbl)).Mem i j → (e i j).val = 0 ∧ (x i j).val = 0 ∧ (y i j).val = 0) :
    ∃ c0 c1 c2 r0 r1 r2 l l', Core.make gDbl = .ok c0 ∧ forList [rodDbl] c0 (fun o c => c.insertObject o) = .ok c1 ∧ (setFields c1 e x y).run (10 ^ 6) [srcDbl] = .ok (c2, l) ∧
      Core.make (exactGrid gDbl) = .ok r0 ∧ forList [rodReal] r0 (fun o c => c.insertObject o) = .ok r1 ∧
      (setFields r1 (fun i j => (e i j).val) (fun i j => (x i j).val) (fun i j => (y i j).val)).run (10 ^ 6) [srcReal] = .ok (r2, l') ∧
      Real.sqrt (roundGap gDbl.dx.val c2.f r2.f (updatedNodes (exactGrid gDbl))) ≤ 2 * Real.sqrt (16 + 1) * ((1 + ([srcDbl].length : ℕ)) * dbl.u) *
          (2 * roundGrowth 16 * (10 ^ 6 : ℕ) * (Real.sqrt (roundSize gDbl.dx.val (setFields c1 e x y).f (updatedNodes (exactGrid gDbl))) +
            2 * rootArea gDbl * ((10 ^ 6 : ℕ) * ([srcDbl].length : ℕ))) + 117 * rootArea gDbl * ((10 ^ 6 : ℕ) * ([srcDbl].length : ℕ))) +
        6 * Real.sqrt (16 + 1) * ((10 ^ 6 : ℕ) * ((1 + ([srcDbl].length : ℕ)) * roundFloor gDbl) +
          6 * rootArea gDbl * ((10 ^ 6 : ℕ) * (([srcDbl].length : ℕ) * toneError dbl 0 (1 / 8) ((10 ^ 6 : ℕ) * (gDbl.dx.val / 2)) (10 ^ 6)))) := by
  obtain ⟨n1, n2, n3⟩ := gDbl_N
  have hu : dbl.u = 2 ^ (-53 : ℤ) := rfl
  have hu' : (2 : ℝ) ^ (-53 : ℤ) = 1 / 9007199254740992 := by norm_num
  have s17 : Real.sqrt (16 + 1) ≤ 5 := by
    rw [Real.sqrt_le_left (by norm_num)]; norm_num
  refine C74_tone_partial (10 ^ 6) gDbl ⟨by omega, by omega⟩ n3 (by rw [gDbl_dx]; norm_num) gDbl_dt
    [rodDbl] [rodReal] (.cons rod_same .nil) (mem_one rodDbl_safe) (mem_one rodReal_safe) (mem_one rodDbl_covered) (mem_one rodReal_covered) 16
    (dbl_passive (.inr rfl) rfl) (mem_one rodDbl_passive) e x y out [srcDbl] [srcReal] (.cons ?_ .nil) (mem_one ?_) (mem_one ?_) (mem_one ?_) rfl 0 (1 / 8)
    (fun x => by rw [show dbl.sin x = Real.sin x from rfl, sub_self, abs_zero]) (.cons ⟨eighth, ?_, rfl, rfl⟩ .nil) ?_ ?_
  · intro C i j
    unfold Drives srcDbl srcReal
    simp only
    rw [srcDbl_node, srcReal_node]
  · unfold Fits srcDbl
    simp only
    rw [srcDbl_node]
    exact ⟨by simp [Fields.IsComp], by unfold InGrid; simp only; omega⟩
  · unfold Fits srcReal
    simp only
    rw [srcReal_node]
    refine ⟨by simp [Fields.IsComp], ?_⟩
    show 0 ≤ (5 : ℤ) ∧ 5 < gDbl.Nx ∧ 0 ≤ (4 : ℤ) ∧ 4 < gDbl.Ny
    omega
  · intro C i j h
    unfold Drives srcReal at h
    simp only at h
    rw [srcReal_node] at h
    obtain ⟨-, h⟩ := h
    cases h
    unfold Box.Mem updatedNodes exactGrid
    simp only
    omega
  · show |(1 / 8 : ℝ)| ≤ 1 / 8
    rw [abs_of_pos (by norm_num)]
  · rw [hu, hu']; norm_num
  · rw [hu, hu']
    unfold roundGrowth
    norm_num at s17 ⊢
    linarith

end Qbox.Props
