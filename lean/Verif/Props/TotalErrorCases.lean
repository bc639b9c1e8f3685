import Verif.Props.TotalErrorProps
import Verif.Props.ConvergeCases
import Verif.Props.RoundedExample

/-! # Non-trivial cases of C75: the standing wave of `ConvergeCases` in double precision -/

namespace Qbox.Props
open Qbox Scalar Spec

theorem gDbl_L : (exactGrid gDbl).Lx = 19 ∧ (exactGrid gDbl).Ly = 19 ∧ (exactGrid gDbl).dx = 1 := by
  obtain ⟨n1, n2, n3⟩ := gDbl_N
  refine ⟨?_, ?_, gDbl_dx⟩
  · show gDbl.dx.val * ((gDbl.Nx - 1 : ℤ) : ℝ) = 19
    rw [gDbl_dx, n1]; norm_num
  · show gDbl.dx.val * ((gDbl.Ny - 1 : ℤ) : ℝ) = 19
    rw [gDbl_dx, n2]; norm_num

theorem mode_walls_double (τ : ℝ) : mode.Walls (exactGrid gDbl) τ := by
  obtain ⟨l1, l2, d⟩ := gDbl_L
  have e : modeK * (19 - 1 / 2) = Real.pi / 2 := by unfold modeK; ring
  refine ⟨fun t y _ _ _ _ => ?_, fun t x _ _ _ _ => ?_, fun t y _ _ _ _ => ?_, fun t x _ _ _ _ => ?_⟩
  · simp [mode, d]
  · simp [mode, d]
  · rw [l1]; simp only [mode]; rw [e, Real.cos_pi_div_two]; ring
  · rw [l2]; simp only [mode]; rw [e, Real.cos_pi_div_two]; ring

theorem vacuum_double : RoundPassive gDbl.dx.val 16 (vacuum : Simple (Rnd dbl)) := by
  have tiny : dbl.tiny ≤ dbl.u * (1 / 8) := by
    show ((2 : ℝ) ^ (-1075 : ℤ)) ≤ 2 ^ (-53 : ℤ) * (1 / 8)
    rw [show (1 / 8 : ℝ) = 2 ^ (-3 : ℤ) by norm_num, ← zpow_add₀ (by norm_num)]
    exact zpow_le_zpow_right₀ (by norm_num) (by norm_num)
  have h1 : (vacuum : Simple (Rnd dbl)).eps.val = 1 := rfl
  have h2 : (vacuum : Simple (Rnd dbl)).conduc.val = 0 := rfl
  refine ⟨by rw [h1], by rw [h1]; norm_num, by rw [h2], ?_⟩
  rw [gDbl_dx]
  refine tiny.trans (mul_le_mul_of_nonneg_left ?_ dbl.u_nonneg)
  unfold Simple.Cb exactMed
  simp only [ofInt_real, Int.cast_ofNat, h2, h1]
  norm_num

open Classical in
/-- A double at the node when the node is updated, 0 otherwise. -/
noncomputable def startAt (f : ℤ → ℤ → ℝ) (i j : ℤ) : Rnd dbl := if (updatedNodes (exactGrid gDbl)).Mem i j then ⟨toDouble (f i j), toDouble_idem _⟩ else 0

/-- **The hypotheses of C75 are met**: an empty domain of 20 by 20 nodes in double precision, the standing wave at the start rounded to doubles, a million updates.
The part of the grid in the bound is large here because the grid is coarse; the part of the rounding is below 1/1000. -/
example : ∃ c0 c1 c2, Core.make gDbl = .ok c0 ∧ forList [] c0 (fun o c => c.insertObject o) = .ok c1 ∧
    (setFields c1 (startAt (mode.nodeE (exactGrid gDbl) 0)) (startAt (mode.nodeX (exactGrid gDbl) 0)) (startAt (mode.nodeY (exactGrid gDbl) 0))).run (10 ^ 6) [] =
      .ok (c2, []) ∧
    Real.sqrt (totalGap mode (exactGrid gDbl) (10 ^ 6) c2.f (updatedNodes (exactGrid gDbl))) ≤
      ((10 ^ 6 : ℕ) : ℝ) * gDbl.dt.val * cellError (fun _ _ => True) (exactGrid gDbl) 1 16 0 +
      (((10 ^ 6 : ℕ) : ℝ) + 1) * (3 / 10 ^ 12 * Real.sqrt (waveSize mode (exactGrid gDbl) (updatedNodes (exactGrid gDbl))) + 30 * roundFloor gDbl) := by
  obtain ⟨n1, n2, n3⟩ := gDbl_N
  refine C75_double Real.sin Real.cos Real.exp (fun x n => x ^ n) Real.pi (10 ^ 6) (by norm_num) gDbl ⟨by omega, by omega⟩ n3 (by rw [gDbl_dx]; norm_num) gDbl_dt
    [] [] .nil (by simp) (by simp) (by simp) (by simp) 0 vacuum_double (by simp) le_rfl (by simp) (fun _ _ => 1) (fun _ _ => 0) ⟨?_, fun _ _ => ⟨rfl, rfl⟩⟩
    mode (fun _ _ => True) 1000000 1 (mode_smooth _ _) (mode_steady _ _) (mode_maxwell _ _) (mode_walls_double _) ?_ _ _ _ ?_ ?_
  · rintro p o m ⟨b, a, e, -⟩
    simp at e
  · rw [gDbl_dt, gDbl_dx]; norm_num
  · intro i j hm
    unfold startAt
    rw [if_pos hm, if_pos hm, if_pos hm]
    exact ⟨rfl, rfl, rfl⟩
  · intro i j hm
    unfold startAt
    rw [if_neg hm, if_neg hm, if_neg hm]
    exact ⟨rfl, rfl, rfl⟩

end Qbox.Props
