import Verif.Props.TotalDrivenProps
import Verif.Props.DrivenWaveCases
import Verif.Props.TotalErrorCases

/-! # A program that meets the hypotheses of C75 with sources: a current in vacuum in double precision -/

namespace Qbox.Props
open Qbox Scalar Spec

/-- The current that radiates the field `lamp` in vacuum. -/
noncomputable def lampV (t x y : ℝ) : ℝ :=
  - (Real.cos (modeK * (x - 1 / 2)) * Real.cos (modeK * (y - 1 / 2))) * (modeK ^ 2 / 4 * (1 - Real.cos t) + 1 / 8 * Real.cos t)

theorem lampV_driven (g : Grid ℝ) (τ : ℝ) : lamp.Driven (fun _ _ => True) (fun _ _ => 1) (fun _ _ => 0) lampV g τ := by
  refine ⟨fun t x y _ _ _ _ => ?_, (lamp_driven g τ).faradayX, (lamp_driven g τ).faradayY⟩
  simp only [lamp, lampV, one_mul, sub_zero]; ring

theorem lampV_at_most (g : Grid ℝ) (τ : ℝ) : CurrentAtMost lampV g τ 1 := by
  intro t x y _ _ _
  unfold lampV
  refine prod_le_one (by rw [abs_neg]; exact prod_le_one (Real.abs_cos_le_one _) (Real.abs_cos_le_one _)) ?_
  have k0 : 0 ≤ modeK ^ 2 := sq_nonneg _
  have k1 : modeK ^ 2 ≤ 1 / 25 := by nlinarith [modeK_pos, modeK_le]
  have c1 := Real.neg_one_le_cos t
  have c2 := Real.cos_le_one t
  have p : 0 ≤ modeK ^ 2 * (1 - Real.cos t) := mul_nonneg k0 (by linarith)
  have q : modeK ^ 2 * (1 - Real.cos t) ≤ 1 / 25 * 2 := mul_le_mul k1 (by linarith) (by linarith) (by norm_num)
  rw [abs_le]; constructor <;> linarith

theorem lamp_walls_double (τ : ℝ) : lamp.Walls (exactGrid gDbl) τ := by
  obtain ⟨l1, l2, d⟩ := gDbl_L
  have e : modeK * (19 - 1 / 2) = Real.pi / 2 := by unfold modeK; ring
  refine ⟨fun t y _ _ _ _ => ?_, fun t x _ _ _ _ => ?_, fun t y _ _ _ _ => ?_, fun t x _ _ _ _ => ?_⟩
  · simp [lamp, d]
  · simp [lamp, d]
  · rw [l1]; simp only [lamp]; rw [e, Real.cos_pi_div_two]; ring
  · rw [l2]; simp only [lamp]; rw [e, Real.cos_pi_div_two]; ring

/-- The sources in exact arithmetic, and the same with positions and signals rounded to doubles. -/
noncomputable def lampSrcs : List (Source ℝ) := radiators (exactGrid gDbl) (fun _ _ => 1) (fun _ _ => 0) lampV (- ((exactGrid gDbl).dt / 2))
noncomputable def lampDbl : List (Source (Rnd dbl)) := (innerNodes (exactGrid gDbl)).map fun p =>
  ⟨"current", .point .Ez ⟨dbl.fl p.x, dbl.fl p.y⟩, ⟨fun t => dbl.fl (- (1 / 2) * lampV (t.val - 1 / 4) p.x p.y), none, []⟩⟩

theorem lampDbl_node {p : V2 ℤ} (hp : p ∈ innerNodes (exactGrid gDbl)) : gDbl.toGrid ⟨dbl.fl p.x, dbl.fl p.y⟩ = p := by
  rw [mem_innerNodes] at hp
  obtain ⟨n1, n2, n3⟩ := gDbl_N
  have m1 : (exactGrid gDbl).Nx = 20 := n1
  have m2 : (exactGrid gDbl).Ny = 20 := n2
  rw [m1, m2] at hp
  show (⟨roundAway (dbl.r (dbl.r (p.x : ℝ) / gDbl.dx.val)), roundAway (dbl.r (dbl.r (p.y : ℝ) / gDbl.dx.val))⟩ : V2 ℤ) = p
  have i : ∀ k : ℤ, 1 ≤ k → k ≤ 18 → dbl.r (k : ℝ) = k := fun k k0 k1 => toDouble_int (by rw [abs_lt]; constructor <;> norm_num <;> linarith)
  rw [gDbl_dx, div_one, div_one, i p.x (by omega) (by omega), i p.y (by omega) (by omega), i p.x (by omega) (by omega), i p.y (by omega) (by omega), roundAway_int,
    roundAway_int]

/-- **The hypotheses of C75 with sources are met**: 324 point sources in an empty domain of 20 by 20 nodes, no field at the start, a million updates. -/
example : ∃ c0 c1 c2 l, Core.make gDbl = .ok c0 ∧ forList [] c0 (fun o c => c.insertObject o) = .ok c1 ∧
    (setFields c1 (fun _ _ => 0) (fun _ _ => 0) (fun _ _ => 0)).run (10 ^ 6) lampDbl = .ok (c2, l) ∧
    Real.sqrt (totalGap lamp (exactGrid gDbl) (10 ^ 6) c2.f (updatedNodes (exactGrid gDbl))) ≤
        2 * Real.sqrt (16 + 1) * Real.sqrt (totalGap lamp (exactGrid gDbl) 0 (setFields c1 (fun _ _ => 0) (fun _ _ => 0) (fun _ _ => 0)).f (updatedNodes (exactGrid gDbl))) +
        2 * Real.sqrt (16 + 1) *
          (((1 + roundGrowth 16 * ((1 + lampDbl.length) * dbl.u)) ^ (10 ^ 6) - 1) *
            (Real.sqrt (roundSize gDbl.dx.val (setFields c1 (fun _ _ => 0) (fun _ _ => 0) (fun _ _ => 0)).f (updatedNodes (exactGrid gDbl))) +
              2 * rootArea gDbl * emittedBy lampSrcs 0 (gDbl.dx.val / 2) (10 ^ 6)) +
            (1 + roundGrowth 16 * ((1 + lampDbl.length) * dbl.u)) ^ (10 ^ 6) * ((10 ^ 6 : ℕ) * ((1 + lampDbl.length) * roundFloor gDbl) +
              3 * rootArea gDbl * (13 * ((1 + lampDbl.length) * dbl.u) * emittedBy lampSrcs 0 (gDbl.dx.val / 2) (10 ^ 6) +
                2 * misheard lampDbl lampSrcs gDbl.dt (gDbl.dx.val / 2) 0 0 (10 ^ 6)))) +
        (10 ^ 6 : ℕ) * gDbl.dt.val * drivenError (fun _ _ => True) (exactGrid gDbl) 1 16 0 0 := by
  obtain ⟨n1, n2, n3⟩ := gDbl_N
  have hx : 0 < gDbl.dx.val := by rw [gDbl_dx]; norm_num
  have hl := exact_lawful hx
  refine C75_driven_partial (10 ^ 6) gDbl ⟨by omega, by omega⟩ n3 hx gDbl_dt [] [] .nil (by simp) (by simp) (by simp) (by simp) 16 0 vacuum_double (by simp) le_rfl
    (by simp) (fun _ _ => 1) (fun _ _ => 0) ⟨?_, fun _ _ => ⟨rfl, rfl⟩⟩ lamp (fun _ _ => True) lampV 1000000 1 0 (lamp_smooth _ _) (lamp_steady _ _) (lampV_driven _ _)
    (lampV_at_most _ _) (lamp_walls_double _) ?_ _ _ _ (fun _ _ _ => ⟨rfl, rfl, rfl⟩) lampDbl lampSrcs ?_ ?_ ?_ (radiators_fit hl (fun _ _ => 1) (fun _ _ => 0) lampV _)
    le_rfl ?_
  · rintro p o m ⟨b, a, e, -⟩
    simp at e
  · rw [gDbl_dt, gDbl_dx]; norm_num
  · unfold lampDbl lampSrcs radiators
    rw [List.forall₂_map_left_iff, List.forall₂_map_right_iff, List.forall₂_same]
    intro p hp C i j
    rw [currents_drives hl]
    unfold Drives
    simp only
    rw [lampDbl_node hp]
  · have : lampDbl.length = 324 := by
      unfold lampDbl innerNodes
      rw [show (exactGrid gDbl).Nx = 20 from n1, show (exactGrid gDbl).Ny = 20 from n2]
      simp
    rw [this, show dbl.u = 2 ^ (-53 : ℤ) from rfl]
    norm_num
  · intro s hs
    obtain ⟨p, hp, rfl⟩ := List.mem_map.mp hs
    have hn := lampDbl_node hp
    rw [mem_innerNodes] at hp
    unfold Fits
    simp only
    rw [hn]
    refine ⟨by simp [Fields.IsComp], ?_⟩
    have m1 : (exactGrid gDbl).Nx = gDbl.Nx := rfl
    have m2 : (exactGrid gDbl).Ny = gDbl.Ny := rfl
    rw [m1, m2] at hp
    unfold InGrid
    omega
  · refine radiators_carry hl lampV (fun i j _ => by norm_num) fun m i j _ _ => ?_
    rw [show ((m : ℝ) + 1) * (exactGrid gDbl).dt + - ((exactGrid gDbl).dt / 2) = (m + 1 / 2) * (exactGrid gDbl).dt by ring, sub_self, abs_zero]

end Qbox.Props
