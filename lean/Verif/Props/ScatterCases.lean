import Verif.Props.ScatterProps
import Verif.Props.DrivenWaveCases

/-! # A non-trivial case of the theorem about scattering (C100) -/

namespace Qbox.Props
open Qbox Scalar Spec

/-- A region around the disc. -/
noncomputable def litVol : Vol ℝ := ⟨⟨5, 6⟩, ⟨14, 14⟩, ⟨9, 8⟩⟩
noncomputable def rise : TimeProfile ℝ := ⟨Real.smoothTransition, none, []⟩

theorem lit_a : gOpen.toGrid litVol.a = ⟨5, 6⟩ := by
  have r5 : roundAway (5 : ℝ) = 5 := by simpa using roundAway_int 5
  have r6 : roundAway (6 : ℝ) = 6 := by simpa using roundAway_int 6
  simp [Grid.toGrid, gOpen_dx, litVol, r5, r6]

theorem lit_b : gOpen.toGrid litVol.b = ⟨14, 14⟩ := by
  have r : roundAway (14 : ℝ) = 14 := by simpa using roundAway_int 14
  simp [Grid.toGrid, gOpen_dx, litVol, r]

theorem lit_region : ClearRegion gOpen (gOpen.toGrid litVol.a) (gOpen.toGrid litVol.b) := by
  rw [lit_a, lit_b]
  refine ⟨⟨?_, ?_, ?_, ?_⟩, ⟨?_, ?_, ?_, ?_⟩, by norm_num, by norm_num, by norm_num, by norm_num⟩ <;>
    simp only [gOpen_T, gOpen_Nx, gOpen_Ny] <;> norm_num

theorem lit_within : AllWithin gOpen litVol [lampDisc] := by
  intro o ho i j h
  rw [List.mem_singleton.mp ho, lampDisc, disc_inside] at h
  rw [lit_a, lit_b]
  simp only [Grid.toReal, gOpen_dx, ofInt_real, mul_one, one_mul] at h
  have k : (i - 10) ^ 2 + (j - 10) ^ 2 < 4 := by exact_mod_cast h
  have a1 : i - 10 < 2 := by nlinarith [sq_nonneg (j - 10)]
  have a2 : -2 < i - 10 := by nlinarith [sq_nonneg (j - 10)]
  have a3 : j - 10 < 2 := by nlinarith [sq_nonneg (i - 10)]
  have a4 : -2 < j - 10 := by nlinarith [sq_nonneg (i - 10)]
  simp only
  omega

/-- The current of the sources: what the wave needs, less what the incident wave induces. -/
noncomputable def litJ (t x y : ℝ) : ℝ := lampJ t x y - induced discEps discSig rise.resp (entry gOpen litVol) t x y

theorem litJ_add : (fun t x y => litJ t x y + induced discEps discSig rise.resp (entry gOpen litVol) t x y) = lampJ := by
  funext t x y
  unfold litJ
  ring

/-- A case of C100: an incident wave that rises smoothly, a conducting dielectric disc, sources, and a scattered wave that is not zero. The induced current is not zero either. -/
theorem scattering_case (n : ℕ) : ∃ Ms c, SmoothStart rise.resp Ms ∧
    (⟨[lampDisc], radiators gOpen discEps discSig litJ (- (gOpen.dt / 2)), some (litVol, rise)⟩ : Scene).run gOpen n = .ok c ∧
      Real.sqrt (litGap lamp litVol rise.resp gOpen n c.f (updatedNodes gOpen)) ≤ restError (fun _ _ => True) gOpen 1 3 +
        n * gOpen.dt * drivenError (fun _ _ => True) gOpen 1 3 1 (0 + inducedError Ms gOpen.dt (n + 1) (rows gOpen litVol) (3 - 1 + 1)) +
        (incidentError Ms gOpen.dt n (rows gOpen litVol) + incidentErrorX Ms gOpen.dt n (rows gOpen litVol)) * Real.sqrt (gOpen.Lx * gOpen.Ly) := by
  obtain ⟨Ms, hM⟩ := smooth_rise
  have hl : Lawful gOpen := gOpen_lawful
  have nn := Nat.cast_nonneg (α := ℝ) n
  have hd : gOpen.dt = 1 / 2 := by rw [hl.dt, gOpen_dx]
  obtain ⟨c, h1, h2⟩ := C100_scattering n gOpen gOpen_wide hl gOpen_T [lampDisc] (fun o ho => by rw [List.mem_singleton.mp ho]; exact disc_sound _ _ _) lampDisc_clear
    (fun o ho => by rw [List.mem_singleton.mp ho]; exact ⟨⟨3, 1, 1⟩, rfl, by norm_num, by norm_num⟩) 3 1
    ⟨by norm_num, fun o ho m hm => by rw [List.mem_singleton.mp ho] at hm; cases hm; exact le_rfl⟩
    ⟨by norm_num, fun o ho m hm => by rw [List.mem_singleton.mp ho] at hm; cases hm; norm_num⟩ discEps discSig lampDisc_medium litVol rise lit_region lit_within Ms hM
    lamp (fun _ _ => True) litJ (n + 1) 1 0 (lamp_smooth _ _) (lamp_steady _ _) (by rw [litJ_add]; exact lamp_driven _ _) (by rw [litJ_add]; exact lampJ_at_most _ _)
    (lamp_walls _) (lamp_rest _) (radiators gOpen discEps discSig litJ (- (gOpen.dt / 2))) (radiators_fit hl _ _ _ _) le_rfl
    (radiators_carry hl litJ (fun i j _ => by rcases discEps_cases (i * gOpen.dx) (j * gOpen.dx) with ⟨e1, e2⟩ | ⟨e1, e2⟩ <;> rw [e1, e2] <;> norm_num)
      fun m i j _ _ => by rw [show ((m : ℝ) + 1) * gOpen.dt + - (gOpen.dt / 2) = (m + 1 / 2) * gOpen.dt by ring, sub_self, abs_zero])
    (by rw [hd]; linarith)
  exact ⟨Ms, c, hM, h1, h2⟩

/-- After the wave has risen the induced current at the centre of the disc is that of its conductivity. -/
example : induced discEps discSig rise.resp (entry gOpen litVol) 20 10 10 = 1 := by
  have e : entry gOpen litVol = 4 := by
    unfold entry
    rw [lit_a, gOpen_dx]
    norm_num
  have s : discSig 10 10 = 1 := by unfold discSig; rw [if_pos (by norm_num)]
  have d : deriv Real.smoothTransition 14 = 0 := by
    have := iter_zero_of_const isOpen_Ioi (s := Real.smoothTransition) (a := 1) (fun t ht => Real.smoothTransition.one_of_one_le (le_of_lt ht)) (k := 1) le_rfl
      (show (14 : ℝ) ∈ Set.Ioi 1 by norm_num)
    rwa [iteratedDeriv_one] at this
  unfold induced planeE planeEt
  rw [e, s, show rise.resp = Real.smoothTransition from rfl, show (20 : ℝ) - (10 - 4) = 14 by norm_num, d, Real.smoothTransition.one_of_one_le (by norm_num)]
  norm_num

end Qbox.Props
