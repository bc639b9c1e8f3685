import Verif.Props.LitMetalForce
import Verif.Props.LitOrderProps
import Verif.Props.ConvergeCases
import Verif.Props.ForceCases
import Verif.Props.MomentumCases
import Verif.Props.LitPolarCases
import Verif.Props.LitSpectraCases
import Verif.Props.CrossCases
import Mathlib.Analysis.Complex.ExponentialBounds

/-! # Non-trivial cases of the theorems about monitors near media with memory (C107, C108): the disc of plasma of `LitPolarCases` -/

namespace Qbox.Props
open Qbox Scalar Spec

/-- The sources around the plasma, with names of their own. -/
noncomputable def glowSources : List (Source ℝ) := renamed 0 (radiators gOpen (fun _ _ => 1) (fun _ _ => 0) glowJ (- (gOpen.dt / 2)))

theorem glow_named : DistinctNames (furnish [glowDisc] glowSources) ∧ ∀ c ∈ furnish [glowDisc] glowSources, PlainNames c :=
  disc_names ⟨"p", .drude ⟨1, [⟨1, 0⟩]⟩⟩ 10 10 (by unfold PlainNames disc; decide) gOpen _ _ glowJ (- (gOpen.dt / 2))

theorem glowSources_fit : ∀ s ∈ glowSources, Fits gOpen s := renamed_fits (radiators_fit gOpen_lawful _ _ _ _)

noncomputable def glowXx (t x y : ℝ) : ℝ := tilt dirX (tilt dirY fun p => - glowA p) (t, x, y)
noncomputable def glowYy (t x y : ℝ) : ℝ := tilt dirY (tilt dirX glowA) (t, x, y)

/-- The scattering problem of the plasma. -/
theorem glow_scatters (n : ℕ) : ∃ M Ms, glow.Solenoidal glowXx glowYy (fun _ _ => True) gOpen (n + 1) M ∧ ScattersPolar gOpen [glowDisc] glowSources litVol glint.resp (fun _ _ => 1) (fun _ _ => 0) glowRes 1 0 3 glow (fun _ _ => True) glowI glowIt glowJ
    (n + 1) M Ms 0 := by
  obtain ⟨Ms, hMs⟩ := smooth_flash
  have hl : Lawful gOpen := gOpen_lawful
  obtain ⟨M1, M10, sm, st, ev, cm, so⟩ := potential_tame glowA_smooth gOpen (n + 1) (eps := fun _ _ => 1) (sig := fun _ _ => 0) (em := 1) (sm := 0) (fun x y => by norm_num) (fun x y => by norm_num)
  obtain ⟨M2, M20, hM2⟩ := bounded_on gOpen (n + 1) (watched glowK) (watched_smooth glowK_smooth)
  obtain ⟨M3, hM3⟩ := flash_at_most
  set M := max M1 (max M2 M3) with hM
  have l1 : M1 ≤ M := le_max_left ..
  have l2 : M2 ≤ M := (le_max_left ..).trans (le_max_right ..)
  have l3 : M3 ≤ M := (le_max_right ..).trans (le_max_right ..)
  obtain ⟨h1, h2, h3, h4, h5⟩ := glow_objects
  have at_disc : ∀ p o, TopAt [glowDisc] p o → (p.x - 10) ^ 2 + (p.y - 10) ^ 2 < 4 ∧ o = glowDisc := by
    rintro p o ⟨b, a, e, k, -⟩
    have : o = glowDisc := List.mem_singleton.mp (by rw [e]; simp)
    subst this
    rw [glowDisc, disc_inside] at k
    exact ⟨k, rfl⟩
  have free : ∀ t x y, induced (fun _ _ => 1) (fun _ _ => 0) glint.resp (entry gOpen litVol) t x y = 0 := fun t x y => by unfold induced; ring
  refine ⟨M, Ms, ⟨fun t y a b h0 h1 k => tame_mono (so.alongX t y a b h0 h1 k) l1, fun t x a b h0 h1 k => tame_mono (so.alongY t x a b h0 h1 k) l1, so.gauss⟩, ?_⟩
  refine ⟨h1, h2, h3, h4, h5, ⟨fun p o ho => ?_, fun p hp => ?_⟩, ⟨fun _ _ => le_rfl, fun _ _ => le_rfl, fun x y => by unfold glowRes; split <;> norm_num [Response.stiff]⟩,
    lit_region, glow_within, hMs, (fun t ht => ⟨(hM3 _ t ht).1.trans l3, (hM3 _ t ht).2.trans l3⟩), smooth_mono sm l1, steady_mono st l1, ?_,
    by simp only [glow_sum]; exact potential_driven glowA_smooth _ _ _ _, glow_polarized (fun F hF p hp => (hM2 F hF p hp).trans l2) (M10.trans l1), fun t x y k0 k1 d => ?_, glow_walls _,
    glow_rest _, fun x y d => ?_, glowSources_fit, renamed_carry (radiators_carry hl glowJ (fun i j _ => ⟨le_rfl, le_rfl⟩) fun m i j _ _ => by
      rw [show ((m : ℝ) + 1) * gOpen.dt + - (gOpen.dt / 2) = (m + 1 / 2) * gOpen.dt by ring, sub_self, abs_zero]), fun t i j o a b => ?_⟩
  · obtain ⟨k, rfl⟩ := at_disc p o ho
    unfold glowRes
    rw [if_pos k]
    exact KindIs.drude 1 ⟨1, 0⟩
  · have := hp _ (List.mem_singleton_self _)
    rw [← Bool.not_eq_true, glowDisc, disc_inside] at this
    unfold glowRes
    rw [if_neg this]
    exact ⟨rfl, rfl, rfl⟩
  · exact ⟨fun t x x' y h0 h1 h2 d d' => (ev.Xx t x x' y h0 h1 h2 d d').trans (mul_le_mul_of_nonneg_right l1 (sub_nonneg.mpr h2)),
      fun t x y y' h0 h1 h2 d d' => (ev.Yy t x y y' h0 h1 h2 d d').trans (mul_le_mul_of_nonneg_right l1 (sub_nonneg.mpr h2))⟩
  · simp only [free, add_zero]
    unfold glowJ offDisc
    split
    · simpa using M10.trans l1
    · exact (cm t x y k0 k1 d).trans l1
  · unfold glowI inDisc
    split
    · show Real.smoothTransition (0 - x) * Real.exp (y - 10) = 0
      rw [Real.smoothTransition.zero_of_nonpos (show (0 : ℝ) - x ≤ 0 by linarith [d.x0]), zero_mul]
    · rfl
  · rw [glowSources, renamed_added]
    refine radiators_outside hl (objs := [glowDisc]) _ _ _ (fun t p o ho _ => ?_) t i j o a b
    unfold glowJ offDisc
    rw [if_pos (at_disc p o ho).1]

/-- The program with the plasma, the sources and the flash. -/
theorem glow_lit (now : ℕ → ℝ) (freq : List ℝ) (n : ℕ) (tp : TimeProfile ℝ) (a b : V2 ℤ) (hx : 2 ≤ a.x ∧ a.x < b.x ∧ b.x ≤ 18) (hy : 2 ≤ a.y ∧ a.y < b.y ∧ b.y ≤ 18) :
    ∃ w4, LitWritten now gOpen (furnishLit [glowDisc] glowSources litVol tp) (List.replicate n (.op .update)) [] "v" ⟨(a.x : ℝ), (a.y : ℝ)⟩ ⟨(b.x : ℝ), (b.y : ℝ)⟩ .tangent freq n w4 :=
  C101_program now gOpen gOpen_wide gOpen_lawful gOpen_T [glowDisc] glow_objects.2.1 glowSources glowSources_fit litVol tp lit_region "v" _ _ .tangent (.inr rfl) freq n
    (by rw [gOpen_dx]) (by rw [gOpen_node, gOpen_node, gOpen_Nx]; exact hx) (by rw [gOpen_node, gOpen_node, gOpen_Ny]; exact hy) glow_named.1 glow_named.2

/-- In the plasma the total field is the wave of the plasma. -/
theorem glow_total {t x y : ℝ} (h : (t, x, y) ∈ glowClear) :
    (glow.lit glint.resp 4).E t x y = pulseShape (t - x) * Real.exp (y - 10) ∧ (glow.lit glint.resp 4).X t x y = - (Real.smoothTransition (t - x) * Real.exp (y - 10)) ∧
      (glow.lit glint.resp 4).Y t x y = - pulseShape (t - x) * Real.exp (y - 10) := by
  have k : ∀ v, tilt v glowA (t, x, y) = tilt v glowB (t, x, y) := fun v => tilt_congr glowClear_open glowA_clear v _ h
  have y4 : (0 : ℝ) ≤ y - 4 := by have : (6 : ℝ) < y := h.2.2.1; linarith
  have eX : glow.X t x y = - tilt dirY glowA (t, x, y) := by
    show tilt dirY (fun p => - glowA p) (t, x, y) = _
    rw [tilt_neg]
  have eY : glow.Y t x y = tilt dirX glowA (t, x, y) := rfl
  simp only [Wave.lit, glint, max_eq_right y4]
  rw [(glow_clear h).1, eX, eY, k, k, glowB_x, glowB_y]
  refine ⟨by ring, by ring, rfl⟩

/-- Cases of `C107_scattered`, `C107_total` and `C107_absorption`: a box around the region of the flash, and one around the plasma in the region. -/
example (now : ℕ → ℝ) (freq : List ℝ) (n : ℕ) : ∃ w4 w5 M Ms,
    LitWritten now gOpen (furnishLit [glowDisc] glowSources litVol glint) (List.replicate n (.op .update)) [] "v" ⟨((3 : ℤ) : ℝ), ((4 : ℤ) : ℝ)⟩ ⟨((17 : ℤ) : ℝ), ((17 : ℤ) : ℝ)⟩ .tangent
      freq n w4 ∧
    HoldsBoxFlux w4 gOpen "v" ⟨((3 : ℤ) : ℝ), ((4 : ℤ) : ℝ)⟩ ⟨((17 : ℤ) : ℝ), ((17 : ℤ) : ℝ)⟩ freq glow (n * gOpen.dt)
      (boxFlowError gOpen (gOpen.toGrid ⟨((3 : ℤ) : ℝ), ((4 : ℤ) : ℝ)⟩) (gOpen.toGrid ⟨((17 : ℤ) : ℝ), ((17 : ℤ) : ℝ)⟩) M (n * gOpen.dt)
        (metalError (fun _ _ => True) gOpen litVol M Ms 1 0 3 (n + 1) 0 n)) ∧
    LitWritten now gOpen (furnishLit [glowDisc] glowSources litVol glint) (List.replicate n (.op .update)) [] "v" ⟨((7 : ℤ) : ℝ), ((8 : ℤ) : ℝ)⟩ ⟨((13 : ℤ) : ℝ), ((13 : ℤ) : ℝ)⟩ .tangent
      freq n w5 ∧
    HoldsBoxFlux w5 gOpen "v" ⟨((7 : ℤ) : ℝ), ((8 : ℤ) : ℝ)⟩ ⟨((13 : ℤ) : ℝ), ((13 : ℤ) : ℝ)⟩ freq (glow.lit glint.resp (entry gOpen litVol)) (n * gOpen.dt)
      (boxFlowError gOpen (gOpen.toGrid ⟨((7 : ℤ) : ℝ), ((8 : ℤ) : ℝ)⟩) (gOpen.toGrid ⟨((13 : ℤ) : ℝ), ((13 : ℤ) : ℝ)⟩) (litSize M Ms (n + 1)) (n * gOpen.dt)
        (metalError (fun _ _ => True) gOpen litVol M Ms 1 0 3 (n + 1) 0 n)) := by
  have nn := Nat.cast_nonneg (α := ℝ) n
  have hd : gOpen.dt = 1 / 2 := by rw [gOpen_lawful.dt, gOpen_dx]
  obtain ⟨M, Ms, -, P⟩ := glow_scatters n
  obtain ⟨w4, h4⟩ := glow_lit now freq n glint ⟨3, 4⟩ ⟨17, 17⟩ (by decide) (by decide)
  obtain ⟨w5, h5⟩ := glow_lit now freq n glint ⟨7, 8⟩ ⟨13, 13⟩ (by decide) (by decide)
  obtain ⟨o1, o2, o3⟩ := of_furnishLit [glowDisc] glowSources litVol glint
  exact ⟨w4, w5, M, Ms, h4, C107_scattered h4 o1 o2 o3 P (by rw [hd]; linarith) (by unfold BoxAround; rw [gOpen_node, gOpen_node, lit_a, lit_b]; decide),
    h5, C107_total h5 o1 o2 o3 P (by rw [hd]; linarith) (by unfold BoxWithin; rw [gOpen_node, gOpen_node, lit_a, lit_b]; decide)⟩

/-- Once the flash has gone, a steady current and its magnetic field are left in the plasma. -/
theorem glow_faded {T : ℝ} (hT : 12 < T) : (glow.lit glint.resp (entry gOpen litVol)).Faded (gOpen.toReal ⟨9, 9⟩) (gOpen.toReal ⟨11, 11⟩) T 3 ∧
    glow.Faded (gOpen.toReal ⟨9, 9⟩) (gOpen.toReal ⟨11, 11⟩) T 3 ∧ NoCurrent glowJ (gOpen.toReal ⟨9, 9⟩) (gOpen.toReal ⟨11, 11⟩) T ∧
    ∀ x y, (x, y) ∈ between (gOpen.toReal ⟨9, 9⟩) (gOpen.toReal ⟨11, 11⟩) → |glowI T x y| ≤ 3 := by
  have en : entry gOpen litVol = 4 := by
    unfold entry
    rw [lit_a, gOpen_dx]
    norm_num
  have inb : ∀ x y, (x, y) ∈ between (gOpen.toReal ⟨9, 9⟩) (gOpen.toReal ⟨11, 11⟩) → (x - 10) ^ 2 + (y - 10) ^ 2 < 4 ∧ x ≤ 11 ∧ y ≤ 11 := by
    rintro x y ⟨⟨h1, h2⟩, h3, h4⟩
    simp only [Grid.toReal, gOpen_dx] at h1 h2 h3 h4
    norm_num at h1 h2 h3 h4
    exact ⟨by nlinarith, h2, h4⟩
  have small : ∀ u y : ℝ, y ≤ 11 → |Real.smoothTransition u * Real.exp (y - 10)| ≤ 3 := fun u y hy => by
    rw [abs_mul, abs_of_nonneg (Real.smoothTransition.nonneg u), abs_of_pos (Real.exp_pos _)]
    have e : Real.exp (y - 10) ≤ 3 := (Real.exp_le_exp.mpr (by linarith : y - 10 ≤ 1)).trans (Real.exp_one_lt_d9.le.trans (by norm_num))
    calc _ ≤ 1 * Real.exp (y - 10) := mul_le_mul_of_nonneg_right (Real.smoothTransition.le_one u) (Real.exp_pos _).le
      _ ≤ 3 := by linarith
  have F : (glow.lit glint.resp (entry gOpen litVol)).Faded (gOpen.toReal ⟨9, 9⟩) (gOpen.toReal ⟨11, 11⟩) T 3 := by
    intro x y hb
    obtain ⟨c1, c2, c3⟩ := inb x y hb
    rw [en]
    obtain ⟨e1, e2, e3⟩ := glow_total (disc_glows c1 T)
    rw [e1, e2, e3, pulseShape_over (s := T - x) (by linarith), abs_neg]
    exact ⟨by norm_num, small _ _ c3, by norm_num⟩
  refine ⟨F, fun x y hb => ?_, ?_, fun x y hb => ?_⟩
  · obtain ⟨k1, k2, k3⟩ := F x y hb
    have f : glint.resp (T - max 0 (y - entry gOpen litVol)) = 0 := pulseShape_over (by
      rw [en]
      have := (inb x y hb).2.2
      rcases max_cases 0 (y - 4) with ⟨e, -⟩ | ⟨e, -⟩ <;> rw [e] <;> linarith)
    simp only [Wave.lit] at k1 k2 k3
    rw [f, add_zero] at k1 k2
    exact ⟨k1, k2, k3⟩
  · rintro t - x y hb
    unfold glowJ offDisc
    rw [if_pos (inb x y hb).1]
  · unfold glowI inDisc
    rw [if_pos (inb x y hb).1]
    exact small _ _ (inb x y hb).2.2

/-- A case of `C107_passive` and `C107_absorption`: a box in the plasma, once the flash has gone. A steady current and its magnetic field are left. -/
example (now : ℕ → ℝ) (freq : List ℝ) (n : ℕ) (hn : 25 ≤ n) : ∃ w4 M Ms,
    LitWritten now gOpen (furnishLit [glowDisc] glowSources litVol glint) (List.replicate n (.op .update)) [] "v" ⟨((9 : ℤ) : ℝ), ((9 : ℤ) : ℝ)⟩ ⟨((11 : ℤ) : ℝ), ((11 : ℤ) : ℝ)⟩ .tangent
      freq n w4 ∧
    HoldsNoSupply w4 gOpen "v" freq fun f =>
      boxFlowError gOpen (gOpen.toGrid ⟨((9 : ℤ) : ℝ), ((9 : ℤ) : ℝ)⟩) (gOpen.toGrid ⟨((11 : ℤ) : ℝ), ((11 : ℤ) : ℝ)⟩) (litSize M Ms (n + 1)) (n * gOpen.dt)
        (metalError (fun _ _ => True) gOpen litVol M Ms 1 0 3 (n + 1) 0 n) f +
      remainder (gOpen.toReal (gOpen.toGrid ⟨((9 : ℤ) : ℝ), ((9 : ℤ) : ℝ)⟩)) (gOpen.toReal (gOpen.toGrid ⟨((11 : ℤ) : ℝ), ((11 : ℤ) : ℝ)⟩)) (2 + 1 + 3 ^ 2) 3 (litSize M Ms (n + 1)) (n * gOpen.dt) := by
  have nn := Nat.cast_nonneg (α := ℝ) n
  have hd : gOpen.dt = 1 / 2 := by rw [gOpen_lawful.dt, gOpen_dx]
  have late : 12 < n * gOpen.dt := by
    have : (25 : ℝ) ≤ n := by exact_mod_cast hn
    rw [hd]; linarith
  obtain ⟨M, Ms, -, P⟩ := glow_scatters n
  obtain ⟨w4, h4⟩ := glow_lit now freq n glint ⟨9, 9⟩ ⟨11, 11⟩ (by decide) (by decide)
  obtain ⟨o1, o2, o3⟩ := of_furnishLit [glowDisc] glowSources litVol glint
  obtain ⟨F, -, N, Kf⟩ := glow_faded late
  rw [← gOpen_node 9 9, ← gOpen_node 11 11] at F N Kf
  exact ⟨w4, M, Ms, h4, C107_passive h4 o1 o2 o3 P (by rw [hd]; linarith) (by unfold BoxWithin; rw [gOpen_node, gOpen_node, lit_a, lit_b]; decide) measurable_const (pieces_all _ _)
    (potential_regular glowA_smooth _ _ _ _) 3 (by norm_num) F N Kf⟩

/-- Cases of `C107_spectra_scattered` and `C107_spectra_total`: a volume monitor beside the region, and one over the plasma. -/
example (now : ℕ → ℝ) (freq : List ℝ) (n : ℕ) : ∃ w4 w5 M Ms,
    LitVolume now gOpen (furnishLit [glowDisc] glowSources litVol glint) (List.replicate n (.op .update)) [] "v" ⟨((15 : ℤ) : ℝ), ((4 : ℤ) : ℝ)⟩ ⟨((17 : ℤ) : ℝ), ((17 : ℤ) : ℝ)⟩ .all
      freq n w4 ∧
    HoldsSpectra w4 gOpen "v" ⟨((15 : ℤ) : ℝ), ((4 : ℤ) : ℝ)⟩ ⟨((17 : ℤ) : ℝ), ((17 : ℤ) : ℝ)⟩ .all freq glow (n * gOpen.dt)
      (spectralError gOpen M (n * gOpen.dt) (metalError (fun _ _ => True) gOpen litVol M Ms 1 0 3 (n + 1) 0 n)) ∧
    LitVolume now gOpen (furnishLit [glowDisc] glowSources litVol glint) (List.replicate n (.op .update)) [] "v" ⟨((7 : ℤ) : ℝ), ((7 : ℤ) : ℝ)⟩ ⟨((13 : ℤ) : ℝ), ((13 : ℤ) : ℝ)⟩ .all
      freq n w5 ∧
    HoldsSpectra w5 gOpen "v" ⟨((7 : ℤ) : ℝ), ((7 : ℤ) : ℝ)⟩ ⟨((13 : ℤ) : ℝ), ((13 : ℤ) : ℝ)⟩ .all freq (glow.lit glint.resp (entry gOpen litVol)) (n * gOpen.dt)
      (spectralError gOpen (litSize M Ms (n + 1)) (n * gOpen.dt) (metalError (fun _ _ => True) gOpen litVol M Ms 1 0 3 (n + 1) 0 n)) := by
  have nn := Nat.cast_nonneg (α := ℝ) n
  have hd : gOpen.dt = 1 / 2 := by rw [gOpen_lawful.dt, gOpen_dx]
  obtain ⟨o1, o2, o3⟩ := of_furnishLit [glowDisc] glowSources litVol glint
  obtain ⟨M, Ms, -, P⟩ := glow_scatters n
  have go := fun (a b : V2 ℤ) (hx : 2 ≤ a.x ∧ a.x ≤ b.x ∧ b.x ≤ 17) (hy : 2 ≤ a.y ∧ a.y ≤ b.y ∧ b.y ≤ 17) =>
    C105_volume_program now gOpen gOpen_wide gOpen_lawful gOpen_T [glowDisc] glow_objects.2.1 glowSources glowSources_fit litVol glint lit_region "v"
      ⟨(a.x : ℝ), (a.y : ℝ)⟩ ⟨(b.x : ℝ), (b.y : ℝ)⟩ .all freq n (by rw [gOpen_node, gOpen_node]; exact hx.2.1) (by rw [gOpen_node, gOpen_node]; exact hy.2.1)
      (by
        rw [gOpen_node, gOpen_node]
        intro i j h
        unfold Box.Mem updatedNodes at *
        rw [gOpen_Nx, gOpen_Ny]
        simp only at h ⊢
        omega) glow_named.1 glow_named.2
  obtain ⟨w4, h4⟩ := go ⟨15, 4⟩ ⟨17, 17⟩ (by decide) (by decide)
  obtain ⟨w5, h5⟩ := go ⟨7, 7⟩ ⟨13, 13⟩ (by decide) (by decide)
  exact ⟨w4, w5, M, Ms, h4, C107_spectra_scattered h4 o1 o2 o3 P (by rw [hd]; linarith) (by unfold NodesBeside; rw [gOpen_node, gOpen_node, lit_a, lit_b]; decide),
    h5, C107_spectra_total h5 o1 o2 o3 P (by rw [hd]; linarith) (by unfold NodesWithin; rw [gOpen_node, gOpen_node, lit_a, lit_b]; decide)⟩

/-- Cases of `C107_flux_scattered` and `C107_flux_total`: a line beside the region, and one in the region beside the plasma. -/
example (now : ℕ → ℝ) (freq : List ℝ) (n : ℕ) : ∃ w4 w5 M Ms,
    LitLine now gOpen (furnishLit [glowDisc] glowSources litVol glint) (List.replicate n (.op .update)) [] "v" ⟨((16 : ℤ) : ℝ), ((4 : ℤ) : ℝ)⟩ ⟨((16 : ℤ) : ℝ), ((17 : ℤ) : ℝ)⟩ .Positive
      .tangent freq n w4 ∧
    HoldsFlux w4 gOpen "v" ⟨((16 : ℤ) : ℝ), ((4 : ℤ) : ℝ)⟩ ⟨((16 : ℤ) : ℝ), ((17 : ℤ) : ℝ)⟩ .Positive freq glow (n * gOpen.dt)
      (flowError gOpen (cells gOpen ⟨((16 : ℤ) : ℝ), ((4 : ℤ) : ℝ)⟩ ⟨((16 : ℤ) : ℝ), ((17 : ℤ) : ℝ)⟩) M (n * gOpen.dt) (metalError (fun _ _ => True) gOpen litVol M Ms 1 0 3 (n + 1) 0 n)) ∧
    LitLine now gOpen (furnishLit [glowDisc] glowSources litVol glint) (List.replicate n (.op .update)) [] "v" ⟨((7 : ℤ) : ℝ), ((8 : ℤ) : ℝ)⟩ ⟨((7 : ℤ) : ℝ), ((13 : ℤ) : ℝ)⟩ .Positive
      .tangent freq n w5 ∧
    HoldsFlux w5 gOpen "v" ⟨((7 : ℤ) : ℝ), ((8 : ℤ) : ℝ)⟩ ⟨((7 : ℤ) : ℝ), ((13 : ℤ) : ℝ)⟩ .Positive freq (glow.lit glint.resp (entry gOpen litVol)) (n * gOpen.dt)
      (flowError gOpen (cells gOpen ⟨((7 : ℤ) : ℝ), ((8 : ℤ) : ℝ)⟩ ⟨((7 : ℤ) : ℝ), ((13 : ℤ) : ℝ)⟩) (litSize M Ms (n + 1)) (n * gOpen.dt)
        (metalError (fun _ _ => True) gOpen litVol M Ms 1 0 3 (n + 1) 0 n)) := by
  have nn := Nat.cast_nonneg (α := ℝ) n
  have hd : gOpen.dt = 1 / 2 := by rw [gOpen_lawful.dt, gOpen_dx]
  obtain ⟨o1, o2, o3⟩ := of_furnishLit [glowDisc] glowSources litVol glint
  obtain ⟨M, Ms, -, P⟩ := glow_scatters n
  have go : ∀ (x y y' : ℤ), 2 ≤ x ∧ x ≤ 18 → 2 ≤ y ∧ y < y' ∧ y' ≤ 18 → ∃ w4, LitLine now gOpen (furnishLit [glowDisc] glowSources litVol glint) (List.replicate n (.op .update)) [] "v"
      ⟨(x : ℝ), (y : ℝ)⟩ ⟨(x : ℝ), (y' : ℝ)⟩ .Positive .tangent freq n w4 := fun x y y' hx hy => by
    obtain ⟨s, hs⟩ := surf_vertical (x : ℝ) (y : ℝ) (y' : ℝ) .Positive
    exact C105_line_program now gOpen gOpen_wide gOpen_lawful gOpen_T [glowDisc] glow_objects.2.1 glowSources glowSources_fit litVol glint lit_region "v"
      ⟨(x : ℝ), (y : ℝ)⟩ ⟨(x : ℝ), (y' : ℝ)⟩ .Positive s hs .tangent (.inr rfl) freq n (by rw [gOpen_dx])
      (by rw [gOpen_node, gOpen_node]; intro e; have := congrArg V2.y e; simp only at this; omega)
      (by rw [gOpen_node, gOpen_Nx]; exact hx) (by rw [gOpen_node, gOpen_Ny]; simp only; omega) (by rw [gOpen_node, gOpen_Nx]; exact hx) (by rw [gOpen_node, gOpen_Ny]; simp only; omega)
      glow_named.1 glow_named.2
  obtain ⟨w4, h4⟩ := go 16 4 17 (by decide) (by decide)
  obtain ⟨w5, h5⟩ := go 7 8 13 (by decide) (by decide)
  exact ⟨w4, w5, M, Ms, h4, C107_flux_scattered h4 o1 o2 o3 P (by rw [hd]; linarith) (by unfold NodesBeside lineLow lineHigh; rw [gOpen_node, gOpen_node, lit_a, lit_b]; decide),
    h5, C107_flux_total h5 o1 o2 o3 P (by rw [hd]; linarith) (by unfold NodesWithin lineLow lineHigh; rw [gOpen_node, gOpen_node, lit_a, lit_b]; decide)⟩

/-- A case of `C107_scattering_section`: the scattering cross section of the plasma. -/
example (now : ℕ → ℝ) (freq : List ℝ) (n : ℕ) : ∃ w4 M Ms cs2,
    LitWritten now gOpen (furnishLit [glowDisc] glowSources litVol (glint.freq freq)) (List.replicate n (.op .update)) [.tfsfFlux] "v" ⟨((3 : ℤ) : ℝ), ((4 : ℤ) : ℝ)⟩
      ⟨((17 : ℤ) : ℝ), ((17 : ℤ) : ℝ)⟩ .tangent freq n w4 ∧
    IncidentWritten now gOpen (furnishLit [glowDisc] glowSources litVol (glint.freq freq)) cs2 [] litVol (glint.freq freq) n w4 ∧
    HoldsCrossSection w4 gOpen "v" ⟨((3 : ℤ) : ℝ), ((4 : ℤ) : ℝ)⟩ ⟨((17 : ℤ) : ℝ), ((17 : ℤ) : ℝ)⟩ freq glow glint.resp (n * gOpen.dt)
      (boxFlowError gOpen (gOpen.toGrid ⟨((3 : ℤ) : ℝ), ((4 : ℤ) : ℝ)⟩) (gOpen.toGrid ⟨((17 : ℤ) : ℝ), ((17 : ℤ) : ℝ)⟩) M (n * gOpen.dt)
        (metalError (fun _ _ => True) gOpen litVol M Ms 1 0 3 (n + 1) 0 n)) (incidentFlowError gOpen (rows gOpen litVol) Ms n) := by
  have nn := Nat.cast_nonneg (α := ℝ) n
  have hd : gOpen.dt = 1 / 2 := by rw [gOpen_lawful.dt, gOpen_dx]
  obtain ⟨M, Ms, -, P⟩ := glow_scatters n
  obtain ⟨w3, h3⟩ := glow_lit now freq n (glint.freq freq) ⟨3, 4⟩ ⟨17, 17⟩ (by decide) (by decide)
  obtain ⟨o1, o2, o3⟩ := of_furnishLit [glowDisc] glowSources litVol (glint.freq freq)
  obtain ⟨-, kind, -⟩ := furnishLit_fine gOpen gOpen_lawful gOpen_T [glowDisc] glow_objects.2.1 glowSources glowSources_fit litVol (glint.freq freq) lit_region glow_named.1 glow_named.2
  obtain ⟨cs2, w4, h, hi⟩ := C104_program kind h3 o3 _ rfl
  exact ⟨w4, M, Ms, cs2, h, hi, C107_scattering_section (tp := glint.freq freq) h hi o1 o2 o3 _ rfl rfl P (by rw [hd]; linarith)
    (by unfold BoxAround; rw [gOpen_node, gOpen_node, lit_a, lit_b]; decide)⟩

/-- Cases of `C108_scattered`, `C108_total` and `C108_force`: force and torque on a box around the region of the flash, and on one in the plasma, where they are those of the light on the
current in the plasma. -/
example (now : ℕ → ℝ) (freq : List ℝ) (n : ℕ) (hn : 25 ≤ n) (qty : Quantity ℝ) (hq : qty = .force ∨ ∃ c, qty = .torque c) : ∃ w4 w5 M Ms,
    LitFelt qty now gOpen (furnishLit [glowDisc] glowSources litVol glint) (List.replicate n (.op .update)) [] "v" ⟨((3 : ℤ) : ℝ), ((4 : ℤ) : ℝ)⟩ ⟨((17 : ℤ) : ℝ), ((17 : ℤ) : ℝ)⟩ freq n w4 ∧
    HoldsPush qty w4 gOpen "v" ⟨((3 : ℤ) : ℝ), ((4 : ℤ) : ℝ)⟩ ⟨((17 : ℤ) : ℝ), ((17 : ℤ) : ℝ)⟩ freq glow (n * gOpen.dt) M (metalError (fun _ _ => True) gOpen litVol M Ms 1 0 3 (n + 1) 0 n) ∧
    LitFelt qty now gOpen (furnishLit [glowDisc] glowSources litVol glint) (List.replicate n (.op .update)) [] "v" ⟨((9 : ℤ) : ℝ), ((9 : ℤ) : ℝ)⟩ ⟨((11 : ℤ) : ℝ), ((11 : ℤ) : ℝ)⟩ freq n w5 ∧
    HoldsLorentzForce qty w5 gOpen "v" ⟨((9 : ℤ) : ℝ), ((9 : ℤ) : ℝ)⟩ ⟨((11 : ℤ) : ℝ), ((11 : ℤ) : ℝ)⟩ freq (glow.lit glint.resp (entry gOpen litVol))
      ((glow.lit glint.resp (entry gOpen litVol)).currents (fun _ _ => 1) (fun _ _ => 0) fun t x y => glowI t x y + glowJ t x y) (n * gOpen.dt)
      (lorentzForceError gOpen ⟨((9 : ℤ) : ℝ), ((9 : ℤ) : ℝ)⟩ ⟨((11 : ℤ) : ℝ), ((11 : ℤ) : ℝ)⟩ (litSize M Ms (n + 1)) (n * gOpen.dt) (metalError (fun _ _ => True) gOpen litVol M Ms 1 0 3 (n + 1) 0 n) 3)
      (lorentzTorqueError gOpen ⟨((9 : ℤ) : ℝ), ((9 : ℤ) : ℝ)⟩ ⟨((11 : ℤ) : ℝ), ((11 : ℤ) : ℝ)⟩ (litSize M Ms (n + 1)) (n * gOpen.dt) (metalError (fun _ _ => True) gOpen litVol M Ms 1 0 3 (n + 1) 0 n) 3) := by
  have nn := Nat.cast_nonneg (α := ℝ) n
  have hd : gOpen.dt = 1 / 2 := by rw [gOpen_lawful.dt, gOpen_dx]
  have late : 12 < n * gOpen.dt := by
    have : (25 : ℝ) ≤ n := by exact_mod_cast hn
    rw [hd]; linarith
  obtain ⟨o1, o2, o3⟩ := of_furnishLit [glowDisc] glowSources litVol glint
  obtain ⟨M, Ms, so, P⟩ := glow_scatters n
  have go := fun (a b : V2 ℤ) (hx : 2 ≤ a.x ∧ a.x < b.x ∧ b.x ≤ 18) (hy : 2 ≤ a.y ∧ a.y < b.y ∧ b.y ≤ 18) =>
    C102_lit_program now gOpen gOpen_wide gOpen_lawful gOpen_T [glowDisc] glow_objects.2.1 glowSources glowSources_fit litVol glint lit_region "v" ⟨(a.x : ℝ), (a.y : ℝ)⟩ ⟨(b.x : ℝ), (b.y : ℝ)⟩ freq n
      (by rw [gOpen_dx]) (by rw [gOpen_node, gOpen_node, gOpen_Nx]; exact hx) (by rw [gOpen_node, gOpen_node, gOpen_Ny]; exact hy) glow_named.1 glow_named.2 qty hq
  obtain ⟨w4, h4⟩ := go ⟨3, 4⟩ ⟨17, 17⟩ (by decide) (by decide)
  obtain ⟨w5, h5⟩ := go ⟨9, 9⟩ ⟨11, 11⟩ (by decide) (by decide)
  obtain ⟨F, F', -, -⟩ := glow_faded late
  have C : glow.Calm (fun _ _ => True) gOpen (gOpen.toReal ⟨9, 9⟩) (gOpen.toReal ⟨11, 11⟩) (n + 1) M (n * gOpen.dt) 3 glowXx glowYy :=
    { pieces := pieces_all _ _, regular := potential_regular glowA_smooth _ _ _ _, faded := F', solenoidal := so
      evenX := (tilt_smooth (tilt_smooth glowA_smooth.neg dirY) dirX).continuous.continuousOn
      evenY := (tilt_smooth (tilt_smooth glowA_smooth dirX) dirY).continuous.continuousOn }
  rw [← gOpen_node 9 9, ← gOpen_node 11 11] at F C
  exact ⟨w4, w5, M, Ms, h4, C108_scattered h4 o1 o2 o3 P (by rw [hd]; linarith) (by unfold BoxAround; rw [gOpen_node, gOpen_node, lit_a, lit_b]; decide),
    h5, C108_force h5 o1 o2 o3 P (by rw [hd]; linarith) (by unfold BoxWithin; rw [gOpen_node, gOpen_node, lit_a, lit_b]; decide) C F⟩

/-- A case of `C106_order`, `C106_vanishes` and `C100_vanishes`: the region and the edge of the disc of the other cases. -/
example (n : ℕ) : ∃ C, ∀ m ≤ n, metalError OffCircle gOpen litVol 1 1 3 1 3 (n + 1) 0 m ≤ C * (Real.sqrt gOpen.dx + 0) ∧ litError OffCircle gOpen litVol 1 1 3 1 (n + 1) 0 m ≤ C * (Real.sqrt gOpen.dx + 0) := by
  have nn := Nat.cast_nonneg (α := ℝ) n
  have hd : gOpen.dt = 1 / 2 := by rw [gOpen_lawful.dt, gOpen_dx]
  have a0 : 0 ≤ gOpen.Lx * gOpen.Ly := by rw [gOpen_Lx, gOpen_Ly]; norm_num
  have p0 : 0 ≤ gOpen.Lx + gOpen.Ly := by rw [gOpen_Lx, gOpen_Ly]; norm_num
  have hy : (gOpen.toGrid litVol.a).y ≤ (gOpen.toGrid litVol.b).y := by rw [lit_a, lit_b]; decide
  obtain ⟨C, hC⟩ := C106_vanishes 1 1 3 1 3 (n + 1) (gOpen.Lx * gOpen.Ly) (litVol.b.y - litVol.a.y + 3 * gOpen.dx) (gOpen.Lx + gOpen.Ly) 2 (by norm_num) (by norm_num) (by norm_num) (by norm_num)
    (by norm_num) (by positivity) p0
  obtain ⟨D, hD⟩ := C100_vanishes 1 1 3 1 (n + 1) (gOpen.Lx * gOpen.Ly) (litVol.b.y - litVol.a.y + 3 * gOpen.dx) (gOpen.Lx + gOpen.Ly) 2 (by norm_num) (by norm_num) (by norm_num) (by norm_num)
    (by positivity) p0
  refine ⟨max C D, fun m hm => ?_⟩
  have mm : (m : ℝ) ≤ n := by exact_mod_cast hm
  have m0 := Nat.cast_nonneg (α := ℝ) m
  have r := Real.sqrt_nonneg gOpen.dx
  have t : m * gOpen.dt ≤ n + 1 := by rw [hd]; linarith
  exact ⟨(hC OffCircle gOpen litVol m 0 gOpen_wide gOpen_lawful gOpen_T (by rw [gOpen_dx]) a0 le_rfl le_rfl offCircle_few hy le_rfl t le_rfl zero_le_one).trans
      (mul_le_mul_of_nonneg_right (le_max_left _ _) (by linarith)),
    (hD OffCircle gOpen litVol m 0 gOpen_wide gOpen_lawful gOpen_T (by rw [gOpen_dx]) a0 le_rfl le_rfl offCircle_few hy le_rfl t le_rfl zero_le_one).trans
      (mul_le_mul_of_nonneg_right (le_max_right _ _) (by linarith))⟩

end Qbox.Props
