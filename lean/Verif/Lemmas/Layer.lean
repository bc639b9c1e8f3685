import Verif.Lemmas.ReachInv
import Verif.Lemmas.LocalStep
import Mathlib.Analysis.SpecialFunctions.Exp
import Mathlib.Tactic.Positivity

/-!
# The absorbing layer at its inner edge, and the step without the layer
-/

namespace Qbox
open Scalar Spec

set_option linter.unusedSectionVars false
set_option linter.unusedSimpArgs false

/-! ## Coefficients -/

theorem sigF_default (g : Grid ℝ) (t : ℝ) :
    (PmlPar.default g).sigF t = (16 / 5) / g.dx * (((g.T : ℝ) - t) / ((g.T : ℝ) - 1)) ^ 3 := by
  simp only [PmlPar.sigF, PmlPar.default, npow_real, ofInt_real, lit0_8_real]
  push_cast
  ring

theorem aF_default (g : Grid ℝ) (t : ℝ) :
    (PmlPar.default g).aF t = (1 / 5) * ((t - 1) / ((g.T : ℝ) - 1)) := by
  simp only [PmlPar.aF, PmlPar.default, npow_real, ofInt_real, lit0_2_real]
  push_cast
  ring

theorem bF_default (g : Grid ℝ) (t : ℝ) :
    (PmlPar.default g).bF t = Real.exp (-g.dt * ((PmlPar.default g).sigF t + (PmlPar.default g).aF t)) := by
  unfold PmlPar.bF
  rw [kF_default, div_one]
  rfl

theorem cF_default (g : Grid ℝ) (t : ℝ) : (PmlPar.default g).cF t =
    (PmlPar.default g).sigF t / ((PmlPar.default g).sigF t + (PmlPar.default g).aF t) * ((PmlPar.default g).bF t - 1) := by
  unfold PmlPar.cF
  rw [kF_default]
  simp [npow_real]

theorem cF_edge (g : Grid ℝ) : (PmlPar.default g).cF (g.T : ℝ) = 0 := by
  rw [cF_default, sigF_default]
  simp

theorem sigF_nonneg {g : Grid ℝ} (hx : 0 < g.dx) (hT : 2 ≤ g.T) {t : ℝ} (h : t ≤ g.T) : 0 ≤ (PmlPar.default g).sigF t := by
  rw [sigF_default]
  have : (2 : ℝ) ≤ g.T := by exact_mod_cast hT
  have h1 : 0 ≤ ((g.T : ℝ) - t) / ((g.T : ℝ) - 1) := div_nonneg (by linarith) (by linarith)
  positivity

theorem sigF_pos {g : Grid ℝ} (hx : 0 < g.dx) (hT : 2 ≤ g.T) {t : ℝ} (h : t < g.T) : 0 < (PmlPar.default g).sigF t := by
  rw [sigF_default]
  have : (2 : ℝ) ≤ g.T := by exact_mod_cast hT
  have h1 : 0 < ((g.T : ℝ) - t) / ((g.T : ℝ) - 1) := div_pos (by linarith) (by linarith)
  positivity

theorem aF_nonneg {g : Grid ℝ} (hT : 2 ≤ g.T) {t : ℝ} (h : 1 ≤ t) : 0 ≤ (PmlPar.default g).aF t := by
  rw [aF_default]
  have : (2 : ℝ) ≤ g.T := by exact_mod_cast hT
  have h1 : 0 ≤ (t - 1) / ((g.T : ℝ) - 1) := div_nonneg (by linarith) (by linarith)
  positivity

theorem sum_pos {g : Grid ℝ} (hx : 0 < g.dx) (hT : 2 ≤ g.T) {t : ℝ} (h1 : 1 ≤ t) (h2 : t ≤ g.T) :
    0 < (PmlPar.default g).sigF t + (PmlPar.default g).aF t := by
  rcases h2.lt_or_eq with h | h
  · have := sigF_pos hx hT h
    have := aF_nonneg hT h1
    linarith
  · have := sigF_nonneg hx hT h2
    have h3 : 0 < (PmlPar.default g).aF t := by
      rw [aF_default, h]
      have : (2 : ℝ) ≤ g.T := by exact_mod_cast hT
      have h1 : 0 < ((g.T : ℝ) - 1) / ((g.T : ℝ) - 1) := div_pos (by linarith) (by linarith)
      positivity
    linarith

theorem bF_bounds {g : Grid ℝ} (hx : 0 < g.dx) (hd : 0 < g.dt) (hT : 2 ≤ g.T) {t : ℝ} (h1 : 1 ≤ t) (h2 : t ≤ g.T) :
    0 < (PmlPar.default g).bF t ∧ (PmlPar.default g).bF t < 1 := by
  rw [bF_default]
  refine ⟨Real.exp_pos _, ?_⟩
  rw [Real.exp_lt_one_iff]
  have := mul_pos hd (sum_pos hx hT h1 h2)
  linarith

theorem cF_bounds {g : Grid ℝ} (hx : 0 < g.dx) (hd : 0 < g.dt) (hT : 2 ≤ g.T) {t : ℝ} (h1 : 1 ≤ t) (h2 : t ≤ g.T) :
    -1 < (PmlPar.default g).cF t ∧ (PmlPar.default g).cF t ≤ 0 := by
  obtain ⟨b1, b2⟩ := bF_bounds hx hd hT h1 h2
  have hs := sigF_nonneg hx hT h2
  have ha := aF_nonneg hT h1 (g := g)
  have hp := sum_pos hx hT h1 h2
  rw [cF_default]
  have r0 : 0 ≤ (PmlPar.default g).sigF t / ((PmlPar.default g).sigF t + (PmlPar.default g).aF t) := div_nonneg hs hp.le
  have r1 : (PmlPar.default g).sigF t / ((PmlPar.default g).sigF t + (PmlPar.default g).aF t) ≤ 1 := by
    rw [div_le_one hp]; linarith
  constructor
  · nlinarith
  · nlinarith

/-- Strictly inside the layer the coefficient does not vanish. -/
theorem cF_neg {g : Grid ℝ} (hx : 0 < g.dx) (hd : 0 < g.dt) (hT : 2 ≤ g.T) {t : ℝ} (h1 : 1 ≤ t) (h2 : t < g.T) :
    (PmlPar.default g).cF t < 0 := by
  obtain ⟨b1, b2⟩ := bF_bounds hx hd hT h1 h2.le
  have hs := sigF_pos hx hT h2
  have hp := sum_pos hx hT h1 h2.le
  rw [cF_default]
  have r0 : 0 < (PmlPar.default g).sigF t / ((PmlPar.default g).sigF t + (PmlPar.default g).aF t) := div_pos hs hp
  nlinarith

/-! ## The inner edge stays quiet -/

/-- The memory of the layer is zero in its innermost row and column. -/
structure Pml.EdgeQuiet (p : Pml ℝ) : Prop where
  Ezx1 : ∀ j, p.psi.Ezx1.val p.par.T j = 0
  Ezx2 : ∀ j, p.psi.Ezx2.val p.par.T j = 0
  Ezy1 : ∀ i, p.psi.Ezy1.val i p.par.T = 0
  Ezy2 : ∀ i, p.psi.Ezy2.val i p.par.T = 0

theorem Core.Std.ce_edge {c : Core ℝ} (h : c.Std) : c.pml.co.ce_x.val c.pml.par.T = 0 ∧ c.pml.co.ce_y.val c.pml.par.T = 0 := by
  have e : c.pml.par.T = c.g.T := by rw [h.par]; rfl
  have ht := h.thick
  have k : c.pml.par.cF (c.g.T : ℝ) = 0 := by rw [h.par]; exact cF_edge c.g
  rw [h.co.ce_x _ (by omega) le_rfl, h.co.ce_y _ (by omega) le_rfl, e]
  exact ⟨k, k⟩

theorem Pml.EdgeQuiet.afterE {c : Core ℝ} (h : c.Std) (q : c.pml.EdgeQuiet) (Hx Hy : Tensor ℝ) : (c.pml.afterE Hx Hy).EdgeQuiet := by
  obtain ⟨k1, k2⟩ := h.ce_edge
  have eT : (c.pml.afterE Hx Hy).par.T = c.pml.par.T := rfl
  constructor
  · intro j
    show (if _ then pEx1 _ _ _ _ _ _ _ else _) = (0 : ℝ)
    split_ifs
    · unfold pEx1; rw [eT, k1, q.Ezx1]; ring
    · exact q.Ezx1 j
  · intro j
    show (if _ then pEx2 _ _ _ _ _ _ _ _ else _) = (0 : ℝ)
    split_ifs
    · unfold pEx2; rw [eT, k1, q.Ezx2]; ring
    · exact q.Ezx2 j
  · intro i
    show (if _ then pEy1 _ _ _ _ _ _ _ else _) = (0 : ℝ)
    split_ifs
    · unfold pEy1; rw [eT, k2, q.Ezy1]; ring
    · exact q.Ezy1 i
  · intro i
    show (if _ then pEy2 _ _ _ _ _ _ _ _ else _) = (0 : ℝ)
    split_ifs
    · unfold pEy2; rw [eT, k2, q.Ezy2]; ring
    · exact q.Ezy2 i

theorem Pml.EdgeQuiet.afterH {p : Pml ℝ} (q : p.EdgeQuiet) (Ez : Tensor ℝ) : (p.afterH Ez).EdgeQuiet := ⟨q.1, q.2, q.3, q.4⟩

/-- Inside the closed interior the layer adds nothing to `Ez`. -/
theorem Pml.EdgeQuiet.corrE {c : Core ℝ} (h : c.Std) (q : c.pml.EdgeQuiet) (Hx Hy Cb : Tensor ℝ) {x y : ℤ} (h1 : c.g.T ≤ x)
    (h2 : x ≤ c.g.Nx - 1 - c.g.T) (h3 : c.g.T ≤ y) (h4 : y ≤ c.g.Ny - 1 - c.g.T) : c.pml.corrE Hx Hy Cb x y = 0 := by
  obtain ⟨k1, k2⟩ := h.ce_edge
  have e : c.pml.par.T = c.g.T := by rw [h.par]; rfl
  have en := h.wf.pml.nx
  have em := h.wf.pml.ny
  have z1 : (if (x, y) ∈ rect 1 (c.pml.Nx - 1) 1 (c.pml.par.T + 1) then
      Cb.val x y * pEy1 c.pml.co.be_y c.pml.co.ce_y c.pml.par.dx Hx c.pml.psi.Ezy1 x y else 0) = 0 := by
    split_ifs with hm
    · rw [mem_rect] at hm
      have : y = c.pml.par.T := by simp only at hm; omega
      subst this
      unfold pEy1; rw [k2, q.Ezy1]; ring
    · rfl
  have z2 : (if (x, c.pml.Ny - 1 - y) ∈ rect 1 (c.pml.Nx - 1) 1 (c.pml.par.T + 1) then
      Cb.val x y * pEy2 c.pml.co.be_y c.pml.co.ce_y c.pml.par.dx (c.pml.Ny - 1) Hx c.pml.psi.Ezy2 x (c.pml.Ny - 1 - y) else 0) = 0 := by
    split_ifs with hm
    · rw [mem_rect] at hm
      have : c.pml.Ny - 1 - y = c.pml.par.T := by simp only at hm; omega
      rw [this]
      unfold pEy2; rw [k2, q.Ezy2]; ring
    · rfl
  have z3 : (if (x, y) ∈ rect 1 (c.pml.par.T + 1) 1 (c.pml.Ny - 1) then
      Cb.val x y * pEx1 c.pml.co.be_x c.pml.co.ce_x c.pml.par.dx Hy c.pml.psi.Ezx1 x y else 0) = 0 := by
    split_ifs with hm
    · rw [mem_rect] at hm
      have : x = c.pml.par.T := by simp only at hm; omega
      subst this
      unfold pEx1; rw [k1, q.Ezx1]; ring
    · rfl
  have z4 : (if (c.pml.Nx - 1 - x, y) ∈ rect 1 (c.pml.par.T + 1) 1 (c.pml.Ny - 1) then
      Cb.val x y * pEx2 c.pml.co.be_x c.pml.co.ce_x c.pml.par.dx (c.pml.Nx - 1) Hy c.pml.psi.Ezx2 (c.pml.Nx - 1 - x) y else 0) = 0 := by
    split_ifs with hm
    · rw [mem_rect] at hm
      have : c.pml.Nx - 1 - x = c.pml.par.T := by simp only at hm; omega
      rw [this]
      unfold pEx2; rw [k1, q.Ezx2]; ring
    · rfl
  unfold Pml.corrE
  rw [z1, z2, z3, z4]; ring

theorem update_edge {c c' : Core ℝ} (h : c.Std) (q : c.pml.EdgeQuiet) {l l' : List (Source ℝ)} (hu : c.update l = .ok (c', l')) :
    c'.Std ∧ c'.pml.EdgeQuiet := by
  obtain ⟨c1, f, c2, h1, w1, g1, h2, df, e2, w2, h3, w3, g3⟩ := update_ok_inv h.wf h.wide hu
  obtain ⟨d1, k1, s1⟩ := Core.stageE_std h
  rw [h1] at k1; cases k1
  obtain ⟨ld, E2, lr, E3, ll, E4, E5, -, -, -, -, -, -, -, -, k2⟩ := Core.stageE_parts h.wf h.wide
  have ep : c1.pml = c.pml.afterE c.f.Hx c.f.Hy := by
    rw [h1] at k2; exact congrArg Core.pml (Except.ok.inj k2)
  have s2 : c2.Std := by
    subst e2
    exact s1.of_same w2 rfl rfl rfl rfl
  obtain ⟨d2, k3, s3⟩ := Core.stageH_std s2
  rw [h3] at k3; cases k3
  obtain ⟨tf, h', -, -, k4⟩ := Core.stageH_parts s2.wf s2.wide
  have ep2 : c'.pml = c2.pml.afterH c2.f.Ez := by
    rw [h3] at k4; exact congrArg Core.pml (Except.ok.inj k4)
  refine ⟨s3, ?_⟩
  rw [ep2]
  refine Pml.EdgeQuiet.afterH ?_ _
  rw [e2]
  show c1.pml.EdgeQuiet
  rw [ep]
  exact q.afterE h _ _

theorem Spec.Reach.std {g : Grid ℝ} (hg : g.Wide) (hl : Lawful g) (hT : g.T = 0 ∨ 2 ≤ g.T) {c : Core ℝ} (h : Reach g c) :
    c.Std ∧ c.pml.EdgeQuiet := by
  induction h with
  | @make c h =>
    obtain ⟨c', h1, h2, -⟩ := Core.make_std hg hl hT
    rw [h] at h1; cases h1
    refine ⟨h2, ?_⟩
    unfold Core.make Pml.make Pml.makeWith at h
    simp only [Except.bind_ok, Except.pure_eq] at h
    obtain ⟨f, -, p, ⟨co, hco, hp⟩, sc, hsc, hcc⟩ := h
    have hpe : c.pml = p := (congrArg Core.pml (Except.ok.inj hcc)).symm
    rw [hpe]; cases hp
    exact ⟨fun _ => rfl, fun _ => rfl, fun _ => rfl, fun _ => rfl⟩
  | @insert c c' o hr h ih =>
    obtain ⟨e1, e2, -⟩ := insertObject_parts h
    obtain ⟨w, e⟩ := (Reach.insert o hr h).wf hg
    have e0 := (hr.wf hg).2
    exact ⟨ih.1.of_same w (e.trans e0.symm) e1 (by rw [e2]) (by rw [e2]), by rw [e2]; exact ih.2⟩
  | updateGrid objs hr h ih =>
    obtain ⟨h1, h2, h3, h4, -⟩ := updateMaterialGrid_ok_inv ih.1.wf h
    exact ⟨ih.1.of_same h1 h2 h3 (by rw [h4]) (by rw [h4]), by rw [h4]; exact ih.2⟩
  | clearMaterials hr h ih =>
    exact ⟨ih.1.of_same ((Reach.clearMaterials hr h).wf hg).1 rfl rfl rfl rfl, ih.2⟩
  | clearFields hr ih => exact ⟨ih.1.of_same (hr.clearFields.wf hg).1 rfl rfl rfl rfl, ih.2⟩
  | setTfsf vol tp hr hf ih => exact ⟨ih.1.of_same ((hr.setTfsf vol tp hf).wf hg).1 rfl rfl rfl rfl, ih.2⟩
  | update hr h ih => exact update_edge ih.1 ih.2 h
  | poke f hr hf ih => exact ⟨ih.1.of_same ((hr.poke f hf).wf hg).1 rfl rfl rfl rfl, ih.2⟩

theorem plainSc_eq {c : Core ℝ} (h : c.Std) : c.sc = plainSc c.g := by
  obtain ⟨d1, d2, d3, d4⟩ := h.wf.sc
  obtain ⟨p1, p2, p3, p4⟩ := h.sc
  cases hs : c.sc with
  | mk a b e f =>
    rw [hs] at d1 d2 d3 d4 p1 p2 p3 p4
    unfold plainSc
    congr 1
    · exact Arr.ext' d1 p1
    · exact Arr.ext' d2 p2
    · exact Arr.ext' d3 p3
    · exact Arr.ext' d4 p4

end Qbox
