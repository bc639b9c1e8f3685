import Verif.Props.RestartProps
import Verif.Props.MediumProps
import Verif.Props.HistoryProps
import Verif.Props.TfsfProps

/-! # Where restarting with `clear_fields` fails (C50) -/

namespace Qbox.Props
open Qbox Scalar Spec

set_option linter.unusedSimpArgs false

/-- **C50** for histories that satisfy `A`: the fields after `clear_fields` and any further calls are those of a new simulation that only received the
building calls and the further ones. -/
def RestartsWhen (A : List (Op ℝ) → Sim ℝ → Prop) : Prop :=
  ∀ (now : ℕ → ℝ) (g : Grid ℝ) (fn : String) (s0 s s1 t1 : Sim ℝ) (before after again : List (Op ℝ)), Sim.make now g fn = .ok s0 →
    s0.runOk now before = .ok s → A before s → s.runOk now (.clearFields :: after) = .ok s1 → physical again = rebuild before ++ physical after →
    s0.runOk now again = .ok t1 → s1.core.f = t1.core.f

/-- Without dispersive materials and with an empty layer it holds. -/
theorem C50_both_needed : RestartsWhen fun before s => (∀ op ∈ before, NoDispersion op) ∧ EmptyMemory s.core.pml :=
  fun _ _ _ _ _ _ _ _ _ _ hs h1 hA h2 ha h3 => (C50_restart_partial hs hs hA.1 h1 hA.2 h2 ha h3).1

/-- A source in the absorbing layer. -/
noncomputable def srcIn : Source ℝ := ⟨"s", .point .Ez ⟨((2 : ℤ) : ℝ), ((10 : ℤ) : ℝ)⟩, .continuous (1 / 2)⟩
/-- A source in the middle. -/
noncomputable def srcMid : Source ℝ := ⟨"s", .point .Ez ⟨((10 : ℤ) : ℝ), ((10 : ℤ) : ℝ)⟩, .continuous (1 / 2)⟩
/-- A source of the magnetic field in the middle. -/
noncomputable def srcH : Source ℝ := ⟨"s", .point .Hy ⟨((10 : ℤ) : ℝ), ((10 : ℤ) : ℝ)⟩, .continuous (1 / 2)⟩

theorem gEx_fits {n : String} {C : Fields} (hC : C.IsComp) {i j : ℤ} (h1 : 0 ≤ i) (h2 : i < 20) (h3 : 0 ≤ j) (h4 : j < 20) (tp : TimeProfile ℝ) :
    Fits gEx ⟨n, .point C ⟨(i : ℝ), (j : ℝ)⟩, tp⟩ := by
  refine ⟨hC, ?_⟩
  rw [gEx_node]
  exact ⟨h1, by rw [gEx_Nx]; exact h2, h3, by rw [gEx_Ny]; exact h4⟩

/-- Histories inside the domain and without output run on a new simulation. -/
theorem gEx_runs (now : ℕ → ℝ) (ops : List (Op ℝ)) (h : Inside False gEx [] ops) (hn : ∀ op ∈ ops, NoOutput op) :
    ∃ s0 s, Sim.make now gEx "out" = .ok s0 ∧ s0.runOk now ops = .ok s := by
  obtain ⟨s0, h0, hs⟩ := make_safe now False gEx gEx_wide "out" (by decide)
  obtain ⟨-, un, -⟩ := make_unwatched h0
  have hi : s0.clocks.Idle := (make_clocks h0).idle
  obtain ⟨s', -, e, -⟩ := runOk_plain now gEx_wide (by rw [gEx_dx]; norm_num) ops [] s0 h hs hi un.tmons hn
  exact ⟨s0, s', h0, e⟩

theorem half_sine : (TimeProfile.continuous (1 / 2 : ℝ)).resp (1 / 2) = 1 := by
  simp only [TimeProfile.continuous, ofInt_real, pi_real]
  show Real.sin _ = 1
  rw [show ((2 : ℤ) : ℝ) * Real.pi * (1 / 2) * (1 / 2) = Real.pi / 2 by push_cast; ring, Real.sin_pi_div_two]

theorem totalContrib_one {g : Grid ℝ} {t : ℝ} {s : Source ℝ} {C : Fields} {p : V2 ℤ} :
    totalContrib g t [s] C p = contrib g s (s.tp.resp t) C p := by simp [totalContrib]

/-! ## Memory of the layer -/

/-- Fields and electric memory of the layer vanish; there is nothing dispersive and no incident wave. -/
structure Resting (c : Core ℝ) : Prop where
  Ez : TZero c.f.Ez
  Hx : TZero c.f.Hx
  Hy : TZero c.f.Hy
  Ezx1 : TZero c.pml.psi.Ezx1
  Ezx2 : TZero c.pml.psi.Ezx2
  Ezy1 : TZero c.pml.psi.Ezy1
  Ezy2 : TZero c.pml.psi.Ezy2
  debye : c.debye = []
  drude : c.drude = []
  lorentz : c.lorentz = []
  tfsf : c.tfsf = none

theorem Resting.step {c c' : Core ℝ} {l l' : List (Source ℝ)} {E2 E3 E4 : Tensor ℝ} {f : Flds ℝ} (h : Resting c) (S : c.Step l c' l' E2 E3 E4 f) (x y : ℤ) :
    f.Ez.val x y = totalContrib c.g (c.t + c.g.dt) l .Ez ⟨x, y⟩ := by
  have e2 := S.hd
  rw [h.debye] at e2
  have e3 := S.hr
  rw [h.drude] at e3
  have e4 := S.hl
  rw [h.lorentz] at e4
  obtain rfl : E2 = c.E1 := (congrArg Prod.snd (Except.ok.inj e2)).symm
  obtain rfl : E3 = c.E1 := (congrArg Prod.snd (Except.ok.inj e3)).symm
  obtain rfl : E4 = c.E1 := (congrArg Prod.snd (Except.ok.inj e4)).symm
  have z : c.E1.val x y = 0 := by
    have a := h.Ez
    have b := h.Hx
    have d := h.Hy
    have p1 := h.Ezx1
    have p2 := h.Ezx2
    have p3 := h.Ezy1
    have p4 := h.Ezy2
    unfold TZero at *
    simp [Core.E1, Tensor.setv_val, Tensor.upd, ezVal, Pml.corrE, pEx1, pEx2, pEy1, pEy2, a, b, d, p1, p2, p3, p4]
  rw [S.fE, z, h.tfsf]
  simp [tfEz]

theorem Resting.magnetic {c c' : Core ℝ} {l l' : List (Source ℝ)} {E2 E3 E4 : Tensor ℝ} {f : Flds ℝ} (h : Resting c) (S : c.Step l c' l' E2 E3 E4 f) :
    TZero c'.pml.psi.Ezx1 ∧ TZero c'.pml.psi.Ezx2 ∧ TZero c'.pml.psi.Ezy1 ∧ TZero c'.pml.psi.Ezy2 ∧ c'.debye = [] ∧ c'.drude = [] ∧ c'.lorentz = [] ∧
      c'.tfsf = none := by
  have e2 := S.hd
  rw [h.debye] at e2
  have e3 := S.hr
  rw [h.drude] at e3
  have e4 := S.hl
  rw [h.lorentz] at e4
  have e5 := S.tf
  rw [h.tfsf] at e5
  have b := h.Hx
  have d := h.Hy
  have p1 := h.Ezx1
  have p2 := h.Ezx2
  have p3 := h.Ezy1
  have p4 := h.Ezy2
  refine ⟨?_, ?_, ?_, ?_, (congrArg Prod.fst (Except.ok.inj e2)).symm, (congrArg Prod.fst (Except.ok.inj e3)).symm, (congrArg Prod.fst (Except.ok.inj e4)).symm,
    (Except.ok.inj e5).symm⟩ <;> intro x y <;> rw [S.pml] <;> unfold TZero at * <;>
    simp [Pml.afterE, Pml.afterH, Tensor.upd, pEx1, pEx2, pEy1, pEy2, b, d, p1, p2, p3, p4]

theorem Resting.clear {c c' : Core ℝ} {l l' : List (Source ℝ)} {E2 E3 E4 : Tensor ℝ} {f : Flds ℝ} (h : Resting c) (S : c.Step l c' l' E2 E3 E4 f) :
    Resting c'.clearFields := by
  obtain ⟨a1, a2, a3, a4, a5, a6, a7, a8⟩ := h.magnetic S
  exact ⟨fun _ _ => rfl, fun _ _ => rfl, fun _ _ => rfl, a1, a2, a3, a4, by simp [Core.clearFields, a5], by simp [Core.clearFields, a6],
    by simp [Core.clearFields, a7], by simp [Core.clearFields, a8]⟩

theorem clearFields_std {c : Core ℝ} (h : c.Std) : c.clearFields.Std := h.of_same (Core.clearFields_ok h.wf).1 rfl rfl rfl rfl

/-- `Hy` at node `(2, 10)` of the example grid after the first step of a state at rest with a source there. -/
theorem layer_hy {c c' : Core ℝ} {l l' : List (Source ℝ)} {E2 E3 E4 : Tensor ℝ} {f : Flds ℝ} (hc : c.Std) (h : Resting c) (hg : c.g = gEx) (ht : c.t = 0)
    (hdb : c.f.Db.val 2 10 = 1 / 2) (hl : l = [srcIn] ∨ ∃ s, SameSrc srcIn s ∧ l = [s]) (S : c.Step l c' l' E2 E3 E4 f) :
    c'.f.Hy.val 2 10 = - (1 / 2) + 1 / 2 * ((PmlPar.default gEx).bF (5 / 2) * c.pml.psi.Hyx1.val 2 10 - (PmlPar.default gEx).cF (5 / 2)) ∧
      c'.pml.psi.Hyx1.val 2 10 = (PmlPar.default gEx).bF (5 / 2) * c.pml.psi.Hyx1.val 2 10 - (PmlPar.default gEx).cF (5 / 2) := by
  have nx : c.pml.Nx = 20 := by rw [hc.wf.pml.nx, hg, gEx_Nx]
  have ny : c.pml.Ny = 20 := by rw [hc.wf.pml.ny, hg, gEx_Ny]
  have nt : c.pml.par.T = 3 := by rw [hc.par, hg]; exact gEx_T
  have dx : c.pml.par.dx = 1 := by rw [hc.par, hg]; exact gEx_dx
  have E : f.Ez.val 2 10 = 1 ∧ f.Ez.val 3 10 = 0 := by
    obtain ⟨s, hk, hr, rfl⟩ : ∃ s : Source ℝ, s.kind = srcIn.kind ∧ s.tp.resp = srcIn.tp.resp ∧ l = [s] := by
      rcases hl with rfl | ⟨s, hs, rfl⟩
      · exact ⟨_, rfl, rfl, rfl⟩
      · exact ⟨s, hs.1, hs.2.2, rfl⟩
    rw [h.step S, h.step S, totalContrib_one, totalContrib_one, hg, ht, gEx_dt]
    unfold contrib Drives
    rw [hk]
    simp only [srcIn, gEx_node, true_and]
    rw [if_pos trivial, if_neg (by simp), hr]
    constructor
    · rw [zero_add]; exact half_sine
    · rfl
  have Y : f.Hy.val 2 10 = 0 := by
    rw [S.fY, h.Hy]
    rw [totalContrib_zero, add_zero]
    intro s hs
    have hk : s.kind = srcIn.kind := by
      rcases hl with rfl | ⟨s', hs', rfl⟩
      · rw [List.mem_singleton.mp hs]
      · rw [List.mem_singleton.mp hs]; exact hs'.1
    unfold Drives
    rw [hk]
    simp [srcIn]
  have db : f.Db.val 2 10 = 1 / 2 := by rw [S.coef.2.2.2]; exact hdb
  have ep : pHx1 c.pml.co.bh_x c.pml.co.ch_x c.pml.par.dx f.Ez c.pml.psi.Hyx1 2 10 =
      (PmlPar.default gEx).bF (5 / 2) * c.pml.psi.Hyx1.val 2 10 - (PmlPar.default gEx).cF (5 / 2) := by
    unfold pHx1
    rw [hc.co.bh_x 2 (by norm_num) (by rw [nt]; norm_num), hc.co.ch_x 2 (by norm_num) (by rw [nt]; norm_num), hc.par, hg]
    rw [show ((2 : ℤ) : ℝ) + 1 / 2 = 5 / 2 by norm_num, show (2 : ℤ) + 1 = 3 from rfl, E.1, E.2]
    rw [show (PmlPar.default gEx).dx = 1 from gEx_dx]
    ring
  constructor
  · rw [S.eY, hg, gEx_Nx, gEx_Ny]
    have e1 : (f.Hy.upd (rect 1 (20 - 1) 1 (20 - 1)) (hyVal f c.sc)).val 2 10 = - (1 / 2) := by
      simp only [Tensor.upd]
      rw [if_pos (by rw [mem_rect]; norm_num)]
      unfold hyVal
      rw [show (2 : ℤ) + 1 = 3 from rfl, E.1, E.2, Y, db, hc.sc.khdx, hg, gEx_dx]
      norm_num
    have e2 : (c.pml.afterE c.f.Hx c.f.Hy).corrHy f.Ez f.Db 2 10 = 1 / 2 * ((PmlPar.default gEx).bF (5 / 2) * c.pml.psi.Hyx1.val 2 10
        - (PmlPar.default gEx).cF (5 / 2)) := by
      unfold Pml.corrHy
      simp only [Pml.afterE, nx, ny, nt]
      rw [if_pos (by rw [mem_rect]; norm_num), if_neg (by rw [mem_rect]; norm_num), add_zero, db, ep]
    have e3 : tfHy c'.tfsf 2 10 = 0 := by rw [(h.magnetic S).2.2.2.2.2.2.2]; rfl
    rw [e1, e2, e3, add_zero]
  · rw [S.pml]
    show (if ((2 : ℤ), (10 : ℤ)) ∈ rect 1 (c.pml.par.T - 1 + 1) 1 (c.pml.Ny - 1) then pHx1 c.pml.co.bh_x c.pml.co.ch_x c.pml.par.dx f.Ez c.pml.psi.Hyx1 2 10
      else c.pml.psi.Hyx1.val 2 10) = _
    rw [if_pos (by rw [mem_rect, nt, ny]; norm_num), ep]

/-- **C50 is false** with memory left in the absorbing layer, even without dispersive materials: `clear_fields` does not clear the layer. On the example
grid, a source in the layer, one update, `clear_fields`, one update, against one update of a new simulation. -/
theorem C50_layer_false : ¬ RestartsWhen fun before _ => ∀ op ∈ before, NoDispersion op := by
  intro H
  have fit : Fits gEx srcIn := gEx_fits (by simp [Fields.IsComp]) (by norm_num) (by norm_num) (by norm_num) (by norm_num) _
  obtain ⟨s0, s1, h0, h1⟩ := gEx_runs (fun _ => 0) ([.addSource srcIn, .update] ++ [.clearFields, .update])
    (show Inside False gEx [] [.addSource srcIn, .update, .clearFields, .update] from ⟨fit, trivial⟩) (by simp [NoOutput])
  obtain ⟨t0, t1, k0, k1⟩ := gEx_runs (fun _ => 0) [.addSource srcIn, .update] ⟨fit, trivial⟩ (by simp [NoOutput])
  rw [h0] at k0
  cases k0
  have h1' := h1
  rw [runOk_append] at h1'
  obtain ⟨s, a1, a2⟩ := (Except.bind_ok ..).mp h1'
  have eq := H (fun _ => 0) gEx "out" s0 s s1 t1 [.addSource srcIn, .update] [.update] [.addSource srcIn, .update] h0 a1 (by simp [NoDispersion]) a2
    rfl k1
  obtain ⟨-, -, cm, o0, l0, -, -⟩ := make_unwatched h0
  obtain ⟨c, hm, hstd, hg, hz, he⟩ := make_empty gEx_wide gEx_lawful (by rw [gEx_T]; norm_num)
  rw [cm] at hm
  cases hm
  have ht : s0.core.t = 0 := by
    obtain ⟨s, e, -, -, -, t0, -⟩ := make_named (fun _ => 0) (g := gEx) (fn := "out") (by have := gEx_wide.nx; omega) (by have := gEx_wide.ny; omega) (by decide)
    rw [h0] at e; cases e; exact t0
  have R : Resting s0.core := ⟨hz.Ez, hz.Hx, hz.Hy, hz.Ezx1, hz.Ezx2, hz.Ezy1, hz.Ezy2, he.debye, he.drude, he.lorentz, hz.tfsf⟩
  have db : s0.core.f.Db.val 2 10 = 1 / 2 := by
    rw [(he.medium 2 10 (by norm_num) (by rw [hg, gEx_Nx]; norm_num) (by norm_num) (by rw [hg, gEx_Ny]; norm_num)).Db, hg, gEx_dt]
    rfl
  -- the run of the new simulation
  have r1 := Sim.run_phys _ _ _ k1
  rw [show physical [Op.addSource srcIn, Op.update] = [Op.addSource srcIn, Op.update] from rfl] at r1
  obtain ⟨q, r1, r2⟩ := (Except.bind_ok ..).mp r1
  cases r1
  obtain ⟨q, r2, r3⟩ := (Except.bind_ok ..).mp r2
  obtain ⟨⟨c1, l1⟩, r2b, r4⟩ := (Except.bind_ok ..).mp r2
  cases r4
  have r3 := (Except.ok.inj r3).symm
  obtain ⟨c1', l1', E2, E3, E4, f, u1, S⟩ := Core.update_step hstd (s0.srcs ++ [srcIn]) (by rw [l0, hg]; simpa using fit)
  have r2' : s0.core.update (s0.srcs ++ [srcIn]) = .ok (c1, l1) := r2b
  rw [u1] at r2'
  cases r2'
  rw [l0, List.nil_append] at S u1
  obtain ⟨v1, v2⟩ := layer_hy hstd R hg ht db (Or.inl rfl) S
  have ec : t1.core = c1 := congrArg Phys.core r3
  -- the run that restarts
  have r5 := Sim.run_phys _ _ _ h1
  rw [show physical ([Op.addSource srcIn, Op.update] ++ [Op.clearFields, Op.update]) = [Op.addSource srcIn, Op.update, Op.clearFields, Op.update] from rfl] at r5
  obtain ⟨q, r5, r6⟩ := (Except.bind_ok ..).mp r5
  cases r5
  obtain ⟨q, r6, r7⟩ := (Except.bind_ok ..).mp r6
  obtain ⟨⟨c2, l2⟩, r6b, r8⟩ := (Except.bind_ok ..).mp r6
  cases r8
  have r6 : s0.core.update (s0.srcs ++ [srcIn]) = .ok (c2, l2) := r6b
  rw [l0, List.nil_append, u1] at r6
  cases r6
  obtain ⟨q, r7, r9⟩ := (Except.bind_ok ..).mp r7
  cases r7
  obtain ⟨q, r9, r10⟩ := (Except.bind_ok ..).mp r9
  obtain ⟨⟨c3, l3⟩, r9b, r11⟩ := (Except.bind_ok ..).mp r9
  cases r11
  have r10 := (Except.ok.inj r10).symm
  have r9 : c1.clearFields.update l1 = .ok (c3, l3) := r9b
  obtain ⟨x, hx, e1⟩ : ∃ x, SameSrc srcIn x ∧ l1 = [x] := by
    have := S.same
    rcases this with _ | ⟨hx, hr⟩
    cases hr
    exact ⟨_, hx, rfl⟩
  obtain ⟨c3', l3', E2', E3', E4', f', u3, S3⟩ := Core.update_step (clearFields_std S.std) l1 S.fits
  rw [r9] at u3
  cases u3
  have db1 : c1.clearFields.f.Db.val 2 10 = 1 / 2 := by
    show c1.f.Db.val 2 10 = _
    rw [S.coef'.2.2.2]; exact db
  obtain ⟨v3, -⟩ := layer_hy (clearFields_std S.std) (R.clear S) (S.g.trans hg) rfl db1 (Or.inr ⟨x, hx, e1⟩) S3
  have ec3 : s1.core = c3 := congrArg Phys.core r10
  rw [ec, ec3] at eq
  rw [show c1.clearFields.pml.psi.Hyx1.val 2 10 = c1.pml.psi.Hyx1.val 2 10 from rfl, v2, show s0.core.pml.psi.Hyx1.val 2 10 = 0 from hz.Hyx1 2 10] at v3
  rw [show s0.core.pml.psi.Hyx1.val 2 10 = 0 from hz.Hyx1 2 10] at v1
  have hb := (bF_bounds (g := gEx) (t := 5 / 2) (by rw [gEx_dx]; norm_num) (by rw [gEx_dt]; norm_num) (by rw [gEx_T]; norm_num) (by norm_num) (by rw [gEx_T]; norm_num)).1
  have hcn := cF_neg (g := gEx) (t := 5 / 2) (by rw [gEx_dx]; norm_num) (by rw [gEx_dt]; norm_num) (by rw [gEx_T]; norm_num) (by norm_num) (by rw [gEx_T]; norm_num)
  have hv : c3.f.Hy.val 2 10 = c1.f.Hy.val 2 10 := by rw [eq]
  rw [v1, v3] at hv
  nlinarith [mul_neg_of_pos_of_neg hb hcn]

/-! ## Dispersion is switched off -/

/-- The permittivity that is left of a Debye medium after `clear_fields`. -/
noncomputable def leftOver (m : Debye ℝ) (dt : ℝ) : ℝ := m.epsInf + sumL (m.poles.map (·.beta dt)) / 2

theorem reset_debye_quiet (P : DebyePol ℝ) (i j : ℤ) : DebyeQuiet P.reset i j := fun _ _ _ => ⟨rfl, rfl⟩
theorem reset_drude_quiet (P : DrudePol ℝ) (i j : ℤ) : DrudeQuiet P.reset i j := fun _ _ _ => ⟨rfl, rfl⟩

theorem cleared_simple {c : Core ℝ} {n : String} {P : DebyePol ℝ} {b a : List (String × DebyePol ℝ)} {i j : ℤ} (h : InDebye c n P b a i j)
    (hp : 0 < leftOver P.mat c.g.dt) : InSimple c.clearFields ⟨leftOver P.mat c.g.dt, 1, 0⟩ i j ∧ c.clearFields.lorentz = [] := by
  refine ⟨⟨?_, ?_, ?_, ?_⟩, by simp [Core.clearFields, h.lorentz]⟩
  · intro q hq
    obtain ⟨q', -, rfl⟩ := List.mem_map.mp hq
    exact reset_debye_quiet _ _ _
  · intro q hq
    obtain ⟨q', -, rfl⟩ := List.mem_map.mp hq
    exact reset_drude_quiet _ _ _
  · intro q hq
    obtain ⟨q', hq', -⟩ := List.mem_map.mp hq
    rw [h.lorentz] at hq'; cases hq'
  · have m := h.medium
    refine ⟨m.Ca.trans ?_, m.Cb.trans ?_, m.Da, m.Db⟩
    · simp [MatKind.Ca, Debye.Ca, Simple.Ca]
    · simp only [MatKind.Cb, Debye.Cb, Simple.Cb, ofInt_real]
      show _ = c.g.dt / leftOver P.mat c.g.dt / (1 + 0 * c.g.dt / _)
      unfold leftOver at hp ⊢
      have h2 : (2 : ℝ) * P.mat.epsInf + sumL (P.mat.poles.map (·.beta c.g.dt)) ≠ 0 := by linarith
      push_cast
      rw [zero_mul, zero_div, add_zero, div_one]
      field_simp

/-- **C50**, what `clear_fields` does to a Debye medium: from then on the node behaves like a medium without dispersion and without memory, whose
permittivity is `epsInf` increased by half the sum of the strengths of the poles, at every later update; the strengths return only when the materials
are painted again. -/
theorem C50_debye_off (c : Core ℝ) (hc : c.Std) (srcs : List (Source ℝ)) (hs : ∀ s ∈ srcs, Fits c.g s) (i j : ℤ) (hb : Beyond c.g i j)
    (hu : Undriven c srcs i j) (n : String) (P : DebyePol ℝ) (b a : List (String × DebyePol ℝ)) (hin : InDebye c n P b a i j)
    (hp : 0 < leftOver P.mat c.g.dt) (k : ℕ) : ∃ c1 srcs1 c2 srcs2, c.clearFields.run k srcs = .ok (c1, srcs1) ∧ c1.update srcs1 = .ok (c2, srcs2) ∧
      ConductiveLaw ⟨leftOver P.mat c.g.dt, 1, 0⟩ c.g.dt (c1.f.Ez.val i j) (c2.f.Ez.val i j) (curlH c1.f c.g.dx i j) := by
  obtain ⟨h1, h2⟩ := cleared_simple hin hp
  refine C24_step c.clearFields (clearFields_std hc) srcs hs i j hb ⟨hu.src, ?_⟩ h2 ⟨leftOver P.mat c.g.dt, 1, 0⟩ hp le_rfl h1 k
  intro w hw
  simp only [Core.clearFields, Option.map_eq_some_iff] at hw
  obtain ⟨w', hw', rfl⟩ := hw
  exact hu.tfsf w' hw'

/-- A Debye medium with one pole. -/
noncomputable def oneDebye : Debye ℝ := ⟨1, [⟨1, 1⟩]⟩

theorem oneDebye_vals : leftOver oneDebye (1 / 2) = 6 / 5 ∧ oneDebye.Cb (1 / 2) = 5 / 12 := by
  simp only [leftOver, Debye.Cb, oneDebye, sumL, List.map_cons, List.map_nil, List.foldl_cons, List.foldl_nil, DebyePole.beta, ofInt_real]
  norm_num

theorem inside_updates {g : Grid ℝ} {objs : List (Object ℝ)} : ∀ n : ℕ, Inside False g objs (List.replicate n .update)
  | 0 => trivial
  | n + 1 => inside_updates (g := g) (objs := objs) n

theorem updates_physical (n : ℕ) : physical (List.replicate n (Op.update : Op ℝ)) = List.replicate n .update := by
  unfold physical
  rw [List.filter_eq_self]
  intro op h
  rw [List.eq_of_mem_replicate h]; rfl

/-- Before any source acts on it, a silent simulation shows no electric field, whatever acts on the magnetic field. -/
theorem silent_step {c c' : Core ℝ} {l l' : List (Source ℝ)} {E2 E3 E4 : Tensor ℝ} {f : Flds ℝ} (hc : c.Std) (hz : Silent c) (S : c.Step l c' l' E2 E3 E4 f)
    (x y : ℤ) : E4.val x y = 0 := by
  obtain ⟨d, k, F2, F3, F4, f', u, S'⟩ := Core.update_step hc [] (by simp)
  obtain ⟨e, h1, -, hz'⟩ := C17_silence 1 c hc hz
  unfold Core.run at h1
  rw [u] at h1
  have e1 : d = e := congrArg Prod.fst (Except.ok.inj h1)
  subst e1
  have a1 := S.hd.symm.trans S'.hd
  have e2 : E2 = F2 := congrArg Prod.snd (Except.ok.inj a1)
  subst e2
  have a2 := S.hr.symm.trans S'.hr
  have e3 : E3 = F3 := congrArg Prod.snd (Except.ok.inj a2)
  subst e3
  have a3 := S.hl.symm.trans S'.hl
  have e4 : E4 = F4 := congrArg Prod.snd (Except.ok.inj a3)
  subst e4
  have := S'.fE x y
  rw [← S'.eE, hz'.Ez x y, hz.tfsf, totalContrib_zero (by simp)] at this
  simp only [tfEz, add_zero] at this
  exact this.symm

/-- **C50 is false** with a dispersive material, even when the layer remembers nothing: `clear_fields` sets the strengths of the poles to zero. On the
example grid, a disc of a Debye medium and a source inside it, against the same after `clear_fields`. -/
theorem C50_dispersion_false : ¬ RestartsWhen fun _ s => EmptyMemory s.core.pml := by
  intro H
  have fit : Fits gEx srcH := gEx_fits (by simp [Fields.IsComp]) (by norm_num) (by norm_num) (by norm_num) (by norm_num) _
  set o : Object ℝ := disc ⟨"m", .debye oneDebye⟩ 10 10 with ho
  have safe : o.Safe gEx := safe_of_clear gEx_lawful (disc_clear _ (by norm_num) (by norm_num))
  obtain ⟨c0, c, m1, m2, hstd, hg, hz, m6, m7, m8, m9⟩ := disc_sim ⟨"m", .debye oneDebye⟩
  obtain ⟨n1, n2, n3⟩ := Core.make_no_pol m1
  obtain ⟨P, p1, p2, -, p4⟩ := firstDebye m6 m8 m9 rfl n1 n2 n3 m2
  have hin := p4 10 10 (by norm_num) (by rw [m7, gEx_Nx]; norm_num) (by norm_num) (by rw [m7, gEx_Ny]; norm_num) (by rw [m7]; exact disc_center _)
  have hdt : c.g.dt = 1 / 2 := by rw [hg, gEx_dt]
  have hdx : c.g.dx = 1 := by rw [hg, gEx_dx]
  -- the assumption, for the physical part
  have key : ∀ n : ℕ, ∃ c' k d' k', c.run n [srcH] = .ok (c', k) ∧ c.clearFields.run n [srcH] = .ok (d', k') ∧ d'.f = c'.f := by
    intro n
    obtain ⟨s0, s1, h0, h1⟩ := gEx_runs (fun _ => 0) ([.addObject o, .addSource srcH] ++ .clearFields :: List.replicate n .update)
      (show Inside False gEx [] (.addObject o :: .addSource srcH :: .clearFields :: List.replicate n .update) from ⟨safe, fit, inside_updates n⟩)
      (by
        intro op h
        simp only [List.cons_append, List.nil_append, List.mem_cons] at h
        rcases h with rfl | rfl | rfl | h
        · trivial
        · trivial
        · trivial
        · rw [List.eq_of_mem_replicate h]; trivial)
    obtain ⟨t0, t1, k0, k1⟩ := gEx_runs (fun _ => 0) ([.addObject o, .addSource srcH] ++ List.replicate n .update)
      (show Inside False gEx [] (.addObject o :: .addSource srcH :: List.replicate n .update) from ⟨safe, fit, inside_updates n⟩)
      (by
        intro op h
        simp only [List.cons_append, List.nil_append, List.mem_cons] at h
        rcases h with rfl | rfl | h
        · trivial
        · trivial
        · rw [List.eq_of_mem_replicate h]; trivial)
    rw [h0] at k0
    cases k0
    have h1' := h1
    rw [runOk_append] at h1'
    obtain ⟨s, a1, a2⟩ := (Except.bind_ok ..).mp h1'
    obtain ⟨-, -, cm, o0, l0, -, -⟩ := make_unwatched h0
    rw [m1] at cm
    have cm := (Except.ok.inj cm).symm
    have r0 := Sim.run_phys _ _ _ a1
    have b1 : s0.phys.run [Op.addObject o, Op.addSource srcH] = .ok ⟨c, [srcH], [o]⟩ := by
      unfold Sim.phys
      rw [cm, o0, l0]
      show (do let c ← c0.insertObject o; pure (⟨c, [], [] ++ [o]⟩ : Phys ℝ)) >>= _ = _
      rw [m2]; rfl
    rw [show physical [Op.addObject o, Op.addSource srcH] = [Op.addObject o, Op.addSource srcH] from rfl, b1] at r0
    have es : s.core = c := (congrArg Phys.core (Except.ok.inj r0)).symm
    have em : EmptyMemory s.core.pml := by
      rw [es, (insertObject_parts m2).2.1]; exact make_memory m1
    have eq := H (fun _ => 0) gEx "out" s0 s s1 t1 [.addObject o, .addSource srcH] (List.replicate n .update)
      ([.addObject o, .addSource srcH] ++ List.replicate n .update) h0 a1 em a2 (by
        rw [show rebuild [Op.addObject o, Op.addSource srcH] = [Op.addObject o, Op.addSource srcH] from rfl, updates_physical]
        unfold physical
        rw [List.filter_append]
        rw [show List.filter _ [Op.addObject o, Op.addSource srcH] = [Op.addObject o, Op.addSource srcH] from rfl]
        congr 1
        exact updates_physical n) k1
    have r1 := Sim.run_phys _ _ _ k1
    have r2 := Sim.run_phys _ _ _ a2
    have q1 : physical ([Op.addObject o, Op.addSource srcH] ++ List.replicate n .update) = [Op.addObject o, Op.addSource srcH] ++ List.replicate n .update := by
      unfold physical
      rw [List.filter_append]
      rw [show List.filter _ [Op.addObject o, Op.addSource srcH] = [Op.addObject o, Op.addSource srcH] from rfl]
      congr 1
      exact updates_physical n
    rw [q1, Phys.run_append, b1, Except.ok_bind] at r1
    have r1 := phys_updates _ _ _ r1
    have q2 : physical (Op.clearFields :: List.replicate n (Op.update : Op ℝ)) = Op.clearFields :: List.replicate n .update := by
      unfold physical
      rw [List.filter_cons_of_pos (by rfl)]
      congr 1
      exact updates_physical n
    rw [q2] at r2
    have r2 : (⟨s.core.clearFields, s.srcs, s.objs⟩ : Phys ℝ).run (List.replicate n .update) = .ok s1.phys := r2
    have r2 := phys_updates _ _ _ r2
    have el : s.srcs = [srcH] := (congrArg Phys.srcs (Except.ok.inj r0)).symm
    simp only [es, el] at r2
    exact ⟨_, _, _, _, r1, r2, eq⟩
  have hb : Beyond c.g 10 10 := by rw [hg]; exact gEx_beyond (by norm_num) (by norm_num) (by norm_num) (by norm_num)
  have hf : ∀ s ∈ [srcH], Fits c.g s := by rw [hg]; simpa using fit
  have hu : Undriven c [srcH] 10 10 := by
    refine ⟨?_, by rw [hz.tfsf]; simp⟩
    intro s hs
    rw [List.mem_singleton.mp hs]
    simp [Drives, srcH]
  -- three steps of the new simulation
  obtain ⟨c1, l1, A2, A3, A4, f1, u1, S1⟩ := Core.update_step hstd [srcH] hf
  have hb1 : Beyond c1.g 10 10 := by rw [S1.g]; exact hb
  have hu1 := S1.undriven hstd hu
  obtain ⟨P1, b1, a1, i1, -, k1, v1, w1⟩ := S1.inDebye hstd hb hu hin
  obtain ⟨c2, l2, B2, B3, B4, f2, u2, S2⟩ := Core.update_step S1.std l1 S1.fits
  have hb2 : Beyond c2.g 10 10 := by rw [S2.g]; exact hb1
  have hu2 := S2.undriven S1.std hu1
  obtain ⟨P2, b2, a2, i2, -, k2, v2, w2⟩ := S2.inDebye S1.std hb1 hu1 i1
  obtain ⟨c3, l3, D2, D3, D4, f3, u3, S3⟩ := Core.update_step S2.std l2 S2.fits
  obtain ⟨P3, b3, a3, i3, -, k3, v3, w3⟩ := S3.inDebye S2.std hb2 hu2 i2
  rw [S2.g, S1.g, hdt, hdx, k2, k1, p1] at v3
  rw [S1.g, hdt, hdx, k1, p1] at v2 w2
  rw [hdt, hdx, p1] at v1 w1
  have len : oneDebye.poles.length = 1 := rfl
  rw [len] at v1 v2 v3
  have kap : (Arr.ofList (oneDebye.poles.map (·.kappa (1 / 2)))).val ((0 : ℕ) : ℤ) = 3 / 5 := by
    rw [arr_val oneDebye.poles _ 0 (by simp [len])]
    show DebyePole.kappa ⟨1, 1⟩ _ = _
    simp only [DebyePole.kappa, ofInt_real]; norm_num
  have bet : ∀ {Q : DebyePol ℝ} {d : Core ℝ} {b a : List (String × DebyePol ℝ)}, InDebye d "m" Q b a 10 10 → Q.mat = oneDebye → d.g.dt = 1 / 2 →
      Q.beta.val 10 10 ((0 : ℕ) : ℤ) = 2 / 5 := by
    intro Q d b a h e ed
    have := h.strength 0 (by rw [e, len]; norm_num)
    rw [this, ed]
    have e2 : Q.mat.poles[0]'(by rw [e, len]; norm_num) = ⟨1, 1⟩ := by simp [e, oneDebye]
    rw [e2]
    simp only [DebyePole.beta, ofInt_real]; norm_num
  have cb := oneDebye_vals.2
  simp only [Finset.sum_range_one, kap, cb] at v1 v2 v3
  have w1 := w1 0 (by rw [len]; norm_num)
  have w2 := w2 0 (by rw [len]; norm_num)
  simp only [Finset.sum_range_one, zero_add, kap, cb] at w1 w2
  rw [p2] at v1 w1
  have curl0 : curlH c.f 1 10 10 = 0 := by
    unfold curlH
    rw [hz.Hy, hz.Hy, hz.Hx, hz.Hx]; simp
  rw [curl0, hz.Ez] at v1 w1
  have J1 : P1.J.val 10 10 ((0 : ℕ) : ℤ) = 0 := by rw [w1]; ring
  have E1 : c1.f.Ez.val 10 10 = 0 := by rw [v1]; ring
  have z1 : ∀ x y, f1.Ez.val x y = 0 := by
    intro x y
    rw [S1.fE, silent_step hstd hz S1, hz.tfsf, totalContrib_zero]
    · simp [tfEz]
    · intro s hs
      rw [List.mem_singleton.mp hs]
      simp [Drives, srcH]
  have tn : c1.tfsf = none := by
    have := S1.tf
    rw [hz.tfsf] at this
    exact (Except.ok.inj this).symm
  have nx : c.pml.Nx = 20 := by rw [hstd.wf.pml.nx, hg, gEx_Nx]
  have ny : c.pml.Ny = 20 := by rw [hstd.wf.pml.ny, hg, gEx_Ny]
  have nt : c.pml.par.T = 3 := by rw [hstd.par, hg]; exact gEx_T
  have t0 : c.t = 0 := by
    rw [(insertObject_parts m2).2.2.2.1]
    obtain ⟨d, e1, -, -, -, e2, -⟩ := Core.make_ok (g := gEx) (by have := gEx_wide.nx; omega) (by have := gEx_wide.ny; omega)
    rw [m1] at e1; cases e1; exact e2
  have hHy : ∀ x y : ℤ, 3 < x → x < 16 → 3 < y → y < 16 → c1.f.Hy.val x y = f1.Da.val x y * f1.Hy.val x y := by
    intro x y h1 h2 h3 h4
    rw [S1.eY, hg, gEx_Nx, gEx_Ny, tn]
    simp only [Tensor.upd, Pml.corrHy, Pml.afterE, nx, ny, nt, tfHy]
    rw [if_pos (by rw [mem_rect]; omega), if_neg (by rw [mem_rect]; omega), if_neg (by rw [mem_rect]; omega)]
    simp [hyVal, z1]
  have hHx : ∀ x y : ℤ, 3 < x → x < 16 → 3 < y → y < 16 → c1.f.Hx.val x y = f1.Da.val x y * f1.Hx.val x y := by
    intro x y h1 h2 h3 h4
    rw [S1.eX, hg, gEx_Nx, gEx_Ny, tn]
    simp only [Tensor.upd, Pml.corrHx, Pml.afterE, nx, ny, nt, tfHx]
    rw [if_pos (by rw [mem_rect]; omega), if_neg (by rw [mem_rect]; omega), if_neg (by rw [mem_rect]; omega)]
    simp [hxVal, z1]
  have hfY : f1.Hy.val 10 10 = 1 ∧ f1.Hy.val 9 10 = 0 := by
    rw [S1.fY, S1.fY, hz.Hy, hz.Hy, totalContrib_one, totalContrib_one, hg, t0, gEx_dt]
    unfold contrib Drives
    simp only [srcH, gEx_node, true_and, zero_add]
    rw [if_pos trivial, if_neg (by simp)]
    exact ⟨half_sine, rfl⟩
  have hfX : ∀ x y, f1.Hx.val x y = 0 := by
    intro x y
    rw [S1.fX, hz.Hx, totalContrib_zero, add_zero]
    intro s hs
    rw [List.mem_singleton.mp hs]
    simp [Drives, srcH]
  have da : f1.Da.val 10 10 = 1 := by rw [S1.coef.2.2.1, hin.medium.Da]; rfl
  have curl1 : curlH c1.f 1 10 10 = 1 := by
    unfold curlH
    rw [hHy 10 10 (by norm_num) (by norm_num) (by norm_num) (by norm_num), hHy (10 - 1) 10 (by norm_num) (by norm_num) (by norm_num) (by norm_num),
      hHx 10 10 (by norm_num) (by norm_num) (by norm_num) (by norm_num), hHx 10 (10 - 1) (by norm_num) (by norm_num) (by norm_num) (by norm_num),
      hfX, hfX, show (10 : ℤ) - 1 = 9 from rfl, hfY.1, hfY.2, da]
    norm_num
  rw [curl1, J1, E1] at w2
  rw [bet i1 (k1.trans p1) (by rw [S1.g, hdt])] at w2
  have J2 : P2.J.val 10 10 ((0 : ℕ) : ℤ) = 1 / 3 := by rw [w2]; norm_num
  rw [J2] at v3
  -- against the one after `clear_fields`
  have pos : (0 : ℝ) < leftOver P.mat c.g.dt := by rw [p1, hdt, oneDebye_vals.1]; norm_num
  obtain ⟨d2, q2, d3, q3, e2, e3, law⟩ := C50_debye_off c hstd [srcH] hf 10 10 hb hu "m" P [] [] hin pos 2
  rw [hdt, p1, oneDebye_vals.1, hdx] at law
  have r2 : c.run 2 [srcH] = .ok (c2, l2) := by
    unfold Core.run; rw [u1]; simp only [Except.ok_bind]; unfold Core.run; rw [u2]; rfl
  have r3 : c.run 3 [srcH] = .ok (c3, l3) := by rw [run_last, r2]; exact u3
  have e4 : c.clearFields.run 3 [srcH] = .ok (d3, q3) := by rw [run_last, e2]; exact e3
  have f2 : d2.f = c2.f := by
    obtain ⟨x, _, y, _, g1, g2, g3⟩ := key 2
    rw [r2] at g1; rw [e2] at g2
    cases g1; cases g2; exact g3
  have f3 : d3.f = c3.f := by
    obtain ⟨x, _, y, _, g1, g2, g3⟩ := key 3
    rw [r3] at g1; rw [e4] at g2
    cases g1; cases g2; exact g3
  rw [f2, f3] at law
  unfold ConductiveLaw at law
  simp only at law
  rw [v3] at law
  linarith

/-- The hypotheses of `C50_before_layer` hold for a source in the middle of the example grid and four updates. -/
example (now : ℕ → ℝ) : ∃ s0 s s1 t1 : Sim ℝ, (∀ x ∈ [srcMid], Fits gEx x) ∧ (∀ x ∈ [srcMid], FarFromLayer gEx 4 x) ∧ Sim.make now gEx "out" = .ok s0 ∧
    s0.runOk now ([srcMid].map .addSource ++ List.replicate 4 .update) = .ok s ∧ s.runOk now (.clearFields :: List.replicate 9 .update) = .ok s1 ∧
    s0.runOk now ([srcMid].map .addSource ++ List.replicate 9 .update) = .ok t1 ∧ s1.core.f = t1.core.f := by
  have fit : Fits gEx srcMid := gEx_fits (by simp [Fields.IsComp]) (by norm_num) (by norm_num) (by norm_num) (by norm_num) _
  have fl : ∀ x ∈ [srcMid], Fits gEx x := by simpa using fit
  have far : ∀ x ∈ [srcMid], FarFromLayer gEx 4 x := by
    intro x hx i j hn C p q hb hd
    rw [List.mem_singleton.mp hx] at hd
    unfold Drives at hd
    simp only [srcMid, gEx_node] at hd
    have hp := congrArg V2.x hd.2
    have hq := congrArg V2.y hd.2
    simp only at hp hq
    unfold NearLayer at hn
    rw [gEx_T, gEx_Nx, gEx_Ny] at hn
    unfold Ball at hb
    push_cast at hb
    omega
  obtain ⟨s0, s1, h0, h1⟩ := gEx_runs now (([srcMid].map .addSource ++ List.replicate 4 .update) ++ .clearFields :: List.replicate 9 .update)
    (show Inside False gEx [] (.addSource srcMid :: .update :: .update :: .update :: .update :: .clearFields :: List.replicate 9 .update) from ⟨fit, inside_updates (g := gEx) (objs := []) 9⟩)
    (by
      intro op h
      simp only [List.map_cons, List.map_nil, List.mem_append, List.mem_cons, List.not_mem_nil, or_false] at h
      rcases h with (rfl | h) | rfl | h
      · trivial
      · rw [List.eq_of_mem_replicate h]; trivial
      · trivial
      · rw [List.eq_of_mem_replicate h]; trivial)
  obtain ⟨t0, t1, k0, k1⟩ := gEx_runs now ([srcMid].map .addSource ++ List.replicate 9 .update)
    (show Inside False gEx [] (.addSource srcMid :: List.replicate 9 .update) from ⟨fit, inside_updates (g := gEx) (objs := []) 9⟩)
    (by
      intro op h
      simp only [List.map_cons, List.map_nil, List.mem_append, List.mem_cons, List.not_mem_nil, or_false] at h
      rcases h with rfl | h
      · trivial
      · rw [List.eq_of_mem_replicate h]; trivial)
  rw [h0] at k0
  cases k0
  rw [runOk_append] at h1
  obtain ⟨s, a1, a2⟩ := (Except.bind_ok ..).mp h1
  exact ⟨s0, s, s1, t1, fl, far, h0, a1, a2, k1, (C50_before_layer gEx_wide gEx_lawful (by rw [gEx_T]; norm_num) 4 fl far h0 h0 a1 a2 k1).1⟩

end Qbox.Props
