import Verif.Lemmas.Number
import Verif.Lemmas.CoreOps

/-!
# Construction and materials in an arithmetic with infinities and NaN
-/

namespace Qbox
open Scalar Spec Spec.Xr

set_option linter.unusedSectionVars false
set_option linter.unusedSimpArgs false

namespace Num

def grid (g : Grid ℝ) : Grid Xr := ⟨fin g.Lx, fin g.Ly, g.Nx, g.Ny, fin g.dx, fin g.dt, fin g.res, g.T⟩

theorem grid_make (Lx Ly : ℝ) {res : ℝ} (h : res ≠ 0) (pml : ℤ) :
    Grid.make (fin Lx) (fin Ly) (fin res) pml = grid (Grid.make Lx Ly res pml) := by
  simp only [Grid.make, grid, one_fin, mul_fin, div_fin h, ceilI_fin, ofInt_fin, div_fin (two_ne_zero (α := ℝ)), Int.cast_ofNat,
    ceilI_real, ofInt_real]

/-! ## The layer -/

theorem sigF_num {p : PmlPar ℝ} (hT : (((p.T - 1 : ℤ)) : ℝ) ≠ 0) (t : ℝ) : (par p).sigF (fin t) = fin (p.sigF t) := by
  simp only [PmlPar.sigF, par, ofInt_fin, sub_fin, div_fin hT, npow_fin, mul_fin, npow_real, ofInt_real]

theorem kF_num {p : PmlPar ℝ} (hT : (((p.T - 1 : ℤ)) : ℝ) ≠ 0) (t : ℝ) : (par p).kF (fin t) = fin (p.kF t) := by
  simp only [PmlPar.kF, par, ofInt_fin, one_fin, sub_fin, add_fin, div_fin hT, npow_fin, mul_fin, npow_real, ofInt_real]

theorem aF_num {p : PmlPar ℝ} (hT : (((p.T - 1 : ℤ)) : ℝ) ≠ 0) (t : ℝ) : (par p).aF (fin t) = fin (p.aF t) := by
  simp only [PmlPar.aF, par, ofInt_fin, one_fin, sub_fin, add_fin, div_fin hT, npow_fin, mul_fin, npow_real, ofInt_real]

theorem bF_num {p : PmlPar ℝ} (hT : (((p.T - 1 : ℤ)) : ℝ) ≠ 0) {t : ℝ} (hk : p.kF t ≠ 0) : (par p).bF (fin t) = fin (p.bF t) := by
  have e : (par p).dt = fin p.dt := rfl
  simp only [PmlPar.bF, sigF_num hT, kF_num hT, aF_num hT, div_fin hk, add_fin, e, neg_fin, mul_fin, exp_fin, exp_real]

theorem cF_num {p : PmlPar ℝ} (hT : (((p.T - 1 : ℤ)) : ℝ) ≠ 0) {t : ℝ} (hk : p.kF t ≠ 0)
    (hs : p.sigF t * p.kF t + p.kF t ^ 2 * p.aF t ≠ 0) : (par p).cF (fin t) = fin (p.cF t) := by
  simp only [PmlPar.cF, bF_num hT hk, sigF_num hT, kF_num hT, aF_num hT, npow_fin, mul_fin, add_fin, div_fin hs, one_fin, sub_fin,
    npow_real]

theorem T_ne {g : Grid ℝ} (hT : g.T = 0 ∨ 2 ≤ g.T) : (((g.T - 1 : ℤ)) : ℝ) ≠ 0 := by
  intro h
  have : g.T - 1 = 0 := by exact_mod_cast h
  omega

theorem par_default {g : Grid ℝ} (hd : g.dx ≠ 0) : PmlPar.default (grid g) = par (PmlPar.default g) := by
  simp only [PmlPar.default, grid, par, lit0_8_fin, lit0_2_fin, ofInt_fin, mul_fin, one_fin, div_fin hd, lit0_8_real, lit0_2_real,
    ofInt_real]

theorem init_num {g : Grid ℝ} (hx : 0 < g.dx) (hT : g.T = 0 ∨ 2 ≤ g.T) (Nx Ny : ℤ) :
    RM (CoNum g.T) (PmlCoef.init (par (PmlPar.default g)) Nx Ny) (PmlCoef.init (PmlPar.default g) Nx Ny) := by
  have hT' := T_ne hT
  unfold PmlCoef.init
  refine RM.forRange ?_ ⟨.const .., .const .., .const .., .const .., .const .., .const .., .const .., .const ..⟩
  intro i h0 h1 c' c hc
  have hiT : i < g.T + 1 := h1
  have e1 : 1 ≤ i → i ≤ g.T → (par (PmlPar.default g)).bF (ofInt i) = fin ((PmlPar.default g).bF (ofInt i)) := by
    intro _ _
    rw [ofInt_fin]
    exact bF_num hT' (by rw [kF_default]; norm_num)
  have e2 : 1 ≤ i → i ≤ g.T → (par (PmlPar.default g)).cF (ofInt i) = fin ((PmlPar.default g).cF (ofInt i)) := by
    intro h2 h3
    rw [ofInt_fin]
    refine cF_num hT' (by rw [kF_default]; norm_num) ?_
    rw [kF_default, mul_one, one_pow, one_mul]
    exact (sum_pos hx (by omega) (by exact_mod_cast h2) (by exact_mod_cast h3)).ne'
  have eh : (ofInt i + half : Xr) = fin ((i : ℝ) + 1 / 2) := by rw [ofInt_fin, half_fin, add_fin]
  have eh' : (ofInt i + half : ℝ) = (i : ℝ) + 1 / 2 := by rw [half_real, ofInt_real]
  have e3 : 1 ≤ i → i ≤ g.T - 1 → (par (PmlPar.default g)).bF (ofInt i + half) = fin ((PmlPar.default g).bF (ofInt i + half)) := by
    intro _ _
    rw [eh, eh']
    exact bF_num hT' (by rw [kF_default]; norm_num)
  have e4 : 1 ≤ i → i ≤ g.T - 1 → (par (PmlPar.default g)).cF (ofInt i + half) = fin ((PmlPar.default g).cF (ofInt i + half)) := by
    intro h2 h3
    rw [eh, eh']
    refine cF_num hT' (by rw [kF_default]; norm_num) ?_
    rw [kF_default, mul_one, one_pow, one_mul]
    have h2' : (1 : ℝ) ≤ i := by exact_mod_cast h2
    have h3' : (i : ℝ) ≤ g.T - 1 := by exact_mod_cast h3
    exact (sum_pos hx (by omega) (by linarith) (by linarith)).ne'
  exact (hc.be_x.wr e1).bind fun _ _ _ q1 => (hc.ce_x.wr e2).bind fun _ _ _ q2 => (hc.bh_x.wr e3).bind fun _ _ _ q3 =>
    (hc.ch_x.wr e4).bind fun _ _ _ q4 => (hc.be_y.wr e1).bind fun _ _ _ q5 => (hc.ce_y.wr e2).bind fun _ _ _ q6 =>
    (hc.bh_y.wr e3).bind fun _ _ _ q7 => (hc.ch_y.wr e4).bind fun _ _ _ q8 => RM.pure ⟨q1, q2, q3, q4, q5, q6, q7, q8⟩

theorem psi_init (T Nx Ny : ℤ) : (PmlPsi.init T Nx Ny : PmlPsi Xr) = psi (PmlPsi.init T Nx Ny) := rfl

theorem pml_make_num {g : Grid ℝ} (hx : 0 < g.dx) (hT : g.T = 0 ∨ 2 ≤ g.T) : RM PmlNum (Pml.make (grid g)) (Pml.make g) := by
  unfold Pml.make Pml.makeWith
  rw [par_default hx.ne']
  exact (init_num hx hT _ _).bind fun c' c _ h => RM.pure ⟨rfl, rfl, rfl, h, psi_init ..⟩

theorem scaling_num {g : Grid ℝ} (hT : g.T = 0 ∨ 2 ≤ g.T) (Nx Ny : ℤ) :
    RM (U scal) ((par (PmlPar.default g)).scaling Nx Ny) ((PmlPar.default g).scaling Nx Ny) := by
  have hT' := T_ne hT
  unfold PmlPar.scaling
  refine RM.forRange ?_ ?_
  · rintro i _ _ _ s rfl
    have k1 : ∀ t : ℝ, (par (PmlPar.default g)).kF (fin t) * (par (PmlPar.default g)).dx
        = fin ((PmlPar.default g).kF t * (PmlPar.default g).dx) := fun t => by rw [kF_num hT']; rfl
    have a1 : (par (PmlPar.default g)).kF (ofInt i) * (par (PmlPar.default g)).dx = fin ((PmlPar.default g).kF (ofInt i) * (PmlPar.default g).dx) :=
      k1 _
    have a2 : (par (PmlPar.default g)).kF (ofInt i + half) * (par (PmlPar.default g)).dx
        = fin ((PmlPar.default g).kF (ofInt i + half) * (PmlPar.default g).dx) := by
      rw [half_fin, half_real, ofInt_fin, add_fin]; exact k1 _
    have a3 : (par (PmlPar.default g)).kF (ofInt i - half) * (par (PmlPar.default g)).dx
        = fin ((PmlPar.default g).kF (ofInt i - half) * (PmlPar.default g).dx) := by
      rw [half_fin, half_real, ofInt_fin, sub_fin]; exact k1 _
    exact (arr_wr _ _ a1).bindU fun _ _ => (arr_wr _ _ a2).bindU fun _ _ => (arr_wr _ _ a1).bindU fun _ _ =>
      (arr_wr _ _ a3).bindU fun _ _ => (arr_wr _ _ a1).bindU fun _ _ => (arr_wr _ _ a2).bindU fun _ _ =>
      (arr_wr _ _ a1).bindU fun _ _ => (arr_wr _ _ a3).bindU fun _ _ => RM.pure rfl
  · rfl

/-! ## Materials -/

theorem sumL_foldl (l : List ℝ) (a : ℝ) : (l.map fin).foldl (· + ·) (fin a) = fin (l.foldl (· + ·) a) := by
  induction l generalizing a with
  | nil => rfl
  | cons x l ih => simp only [List.map_cons, List.foldl_cons, add_fin, ih]

theorem sumL_num (l : List ℝ) : sumL (l.map fin) = fin (sumL l) := sumL_foldl l 0

theorem sumL_nonneg {l : List ℝ} (h : ∀ x ∈ l, 0 ≤ x) : 0 ≤ sumL l := by
  have : ∀ (l : List ℝ) (a : ℝ), 0 ≤ a → (∀ x ∈ l, 0 ≤ x) → 0 ≤ l.foldl (· + ·) a := by
    intro l
    induction l with
    | nil => intro a ha _; exact ha
    | cons x l ih => intro a ha hl; exact ih (a + x) (add_nonneg ha (hl x (by simp))) (fun y hy => hl y (by simp [hy]))
  exact this l 0 le_rfl h

section
variable {dt : ℝ} (hdt : 0 < dt)
include hdt

theorem simple_Ca {m : Simple ℝ} (h : 0 < m.eps ∧ 0 ≤ m.conduc) : (finSimple m).Ca (fin dt) = fin (m.Ca dt) := by
  have h1 : (2 : ℝ) * m.eps ≠ 0 := by have := h.1; positivity
  have h2 : 1 + m.conduc * dt / (2 * m.eps) ≠ 0 := by obtain ⟨_, _⟩ := h; positivity
  simp only [Simple.Ca, finSimple, ofInt_fin, one_fin, mul_fin, sub_fin, add_fin, Int.cast_ofNat, div_fin h1, div_fin h2, ofInt_real]

theorem simple_Cb {m : Simple ℝ} (h : 0 < m.eps ∧ 0 ≤ m.conduc) : (finSimple m).Cb (fin dt) = fin (m.Cb dt) := by
  have h1 : (2 : ℝ) * m.eps ≠ 0 := by have := h.1; positivity
  have h2 : 1 + m.conduc * dt / (2 * m.eps) ≠ 0 := by obtain ⟨_, _⟩ := h; positivity
  simp only [Simple.Cb, finSimple, ofInt_fin, one_fin, mul_fin, sub_fin, add_fin, Int.cast_ofNat, div_fin h1, div_fin h2, div_fin h.1.ne',
    ofInt_real]

theorem debye_beta {p : DebyePole ℝ} (h : 0 < p.tau) : (⟨fin p.dEps, fin p.tau⟩ : DebyePole Xr).beta (fin dt) = fin (p.beta dt) := by
  have h1 : (2 : ℝ) * p.tau ≠ 0 := by positivity
  have h2 : 1 + dt / (2 * p.tau) ≠ 0 := by positivity
  simp only [DebyePole.beta, ofInt_fin, one_fin, mul_fin, sub_fin, add_fin, Int.cast_ofNat, div_fin h1, div_fin h2, div_fin h.ne',
    ofInt_real]

theorem debye_kappa {p : DebyePole ℝ} (h : 0 < p.tau) : (⟨fin p.dEps, fin p.tau⟩ : DebyePole Xr).kappa (fin dt) = fin (p.kappa dt) := by
  have h1 : (2 : ℝ) * p.tau ≠ 0 := by positivity
  have h2 : 1 + dt / (2 * p.tau) ≠ 0 := by positivity
  simp only [DebyePole.kappa, ofInt_fin, one_fin, mul_fin, sub_fin, add_fin, Int.cast_ofNat, div_fin h1, div_fin h2, div_fin h.ne',
    ofInt_real]

theorem debye_betas {m : Debye ℝ} (h : ∀ p ∈ m.poles, 0 ≤ p.dEps ∧ 0 < p.tau) :
    (finDebye m).poles.map (·.beta (fin dt)) = (m.poles.map (·.beta dt)).map fin := by
  simp only [finDebye, List.map_map]
  exact List.map_congr_left fun p hp => debye_beta hdt (h p hp).2

theorem debye_kappas {m : Debye ℝ} (h : ∀ p ∈ m.poles, 0 ≤ p.dEps ∧ 0 < p.tau) :
    (finDebye m).poles.map (·.kappa (fin dt)) = (m.poles.map (·.kappa dt)).map fin := by
  simp only [finDebye, List.map_map]
  exact List.map_congr_left fun p hp => debye_kappa hdt (h p hp).2

theorem debye_Cb {m : Debye ℝ} (h : SoundKind (.debye m)) : (finDebye m).Cb (fin dt) = fin (m.Cb dt) := by
  have h1 : 0 ≤ sumL (m.poles.map (·.beta dt)) := sumL_nonneg (by
    simp only [List.mem_map]
    rintro x ⟨p, hp, rfl⟩
    obtain ⟨h2, h3⟩ := h.2 p hp
    simp only [DebyePole.beta, ofInt_real]
    positivity)
  have h2 : 2 * m.epsInf + sumL (m.poles.map (·.beta dt)) ≠ 0 := by have := h.1; positivity
  have e : (finDebye m).epsInf = fin m.epsInf := rfl
  simp only [Debye.Cb, debye_betas hdt h.2, sumL_num, e, ofInt_fin, mul_fin, add_fin, Int.cast_ofNat, div_fin h2, ofInt_real]

theorem drude_beta {p : DrudePole ℝ} (h : 0 ≤ p.gamma) : (⟨fin p.omega, fin p.gamma⟩ : DrudePole Xr).beta (fin dt) = fin (p.beta dt) := by
  have h2 : 1 + p.gamma * dt / 2 ≠ 0 := by positivity
  simp only [DrudePole.beta, ofInt_fin, one_fin, mul_fin, sub_fin, add_fin, npow_fin, Int.cast_ofNat, div_fin (two_ne_zero (α := ℝ)),
    div_fin h2, ofInt_real, npow_real]

theorem drude_kappa {p : DrudePole ℝ} (h : 0 ≤ p.gamma) : (⟨fin p.omega, fin p.gamma⟩ : DrudePole Xr).kappa (fin dt) = fin (p.kappa dt) := by
  have h2 : 1 + p.gamma * dt / 2 ≠ 0 := by positivity
  simp only [DrudePole.kappa, ofInt_fin, one_fin, mul_fin, sub_fin, add_fin, npow_fin, Int.cast_ofNat, div_fin (two_ne_zero (α := ℝ)),
    div_fin h2, ofInt_real, npow_real]

theorem drude_betas {m : Drude ℝ} (h : ∀ p ∈ m.poles, 0 ≤ p.gamma) :
    (finDrude m).poles.map (·.beta (fin dt)) = (m.poles.map (·.beta dt)).map fin := by
  simp only [finDrude, List.map_map]
  exact List.map_congr_left fun p hp => drude_beta hdt (h p hp)

theorem drude_kappas {m : Drude ℝ} (h : ∀ p ∈ m.poles, 0 ≤ p.gamma) :
    (finDrude m).poles.map (·.kappa (fin dt)) = (m.poles.map (·.kappa dt)).map fin := by
  simp only [finDrude, List.map_map]
  exact List.map_congr_left fun p hp => drude_kappa hdt (h p hp)

theorem drude_den {m : Drude ℝ} (h : SoundKind (.drude m)) : 2 * m.epsInf + dt * sumL (m.poles.map (·.beta dt)) ≠ 0 := by
  have h1 : 0 ≤ sumL (m.poles.map (·.beta dt)) := sumL_nonneg (by
    simp only [List.mem_map]
    rintro x ⟨p, hp, rfl⟩
    have h2 := h.2 p hp
    simp only [DrudePole.beta, ofInt_real, npow_real, Int.cast_ofNat]
    positivity)
  have := h.1
  positivity

theorem drude_Cb {m : Drude ℝ} (h : SoundKind (.drude m)) : (finDrude m).Cb (fin dt) = fin (m.Cb dt) := by
  have e : (finDrude m).epsInf = fin m.epsInf := rfl
  simp only [Drude.Cb, drude_betas hdt h.2, sumL_num, e, ofInt_fin, mul_fin, add_fin, Int.cast_ofNat, div_fin (drude_den hdt h), ofInt_real]

theorem drude_Ca {m : Drude ℝ} (h : SoundKind (.drude m)) : (finDrude m).Ca (fin dt) = fin (m.Ca dt) := by
  have e : (finDrude m).epsInf = fin m.epsInf := rfl
  simp only [Drude.Ca, drude_betas hdt h.2, sumL_num, e, ofInt_fin, mul_fin, sub_fin, add_fin, Int.cast_ofNat, div_fin (drude_den hdt h),
    ofInt_real]

theorem lorentz_pole {p : LorentzPole ℝ} (h : 0 ≤ p.gamma) :
    (⟨fin p.omega, fin p.dEps, fin p.gamma⟩ : LorentzPole Xr).alpha (fin dt) = fin (p.alpha dt) ∧
    (⟨fin p.omega, fin p.dEps, fin p.gamma⟩ : LorentzPole Xr).beta (fin dt) = fin (p.beta dt) ∧
    (⟨fin p.omega, fin p.dEps, fin p.gamma⟩ : LorentzPole Xr).delta (fin dt) = fin (p.delta dt) := by
  have h1 : 1 + p.gamma * dt ≠ 0 := by positivity
  have h2 : p.gamma * dt + 1 ≠ 0 := by positivity
  refine ⟨?_, ?_, ?_⟩ <;>
    simp only [LorentzPole.alpha, LorentzPole.beta, LorentzPole.delta, ofInt_fin, one_fin, mul_fin, sub_fin, add_fin, npow_fin,
      Int.cast_ofNat, div_fin h1, div_fin h2, ofInt_real, npow_real]

theorem lorentz_alphas {m : Lorentz ℝ} (h : ∀ p ∈ m.poles, 0 ≤ p.dEps ∧ 0 ≤ p.gamma) :
    (finLorentz m).poles.map (·.alpha (fin dt)) = (m.poles.map (·.alpha dt)).map fin := by
  simp only [finLorentz, List.map_map]
  exact List.map_congr_left fun p hp => (lorentz_pole hdt (h p hp).2).1

theorem lorentz_betas {m : Lorentz ℝ} (h : ∀ p ∈ m.poles, 0 ≤ p.dEps ∧ 0 ≤ p.gamma) :
    (finLorentz m).poles.map (·.beta (fin dt)) = (m.poles.map (·.beta dt)).map fin := by
  simp only [finLorentz, List.map_map]
  exact List.map_congr_left fun p hp => (lorentz_pole hdt (h p hp).2).2.1

theorem lorentz_deltas {m : Lorentz ℝ} (h : ∀ p ∈ m.poles, 0 ≤ p.dEps ∧ 0 ≤ p.gamma) :
    (finLorentz m).poles.map (·.delta (fin dt)) = (m.poles.map (·.delta dt)).map fin := by
  simp only [finLorentz, List.map_map]
  exact List.map_congr_left fun p hp => (lorentz_pole hdt (h p hp).2).2.2

theorem lorentz_sum {m : Lorentz ℝ} (h : SoundKind (.lorentz m)) : 0 ≤ sumL (m.poles.map (·.delta dt)) := sumL_nonneg (by
    simp only [List.mem_map]
    rintro x ⟨p, hp, rfl⟩
    obtain ⟨h2, h3⟩ := h.2 p hp
    simp only [LorentzPole.delta, ofInt_real, npow_real]
    positivity)

theorem lorentz_coef {m : Lorentz ℝ} (h : SoundKind (.lorentz m)) : (finLorentz m).Ca (fin dt) = fin (m.Ca dt) ∧
    (finLorentz m).Cb (fin dt) = fin (m.Cb dt) ∧ (finLorentz m).CaPrev (fin dt) = fin (m.CaPrev dt) := by
  have h1 := lorentz_sum hdt h
  have h0 := h.1
  have h2 : 2 * m.epsInf + sumL (m.poles.map (·.delta dt)) / 2 ≠ 0 := by positivity
  have h3 : 2 * m.epsInf + sumL (m.poles.map (·.delta dt)) ≠ 0 := by positivity
  have e : (finLorentz m).epsInf = fin m.epsInf := rfl
  refine ⟨?_, ?_, ?_⟩ <;>
    simp only [Lorentz.Ca, Lorentz.Cb, Lorentz.CaPrev, lorentz_deltas hdt h.2, sumL_num, e, ofInt_fin, mul_fin, sub_fin, add_fin,
      Int.cast_ofNat, div_fin (two_ne_zero (α := ℝ)), div_fin h2, div_fin h3, ofInt_real]

theorem kind_num {k : MatKind ℝ} (h : SoundKind k) : (finKind k).Ca (fin dt) = fin (k.Ca dt) ∧
    (finKind k).Cb (fin dt) = fin (k.Cb dt) ∧ (finKind k).Da (fin dt) = fin (k.Da dt) ∧ (finKind k).Db (fin dt) = fin (k.Db dt) := by
  cases k with
  | simple m => exact ⟨simple_Ca hdt h, simple_Cb hdt h, rfl, rfl⟩
  | debye m => exact ⟨rfl, debye_Cb hdt h, rfl, rfl⟩
  | drude m => exact ⟨drude_Ca hdt h, drude_Cb hdt h, rfl, rfl⟩
  | lorentz m => exact ⟨(lorentz_coef hdt h).1, (lorentz_coef hdt h).2.1, rfl, rfl⟩

theorem setMat_num {k : MatKind ℝ} (h : SoundKind k) (i j : ℤ) (f : Flds ℝ) :
    RM (U flds) (setMat (finKind k) (fin dt) i j (flds f)) (setMat k dt i j f) := by
  obtain ⟨h1, h2, h3, h4⟩ := kind_num hdt h
  exact (ten_wr _ _ _ h1).bindU fun _ _ => (ten_wr _ _ _ h2).bindU fun _ _ => (ten_wr _ _ _ h3).bindU fun _ _ =>
    (ten_wr _ _ _ h4).bindU fun _ _ => RM.pure rfl

end

theorem vacuum_num : (.simple vacuum : MatKind Xr) = finKind (.simple vacuum) := rfl

theorem clearMaterials_num {g : Grid ℝ} (hdt : 0 < g.dt) (f : Flds ℝ) :
    RM (U flds) (clearMaterials (grid g) (flds f)) (clearMaterials g f) := by
  refine RM.forRange ?_ rfl
  rintro i _ _ _ s rfl
  refine RM.forRange ?_ rfl
  rintro j _ _ _ s rfl
  rw [vacuum_num]
  exact setMat_num hdt (k := .simple vacuum) ⟨by norm_num [vacuum], by norm_num [vacuum]⟩ i j s

/-! ## Objects -/

theorem toReal_num (g : Grid ℝ) (p : V2 ℤ) : (grid g).toReal p = finV (g.toReal p) := rfl

theorem toGrid_num {g : Grid ℝ} (hd : g.dx ≠ 0) (p : V2 ℝ) : (grid g).toGrid (finV p) = g.toGrid p := by
  have e : (grid g).dx = fin g.dx := rfl
  simp only [Grid.toGrid, finV, e, div_fin hd, roundI_fin, roundI_real]

theorem objBox_num {g : Grid ℝ} (hd : g.dx ≠ 0) {o' : Object Xr} {o : Object ℝ} (h : FinObj o' o) : objBox (grid g) o' = objBox g o := by
  unfold objBox
  have e : (grid g).clipI = g.clipI := rfl
  rw [e]
  congr 1
  have hb := h.bbox
  unfold Grid.toGridV
  rcases h1 : o.bbox with _ | b <;> rcases h2 : o'.bbox with _ | b' <;> rw [h1, h2] at hb <;> cases hb
  · have ea : (grid g).domain.a = finV g.domain.a := rfl
    have eb : (grid g).domain.b = finV g.domain.b := rfl
    simp only [Option.getD_none, ea, eb, toGrid_num hd]
  · rename_i hb
    simp only [Option.getD_some, hb.1, hb.2, toGrid_num hd]

theorem paintObject_num {g : Grid ℝ} (hl : Lawful g) {o' : Object Xr} {o : Object ℝ} (h : FinObj o' o) (hs : SoundKind o.mat.kind)
    (f : Flds ℝ) : RM (U flds) (paintObject (grid g) o' (flds f)) (paintObject g o f) := by
  have hdt : 0 < g.dt := by rw [hl.dt]; have := hl.dx; positivity
  unfold paintObject
  rw [objBox_num hl.dx.ne' h, h.kind]
  refine RM.forRange ?_ rfl
  rintro i _ _ _ s rfl
  refine RM.forRange ?_ rfl
  rintro j _ _ _ s rfl
  rw [toReal_num, h.inside]
  split_ifs
  · exact setMat_num hdt hs i j s
  · exact RM.ok rfl

def debyePol (P : DebyePol ℝ) : DebyePol Xr := ⟨finDebye P.mat, P.np, ten3 P.J, ten3 P.beta⟩
def drudePol (P : DrudePol ℝ) : DrudePol Xr := ⟨finDrude P.mat, P.np, ten3 P.J, ten3 P.beta⟩
def lorentzPol (P : LorentzPol ℝ) : LorentzPol Xr := ⟨finLorentz P.mat, P.np, ten3 P.J, ten3 P.delta, ten3 P.prevJ⟩

theorem debyePol_make (g : Grid ℝ) (m : Debye ℝ) : DebyePol.make (grid g) (finDebye m) = debyePol (DebyePol.make g m) := by
  unfold DebyePol.make debyePol
  simp only [finDebye, List.length_map]
  rfl
theorem drudePol_make (g : Grid ℝ) (m : Drude ℝ) : DrudePol.make (grid g) (finDrude m) = drudePol (DrudePol.make g m) := by
  unfold DrudePol.make drudePol
  simp only [finDrude, List.length_map]
  rfl
theorem lorentzPol_make (g : Grid ℝ) (m : Lorentz ℝ) : LorentzPol.make (grid g) (finLorentz m) = lorentzPol (LorentzPol.make g m) := by
  unfold LorentzPol.make lorentzPol
  simp only [finLorentz, List.length_map]
  rfl

theorem insertLoop_num (g : Grid ℝ) (np : ℤ) (vals : Arr ℝ) {o' : Object Xr} {o : Object ℝ} (h : FinObj o' o) (b : Tensor3 ℝ) :
    RM (U ten3) (insertLoop (grid g) np (arr vals) o' (ten3 b)) (insertLoop g np vals o b) := by
  refine RM.forRange ?_ rfl
  rintro i _ _ _ s rfl
  refine RM.forRange ?_ rfl
  rintro j _ _ _ s rfl
  rw [toReal_num, h.inside]
  split_ifs
  · refine RM.forRange ?_ rfl
    rintro N _ _ _ s rfl
    exact (arr_rd ..).bindU fun _ _ => ten3_wr _ _ _ _ rfl
  · exact RM.ok rfl

theorem debyeInsert_num {g : Grid ℝ} (hdt : 0 < g.dt) {P : DebyePol ℝ} (hP : SoundKind (.debye P.mat)) {o' : Object Xr} {o : Object ℝ}
    (h : FinObj o' o) : RM (U debyePol) ((debyePol P).insert (grid g) o') (P.insert g o) := by
  unfold DebyePol.insert
  have e : Arr.ofList ((debyePol P).mat.poles.map (·.beta (grid g).dt)) = arr (Arr.ofList (P.mat.poles.map (·.beta g.dt))) := by
    rw [← ofList_fin]
    exact congrArg _ (debye_betas hdt hP.2)
  rw [e]
  exact (insertLoop_num g P.np _ h P.beta).bindU fun _ _ => RM.pure rfl

theorem drudeInsert_num {g : Grid ℝ} (hdt : 0 < g.dt) {P : DrudePol ℝ} (hP : SoundKind (.drude P.mat)) {o' : Object Xr} {o : Object ℝ}
    (h : FinObj o' o) : RM (U drudePol) ((drudePol P).insert (grid g) o') (P.insert g o) := by
  unfold DrudePol.insert
  have e : Arr.ofList ((drudePol P).mat.poles.map (·.beta (grid g).dt)) = arr (Arr.ofList (P.mat.poles.map (·.beta g.dt))) := by
    rw [← ofList_fin]
    exact congrArg _ (drude_betas hdt hP.2)
  rw [e]
  exact (insertLoop_num g P.np _ h P.beta).bindU fun _ _ => RM.pure rfl

theorem lorentzInsert_num {g : Grid ℝ} (hdt : 0 < g.dt) {P : LorentzPol ℝ} (hP : SoundKind (.lorentz P.mat)) {o' : Object Xr}
    {o : Object ℝ} (h : FinObj o' o) : RM (U lorentzPol) ((lorentzPol P).insert (grid g) o') (P.insert g o) := by
  unfold LorentzPol.insert
  have e : Arr.ofList ((lorentzPol P).mat.poles.map (·.delta (grid g).dt)) = arr (Arr.ofList (P.mat.poles.map (·.delta g.dt))) := by
    rw [← ofList_fin]
    exact congrArg _ (lorentz_deltas hdt hP.2)
  rw [e]
  exact (insertLoop_num g P.np _ h P.delta).bindU fun _ _ => RM.pure rfl

/-! ## Maps of polarizations -/

def pmap {P P' : Type} (u : P → P') (l : List (String × P)) : List (String × P') := l.map fun p => (p.1, u p.2)

section
variable {P P' : Type} (u : P → P')

theorem mapFind_pmap (n : String) (l : List (String × P)) : mapFind n (pmap u l) = (mapFind n l).map u := by
  induction l with
  | nil => rfl
  | cons p l ih =>
    obtain ⟨k, a⟩ := p
    simp only [pmap, List.map_cons, mapFind]
    split_ifs
    · rfl
    · exact ih

theorem mapInsert_pmap (n : String) (a : P) (l : List (String × P)) : mapInsert n (u a) (pmap u l) = pmap u (mapInsert n a l) := by
  induction l with
  | nil => rfl
  | cons p l ih =>
    obtain ⟨k, b⟩ := p
    simp only [pmap, List.map_cons, mapInsert] at ih ⊢
    split_ifs
    · rfl
    · simp only [List.map_cons]; rw [ih]

theorem mapSet_pmap (n : String) (a : P) (l : List (String × P)) : mapSet n (u a) (pmap u l) = pmap u (mapSet n a l) := by
  induction l with
  | nil => rfl
  | cons p l ih =>
    obtain ⟨k, b⟩ := p
    simp only [pmap, List.map_cons, mapSet] at ih ⊢
    split_ifs
    · rfl
    · simp only [List.map_cons]; rw [ih]

theorem addPol_num (name : String) (fresh : P) {ins' : P' → M P'} {ins : P → M P} (l : List (String × P)) (Q : P → Prop)
    (hf : Q fresh) (hl : ∀ p ∈ l, Q p.2) (hi : ∀ p, Q p → RM (U u) (ins' (u p)) (ins p)) :
    RM (U (pmap u)) (addPol name (u fresh) ins' (pmap u l)) (addPol name fresh ins l) := by
  unfold addPol
  rw [mapFind_pmap]
  cases h : mapFind name l with
  | none => exact (hi fresh hf).bindU fun p _ => RM.pure (mapInsert_pmap u name p l)
  | some p => exact (hi p (hl _ (mapFind_mem h))).bindU fun q _ => RM.pure (mapSet_pmap u name q l)

end

end Num

end Qbox
