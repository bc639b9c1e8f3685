import Verif.Spec.WindowSpec
import Verif.Lemmas.StepReal
import Verif.Lemmas.Swap

/-!
# One step of two programs with the same scene
-/

namespace Qbox
open Scalar Spec

set_option linter.unusedSectionVars false
set_option linter.unusedSimpArgs false

/-- Not reached by the correction of the layer to `Ez`. -/
def FreeE (g : Grid ℝ) (i j : ℤ) : Prop := g.T = 0 ∨ (g.T < i ∧ i < g.Nx - 1 - g.T ∧ g.T < j ∧ j < g.Ny - 1 - g.T)
/-- Not reached by the correction of the layer to `Hx`, `Hy`. -/
def FreeH (g : Grid ℝ) (i j : ℤ) : Prop := g.T = 0 ∨ (g.T ≤ i ∧ i < g.Nx - 1 - g.T ∧ g.T ≤ j ∧ j < g.Ny - 1 - g.T)

theorem Pml.corrE_free {p : Pml ℝ} {g : Grid ℝ} (hx : p.Nx = g.Nx) (hy : p.Ny = g.Ny) (hT : p.par.T = g.T) (Hx Hy Cb : Tensor ℝ) {x y : ℤ}
    (h : FreeE g x y) : p.corrE Hx Hy Cb x y = 0 := by
  rcases h with h | ⟨h1, h2, h3, h4⟩
  · have e1 : ∀ z w a b, ¬ (z, w) ∈ rect a b 1 (p.par.T + 1) := fun z w a b => by rw [mem_rect]; simp only; omega
    have e2 : ∀ z w a b, ¬ (z, w) ∈ rect 1 (p.par.T + 1) a b := fun z w a b => by rw [mem_rect]; simp only; omega
    simp [Pml.corrE, e1, e2]
  · exact Pml.corrE_interior p Hx Hy Cb (by omega) (by omega) (by omega) (by omega)

theorem Pml.corrHx_free {p : Pml ℝ} {g : Grid ℝ} (hx : p.Nx = g.Nx) (hy : p.Ny = g.Ny) (hT : p.par.T = g.T) (Ez Db : Tensor ℝ) {x y : ℤ}
    (h : FreeH g x y) : p.corrHx Ez Db x y = 0 := by
  rcases h with h | ⟨h1, h2, h3, h4⟩
  · have e1 : ∀ z w a b, ¬ (z, w) ∈ rect a b 1 (p.par.T - 1 + 1) := fun z w a b => by rw [mem_rect]; simp only; omega
    simp only [Pml.corrHx, e1, if_false]; ring
  · exact Pml.corrHx_interior p Ez Db (by omega) (by omega)

theorem Pml.corrHy_free {p : Pml ℝ} {g : Grid ℝ} (hx : p.Nx = g.Nx) (hy : p.Ny = g.Ny) (hT : p.par.T = g.T) (Ez Db : Tensor ℝ) {x y : ℤ}
    (h : FreeH g x y) : p.corrHy Ez Db x y = 0 := by
  rcases h with h | ⟨h1, h2, h3, h4⟩
  · have e1 : ∀ z w a b, ¬ (z, w) ∈ rect 1 (p.par.T - 1 + 1) a b := fun z w a b => by rw [mem_rect]; simp only; omega
    simp only [Pml.corrHy, e1, if_false]; ring
  · exact Pml.corrHy_interior p Ez Db (by omega) (by omega)

namespace Spec.View
variable (v : View)

/-! ## coefficients -/

theorem sumL_div (l : List ℝ) (s : ℝ) : sumL (l.map fun x => x / s) = sumL l / s := by
  have : ∀ (l : List ℝ) (a : ℝ), (l.map fun x => x / s).foldl (· + ·) (a / s) = l.foldl (· + ·) a / s := by
    intro l
    induction l with
    | nil => intro a; rfl
    | cons x l ih => intro a; simp only [List.map_cons, List.foldl_cons]; rw [← add_div, ih]
  have h := this l 0
  rw [zero_div] at h
  exact h

variable {v} (hs : v.s ≠ 0) (dt : ℝ)
include hs

theorem simple_Ca (m : Simple ℝ) : (v.simple m).Ca (v.s * dt) = m.Ca dt := by
  simp only [simple, Simple.Ca]
  rw [show m.conduc / v.s * (v.s * dt) = m.conduc * dt by field_simp]
theorem simple_Cb (m : Simple ℝ) : (v.simple m).Cb (v.s * dt) = v.s * m.Cb dt := by
  simp only [simple, Simple.Cb]
  rw [show m.conduc / v.s * (v.s * dt) = m.conduc * dt by field_simp]
  ring

theorem debye_beta (p : DebyePole ℝ) : (⟨p.dEps, v.s * p.tau⟩ : DebyePole ℝ).beta (v.s * dt) = p.beta dt := by
  simp only [DebyePole.beta, ofInt_real]
  rw [show p.dEps * (v.s * dt) / (v.s * p.tau) = p.dEps * dt / p.tau by
      rw [show p.dEps * (v.s * dt) = v.s * (p.dEps * dt) by ring, mul_div_mul_left _ _ hs],
    show v.s * dt / (((2 : ℤ) : ℝ) * (v.s * p.tau)) = dt / (((2 : ℤ) : ℝ) * p.tau) by
      rw [show ((2 : ℤ) : ℝ) * (v.s * p.tau) = v.s * (((2 : ℤ) : ℝ) * p.tau) by ring, mul_div_mul_left _ _ hs]]
theorem debye_kappa (p : DebyePole ℝ) : (⟨p.dEps, v.s * p.tau⟩ : DebyePole ℝ).kappa (v.s * dt) = p.kappa dt := by
  simp only [DebyePole.kappa, ofInt_real]
  rw [show v.s * dt / (((2 : ℤ) : ℝ) * (v.s * p.tau)) = dt / (((2 : ℤ) : ℝ) * p.tau) by
      rw [show ((2 : ℤ) : ℝ) * (v.s * p.tau) = v.s * (((2 : ℤ) : ℝ) * p.tau) by ring, mul_div_mul_left _ _ hs]]
theorem debye_betas (m : Debye ℝ) : (v.debye m).poles.map (·.beta (v.s * dt)) = m.poles.map (·.beta dt) := by
  simp only [debye, List.map_map]
  exact List.map_congr_left fun p _ => debye_beta hs dt p
theorem debye_kappas (m : Debye ℝ) : (v.debye m).poles.map (·.kappa (v.s * dt)) = m.poles.map (·.kappa dt) := by
  simp only [debye, List.map_map]
  exact List.map_congr_left fun p _ => debye_kappa hs dt p
theorem debye_Cb (m : Debye ℝ) : (v.debye m).Cb (v.s * dt) = v.s * m.Cb dt := by
  unfold Debye.Cb
  rw [debye_betas hs]
  simp only [debye]
  ring

theorem drude_beta (p : DrudePole ℝ) : (⟨p.omega / v.s, p.gamma / v.s⟩ : DrudePole ℝ).beta (v.s * dt) = p.beta dt / v.s := by
  simp only [DrudePole.beta, ofInt_real, npow_real]
  rw [show p.gamma / v.s * (v.s * dt) = p.gamma * dt by field_simp,
    show (p.omega / v.s) ^ 2 * (v.s * dt) / ((2 : ℤ) : ℝ) = p.omega ^ 2 * dt / ((2 : ℤ) : ℝ) / v.s by field_simp]
  rw [div_right_comm]
theorem drude_kappa (p : DrudePole ℝ) : (⟨p.omega / v.s, p.gamma / v.s⟩ : DrudePole ℝ).kappa (v.s * dt) = p.kappa dt := by
  simp only [DrudePole.kappa]
  rw [show p.gamma / v.s * (v.s * dt) = p.gamma * dt by field_simp]
theorem drude_betas (m : Drude ℝ) : (v.drude m).poles.map (·.beta (v.s * dt)) = (m.poles.map (·.beta dt)).map fun x => x / v.s := by
  simp only [drude, List.map_map]
  exact List.map_congr_left fun p _ => drude_beta hs dt p
theorem drude_kappas (m : Drude ℝ) : (v.drude m).poles.map (·.kappa (v.s * dt)) = m.poles.map (·.kappa dt) := by
  simp only [drude, List.map_map]
  exact List.map_congr_left fun p _ => drude_kappa hs dt p
theorem drude_sum (m : Drude ℝ) : v.s * dt * sumL ((v.drude m).poles.map (·.beta (v.s * dt))) = dt * sumL (m.poles.map (·.beta dt)) := by
  rw [drude_betas hs, sumL_div]; field_simp
theorem drude_Ca (m : Drude ℝ) : (v.drude m).Ca (v.s * dt) = m.Ca dt := by
  unfold Drude.Ca
  rw [drude_sum hs]
  simp only [drude]
theorem drude_Cb (m : Drude ℝ) : (v.drude m).Cb (v.s * dt) = v.s * m.Cb dt := by
  unfold Drude.Cb
  rw [drude_sum hs]
  simp only [drude]
  ring

theorem lorentz_w (p : LorentzPole ℝ) : (p.omega / v.s) ^ 2 * (v.s * dt) ^ 2 = p.omega ^ 2 * dt ^ 2 := by field_simp
theorem lorentz_alpha (p : LorentzPole ℝ) :
    (⟨p.omega / v.s, p.dEps, p.gamma / v.s⟩ : LorentzPole ℝ).alpha (v.s * dt) = p.alpha dt := by
  simp only [LorentzPole.alpha, npow_real]
  rw [lorentz_w hs, show p.gamma / v.s * (v.s * dt) = p.gamma * dt by field_simp]
theorem lorentz_beta (p : LorentzPole ℝ) :
    (⟨p.omega / v.s, p.dEps, p.gamma / v.s⟩ : LorentzPole ℝ).beta (v.s * dt) = p.beta dt := by
  simp only [LorentzPole.beta]
  rw [show p.gamma / v.s * (v.s * dt) = p.gamma * dt by field_simp]
theorem lorentz_delta (p : LorentzPole ℝ) :
    (⟨p.omega / v.s, p.dEps, p.gamma / v.s⟩ : LorentzPole ℝ).delta (v.s * dt) = p.delta dt := by
  simp only [LorentzPole.delta, npow_real]
  rw [mul_assoc, lorentz_w hs, show p.gamma / v.s * (v.s * dt) = p.gamma * dt by field_simp, mul_assoc]
theorem lorentz_alphas (m : Lorentz ℝ) : (v.lorentz m).poles.map (·.alpha (v.s * dt)) = m.poles.map (·.alpha dt) := by
  simp only [lorentz, List.map_map]
  exact List.map_congr_left fun p _ => lorentz_alpha hs dt p
theorem lorentz_betas (m : Lorentz ℝ) : (v.lorentz m).poles.map (·.beta (v.s * dt)) = m.poles.map (·.beta dt) := by
  simp only [lorentz, List.map_map]
  exact List.map_congr_left fun p _ => lorentz_beta hs dt p
theorem lorentz_deltas (m : Lorentz ℝ) : (v.lorentz m).poles.map (·.delta (v.s * dt)) = m.poles.map (·.delta dt) := by
  simp only [lorentz, List.map_map]
  exact List.map_congr_left fun p _ => lorentz_delta hs dt p
theorem lorentz_Ca (m : Lorentz ℝ) : (v.lorentz m).Ca (v.s * dt) = m.Ca dt := by
  unfold Lorentz.Ca
  rw [lorentz_deltas hs]
  simp only [lorentz]
theorem lorentz_CaPrev (m : Lorentz ℝ) : (v.lorentz m).CaPrev (v.s * dt) = m.CaPrev dt := by
  unfold Lorentz.CaPrev
  rw [lorentz_deltas hs]
  simp only [lorentz]
theorem lorentz_Cb (m : Lorentz ℝ) : (v.lorentz m).Cb (v.s * dt) = v.s * m.Cb dt := by
  unfold Lorentz.Cb
  rw [lorentz_deltas hs]
  simp only [lorentz]
  ring

theorem kind_Ca (m : MatKind ℝ) : (v.kind m).Ca (v.s * dt) = m.Ca dt := by
  cases m with
  | simple m => exact simple_Ca hs dt m
  | debye m => rfl
  | drude m => exact drude_Ca hs dt m
  | lorentz m => exact lorentz_Ca hs dt m
theorem kind_Cb (m : MatKind ℝ) : (v.kind m).Cb (v.s * dt) = v.s * m.Cb dt := by
  cases m with
  | simple m => exact simple_Cb hs dt m
  | debye m => exact debye_Cb hs dt m
  | drude m => exact drude_Cb hs dt m
  | lorentz m => exact lorentz_Cb hs dt m
omit hs in
theorem kind_Da (m : MatKind ℝ) : (v.kind m).Da (v.s * dt) = m.Da dt := by cases m <;> rfl
omit hs in
theorem kind_Db (m : MatKind ℝ) : (v.kind m).Db (v.s * dt) = v.s * m.Db dt := by cases m <;> rfl

end Spec.View
end Qbox
