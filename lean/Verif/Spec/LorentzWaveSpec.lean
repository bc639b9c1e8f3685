import Verif.Spec.PolarSpec

/-!
# Maxwell's equations with a Lorentz medium

The polarization `P` of the medium is that of a bound charge: `∂²P/∂t² + 2 gamma ∂P/∂t + omega² P = dEps omega² E`; its rate of change `K` is the
polarization current.
-/

namespace Qbox.Spec
open Qbox

/-- The values `v` inside the object and `f` elsewhere. -/
noncomputable def coated (o : Object ℝ) (v : ℝ) (f : ℝ → ℝ → ℝ) (x y : ℝ) : ℝ := if o.inside ⟨x, y⟩ = true then v else f x y

/-- `P`, with first and second rate of change `K` and `Kt`, is the polarization that belongs to the field, smooth in the part `S` of the domain and bounded
everywhere; outside `inside` there is no polarization current. -/
structure Wave.Swinging (w : Wave) (P K Kt : ℝ → ℝ → ℝ → ℝ) (S inside : ℝ → ℝ → Prop) (p : LorentzPole ℝ) (g : Grid ℝ) (τ M : ℝ) : Prop where
  law : ∀ t x y, 0 ≤ t → t ≤ τ → InDomain g x y → S x y → inside x y → Kt t x y + 2 * p.gamma * K t x y + p.omega ^ 2 * P t x y = p.dEps * p.omega ^ 2 * w.E t x y
  free : ∀ t x y, 0 ≤ t → t ≤ τ → InDomain g x y → ¬ inside x y → K t x y = 0
  tameP : ∀ x y, InDomain g x y → S x y → Tame (fun t => P t x y) (fun t => K t x y) 0 τ M
  tameK : ∀ x y, InDomain g x y → S x y → Tame (fun t => K t x y) (fun t => Kt t x y) 0 τ M
  atMostP : CurrentAtMost P g τ M
  atMostK : CurrentAtMost K g τ M
  steadyP : ∀ t t' x y, 0 ≤ t → t ≤ t' → t' ≤ τ → InDomain g x y → |P t' x y - P t x y| ≤ M * (t' - t)
  steadyK : ∀ t t' x y, 0 ≤ t → t ≤ t' → t' ≤ τ → InDomain g x y → |K t' x y - K t x y| ≤ M * (t' - t)

/-- The size of the coefficients of the law, in the unit in which its energy is measured. -/
noncomputable def swingStiff (p : LorentzPole ℝ) : ℝ :=
  (1 + 2 * p.gamma + p.dEps * p.omega ^ 2 + p.omega ^ 2) / (Real.sqrt p.dEps * |p.omega|)

/-- What the size of the cells and the sources contribute per unit of time. -/
noncomputable def swingNoise (S : ℝ → ℝ → Prop) (g : Grid ℝ) (M epsMax sigMax q δ : ℝ) : ℝ :=
  Real.sqrt (4 * (g.Lx * g.Ly * ((epsMax + sigMax + q + 9) / 16 * M * g.dx ^ 2 + δ) ^ 2 +
    crossedArea S g ⟨1, g.Nx - 2, 1, g.Ny - 2⟩ * ((epsMax + sigMax + q + 4) * M + δ) ^ 2))

/-- How much of the field before the last step is added to Ampère's law everywhere: of first order in the time step. -/
noncomputable def leakRate (p : LorentzPole ℝ) (epsMax sigMax dt : ℝ) : ℝ :=
  p.dEps * p.omega ^ 2 * dt * (epsMax + sigMax * dt + p.dEps * p.omega ^ 2 * dt ^ 2)

/-- The rate at which the fields alone may grow. -/
noncomputable def fieldRate (p : LorentzPole ℝ) (epsMax sigMax dt : ℝ) : ℝ :=
  2 * Real.sqrt ((epsMax + 2) / 2) * (3 * leakRate p epsMax sigMax dt + |p.omega|)

/-- The rate at which errors may grow. -/
noncomputable def swingRate (p : LorentzPole ℝ) (epsMax sigMax dt : ℝ) : ℝ :=
  fieldRate p epsMax sigMax dt + 2 * |p.omega| * (1 + fieldRate p epsMax sigMax dt * dt)

/-- What a program adds to the error per unit of time: the contribution of the cells and the sources, and the leak, which is of first order. -/
noncomputable def swingError (S : ℝ → ℝ → Prop) (g : Grid ℝ) (p : LorentzPole ℝ) (M epsMax sigMax δ : ℝ) : ℝ :=
  (1 + 2 * |p.omega| * g.dt) * (2 * Real.sqrt ((epsMax + 2) / 2) *
    (swingNoise S g M epsMax sigMax (swingStiff p) δ + leakRate p epsMax sigMax g.dt * (M * Real.sqrt (g.Lx * g.Ly)))) +
  swingNoise S g M epsMax sigMax (swingStiff p) δ / Real.sqrt p.dEps

/-- The difference at the start: the magnetic field and the polarization are half a step ahead. -/
noncomputable def swingStart (S : ℝ → ℝ → Prop) (g : Grid ℝ) (p : LorentzPole ℝ) (M epsMax : ℝ) : ℝ :=
  restError S g M epsMax + M * g.dx / 4 * Real.sqrt (g.Lx * g.Ly) / Real.sqrt p.dEps

end Qbox.Spec
