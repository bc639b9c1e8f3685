import Verif.Spec.DrivenWaveSpec
import Verif.Spec.DispersiveSpec

/-!
# Maxwell's equations in media with memory

The polarization current `K` of a medium follows the field with a delay: in a Debye medium `tau ∂K/∂t + K = dEps ∂E/∂t`, in a Drude medium
`∂K/∂t + gamma K = omega² E`.
-/

namespace Qbox.Spec
open Qbox

/-- The part of the response of a medium that comes with a delay. -/
inductive Response
  | plain
  | debye (dEps tau : ℝ)
  | drude (gamma omega : ℝ)

/-- The medium gives off no energy of its own. -/
def Response.Passive : Response → Prop
  | .plain => True
  | .debye dEps tau => 0 < dEps ∧ 0 < tau
  | .drude gamma omega => 0 ≤ gamma ∧ omega ≠ 0

/-- How the polarization current `K` follows the field. `Et` and `Kt` are rates of change. -/
def Response.Law (E Et K Kt : ℝ) : Response → Prop
  | .plain => K = 0
  | .debye dEps tau => tau * Kt + K = dEps * Et
  | .drude gamma omega => Kt + gamma * K = omega ^ 2 * E

/-- The size of the coefficients of the law, in the unit in which its energy is measured. -/
noncomputable def Response.stiff : Response → ℝ
  | .plain => 0
  | .debye dEps tau => (tau + 1 + dEps) / Real.sqrt dEps
  | .drude gamma omega => (1 + gamma + omega ^ 2) / |omega|

/-- Permittivity without delay, conductivity and delayed response of a material of at most one Debye or Drude pole. -/
inductive KindIs : MatKind ℝ → ℝ → ℝ → Response → Prop
  | simple (m) : KindIs (.simple m) m.eps m.conduc .plain
  | debye0 (e) : KindIs (.debye ⟨e, []⟩) e 0 .plain
  | debye (e p) : KindIs (.debye ⟨e, [p]⟩) e 0 (.debye p.dEps p.tau)
  | drude0 (e) : KindIs (.drude ⟨e, []⟩) e 0 .plain
  | drude (e p) : KindIs (.drude ⟨e, [p]⟩) e 0 (.drude p.gamma p.omega)

/-- `eps`, `sig` and `res` describe the topmost object at every point, and the vacuum where there is none. -/
structure MatterOf (objs : List (Object ℝ)) (eps sig : ℝ → ℝ → ℝ) (res : ℝ → ℝ → Response) : Prop where
  object : ∀ p o, TopAt objs p o → KindIs o.mat.kind (eps p.x p.y) (sig p.x p.y) (res p.x p.y)
  vacuum : ∀ p : V2 ℝ, (∀ o ∈ objs, o.inside p = false) → eps p.x p.y = 1 ∧ sig p.x p.y = 0 ∧ res p.x p.y = .plain

/-- Bounds for the materials. -/
structure MatterAtMost (eps sig : ℝ → ℝ → ℝ) (res : ℝ → ℝ → Response) (epsMax sigMax q : ℝ) : Prop where
  eps : ∀ x y, eps x y ≤ epsMax
  sig : ∀ x y, sig x y ≤ sigMax
  res : ∀ x y, (res x y).stiff ≤ q

/-- `K`, with rate of change `Kt`, is the polarization current that belongs to the field, smooth in the part `S` of the domain and bounded everywhere. -/
structure Wave.Polarized (w : Wave) (K Kt : ℝ → ℝ → ℝ → ℝ) (S : ℝ → ℝ → Prop) (res : ℝ → ℝ → Response) (g : Grid ℝ) (τ M : ℝ) : Prop where
  law : ∀ t x y, 0 ≤ t → t ≤ τ → InDomain g x y → S x y → (res x y).Law (w.E t x y) (w.Et t x y) (K t x y) (Kt t x y)
  tame : ∀ x y, InDomain g x y → S x y → Tame (fun t => K t x y) (fun t => Kt t x y) 0 τ M
  atMost : CurrentAtMost K g τ M
  steady : ∀ t t' x y, 0 ≤ t → t ≤ t' → t' ≤ τ → InDomain g x y → |K t' x y - K t x y| ≤ M * (t' - t)

/-- The sources add nothing to the field in media with memory. -/
def OutsideMemory (g : Grid ℝ) (objs : List (Object ℝ)) (srcs : List (Source ℝ)) : Prop :=
  ∀ t i j o, TopAt objs (g.toReal ⟨i, j⟩) o → MatKind.Delayed o.mat.kind → addedE g srcs t i j = 0

/-- What the size of the cells and the sources contribute to the error per unit of time. -/
noncomputable def polarError (S : ℝ → ℝ → Prop) (g : Grid ℝ) (M epsMax sigMax q δ : ℝ) : ℝ :=
  Real.sqrt (16 * (epsMax + 2) * (g.Lx * g.Ly * ((epsMax + sigMax + q + 9) / 16 * M * g.dx ^ 2 + δ) ^ 2 +
    crossedArea S g ⟨1, g.Nx - 2, 1, g.Ny - 2⟩ * ((epsMax + sigMax + q + 4) * M + δ) ^ 2))

end Qbox.Spec
