import Verif.Spec.FarFieldSpec

/-!
# Observation points on a circle
-/

namespace Qbox.Spec
open Qbox

/-- The point of the circle with centre `c` and radius `R` in the direction `φ`. -/
noncomputable def circlePoint (c : V2 ℝ) (R φ : ℝ) : V2 ℝ := ⟨c.x + R * Real.cos φ, c.y + R * Real.sin φ⟩

/-- `p` visits `N` different points of a circle, equally spaced and once around. -/
def AroundOnce (c : V2 ℝ) (R : ℝ) (N : ℕ) (p : ℕ → V2 ℝ) : Prop :=
  (∀ i < N, p i = circlePoint c R (2 * Real.pi * i / N)) ∧ ∀ i < N, ∀ k < N, p i = p k → i = k

end Qbox.Spec
