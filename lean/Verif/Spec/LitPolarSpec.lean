import Verif.Spec.PolarSpec
import Verif.Spec.ScatterSpec

/-!
# Scattering by media with memory

The polarization current of a medium follows the whole field, that of the incident and that of the scattered wave.
-/

namespace Qbox.Spec
open Qbox

/-- The electric field of the wave together with that of the incident plane wave. -/
noncomputable def Wave.illumined (w : Wave) (s : ℝ → ℝ) (y0 : ℝ) : Wave :=
  { w with E := fun t x y => w.E t x y + planeE s y0 t y, Et := fun t x y => w.Et t x y + planeEt s y0 t y }

/-- The signal and its derivative are at most `M` up to time `τ`. -/
def SignalAtMost (s : ℝ → ℝ) (τ M : ℝ) : Prop := ∀ t ≤ τ, |s t| ≤ M ∧ |deriv s t| ≤ M

end Qbox.Spec
