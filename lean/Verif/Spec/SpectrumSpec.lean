import Verif.Spec.RecordSpec
import Verif.Spec.FluxSpec
import Mathlib.Analysis.SpecialFunctions.Trigonometric.Basic

/-!
# Spectra of recorded signals
-/

namespace Qbox.Spec
open Qbox

/-- Fourier sum `∑ v(t) exp(2πi f t)` of the signal `x` at the point `i`. -/
noncomputable def fourierSum (f : ℝ) (x : String) (i : ℤ) (l : List (Sample ℝ ℤ)) : ℂ :=
  (l.map fun s => (s.v x i : ℂ) * Complex.exp (2 * Real.pi * f * s.t * Complex.I)).sum

/-- The field at the point `i` and frequency `f` obtained from the signals `Ez`, `Hx`, `Hy`. -/
noncomputable def phasors (f : ℝ) (i : ℤ) (l : List (Sample ℝ ℤ)) : TM :=
  ⟨fourierSum f "Ez" i l, fourierSum f "Hx" i l, fourierSum f "Hy" i l⟩

end Qbox.Spec
