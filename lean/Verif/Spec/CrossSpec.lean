import Verif.Spec.ScatterSpec
import Verif.Spec.SpectraWaveSpec

/-!
# The energy of an incident wave
-/

namespace Qbox.Spec
open Qbox

/-- The energy of frequency `f` that a plane wave with the signal `s` carries through a unit of length across its direction up to time `T`. In these units the electric and the
magnetic field of the wave are the same. -/
noncomputable def planeFlow (s : ℝ → ℝ) (f T : ℝ) : ℝ := ‖spectrum s f T‖ ^ 2

/-- The error of the spectra of the incident wave that the region records in `n` steps: that of the fields, and terms of first order for the place where it records and for the sums. -/
noncomputable def incidentSpectrumError (g : Grid ℝ) (R Ms : ℝ) (n : ℕ) (f : ℝ) : ℝ :=
  n * g.dt * (incidentErrorX Ms g.dt n (R + 1) + g.dt * (3 * (Ms * (n * g.dt)) + 2 * Real.pi * |f| * (Ms * (n * g.dt) ^ 2)))

/-- The error of the energy. -/
noncomputable def incidentFlowError (g : Grid ℝ) (R Ms : ℝ) (n : ℕ) (f : ℝ) : ℝ :=
  incidentSpectrumError g R Ms n f * (2 * (Ms * (n * g.dt) ^ 3) + incidentSpectrumError g R Ms n f)

end Qbox.Spec
