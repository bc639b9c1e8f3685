import Verif.Spec.EnergySpec
import Verif.Spec.SourceSpec
import Verif.Props.SourceProps

/-!
# Pulses, and simulations driven by sources
-/

namespace Qbox.Spec
open Qbox

/-- A sine of frequency `f` under a Gaussian envelope of width `1 / sig` around `T0`. -/
noncomputable def pulse (f sig T0 t : ℝ) : ℝ := Real.sin (2 * Real.pi * f * t) * Real.exp (-(2 * Real.pi * sig * (t - T0)) ^ 2)

/-- The sum of the sizes of the signals at time `t`. -/
noncomputable def loudness (srcs : List (Source ℝ)) (t : ℝ) : ℝ := (srcs.map fun s => |s.tp.resp t|).sum

/-- Everything the sources emit during the first `n` updates after time `t`. -/
noncomputable def emittedBy (srcs : List (Source ℝ)) (t dt : ℝ) (n : ℕ) : ℝ :=
  ∑ m ∈ Finset.range n, loudness srcs (t + ((m : ℝ) + 1) * dt)

/-- The source drives nodes of the rectangle only. -/
def DrivesIn (g : Grid ℝ) (R : Box) (s : Source ℝ) : Prop := ∀ C i j, Drives g s C ⟨i, j⟩ → R.Mem i j

/-- The number of nodes of a rectangle. -/
noncomputable def Box.count (R : Box) : ℝ := R.sum fun _ _ => 1

/-- How much a source can do in one step, at most. -/
noncomputable def gain (g : Grid ℝ) (R : Box) (epsMax : ℝ) : ℝ := Real.sqrt (g.dx ^ 2 * R.count * ((epsMax + 4) / 2))

end Qbox.Spec
