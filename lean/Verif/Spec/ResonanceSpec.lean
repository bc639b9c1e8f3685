import Verif.Spec.EnergySpec
import Mathlib.Analysis.SpecialFunctions.Trigonometric.Inverse

/-!
# Resonances of a rectangular box

The box has conducting walls (no tangential electric field) at the right and the upper edge and magnetic walls (no tangential magnetic field) half a cell
inside the left and the lower edge, and is filled with a dielectric of permittivity `e`. Units in which the speed of light is one.
-/

namespace Qbox.Spec
open Qbox

/-- Wave number of the `p`-th standing wave between a magnetic and a conducting wall at distance `d`. -/
noncomputable def waveNumber (d : ℝ) (p : ℕ) : ℝ := (p + 1 / 2) * Real.pi / d

/-- Wave numbers of the box of the grid. -/
noncomputable def boxX (g : Grid ℝ) (p : ℕ) : ℝ := waveNumber (g.Lx - g.dx / 2) p
noncomputable def boxY (g : Grid ℝ) (q : ℕ) : ℝ := waveNumber (g.Ly - g.dx / 2) q

/-- The angular frequency of the standing wave by Maxwell's equations. -/
noncomputable def trueTone (g : Grid ℝ) (e : ℝ) (p q : ℕ) : ℝ := Real.sqrt (boxX g p ^ 2 + boxY g q ^ 2) / Real.sqrt e

/-- The angular frequency of the standing wave on the grid:
`e sin²(ω dt / 2) / dt² = (sin²(kx dx / 2) + sin²(ky dx / 2)) / dx²`. -/
noncomputable def gridTone (g : Grid ℝ) (e : ℝ) (p q : ℕ) : ℝ :=
  2 / g.dt * Real.arcsin (g.dt / (g.dx * Real.sqrt e) * Real.sqrt (Real.sin (boxX g p * g.dx / 2) ^ 2 + Real.sin (boxY g q * g.dx / 2) ^ 2))

/-- The electric field of the standing wave at a place. -/
noncomputable def boxWave (g : Grid ℝ) (p q : ℕ) (x y : ℝ) : ℝ := Real.cos (boxX g p * (x - g.dx / 2)) * Real.cos (boxY g q * (y - g.dx / 2))

/-- The lowest resonance of a box of the size of the domain with four conducting walls. -/
noncomputable def metalTone (g : Grid ℝ) : ℝ := Real.pi * Real.sqrt (1 / g.Lx ^ 2 + 1 / g.Ly ^ 2)

end Qbox.Spec
