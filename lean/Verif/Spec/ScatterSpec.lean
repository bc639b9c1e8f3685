import Verif.Spec.IncidentSpec
import Verif.Spec.DrivenWaveSpec
import Mathlib.Analysis.Calculus.IteratedDeriv.Defs

/-!
# A plane wave and what it scatters

The incident wave travels in the direction of `y`: at time `t` and height `y` it is the signal at the time at which this part of the wave was at the entry.
-/

namespace Qbox.Spec
open Qbox

/-- A signal that is zero before time zero and has five continuous derivatives; those from the second on are at most `M`. -/
structure SmoothStart (s : ℝ → ℝ) (M : ℝ) : Prop where
  smooth : ContDiff ℝ 5 s
  before : ∀ t ≤ 0, s t = 0
  bound : ∀ k, 2 ≤ k → k ≤ 5 → ∀ t, |iteratedDeriv k s t| ≤ M

/-- The height at which the wave of a total-field region has the signal: two cells below its lower edge. -/
noncomputable def entry (g : Grid ℝ) (vol : Vol ℝ) : ℝ := ((g.toGrid vol.a).y - 2) * g.dx

/-- The incident plane wave and its derivative in time. -/
noncomputable def planeE (s : ℝ → ℝ) (y0 t y : ℝ) : ℝ := s (t - (y - y0))
noncomputable def planeEt (s : ℝ → ℝ) (y0 t y : ℝ) : ℝ := deriv s (t - (y - y0))

/-- The nodes of a region. -/
def InRegion (a b : V2 ℤ) (i j : ℤ) : Prop := a.x ≤ i ∧ i ≤ b.x ∧ a.y ≤ j ∧ j ≤ b.y

open Classical in
/-- The values of the incident wave that belong to node `(i, j)` after `n` steps. There is no incident wave outside the region. Its magnetic field is along
`x`, and is there if it is between two nodes of the region. -/
noncomputable def incidentE (g : Grid ℝ) (vol : Vol ℝ) (s : ℝ → ℝ) (n : ℕ) (i j : ℤ) : ℝ :=
  if InRegion (g.toGrid vol.a) (g.toGrid vol.b) i j then planeE s (entry g vol) (n * g.dt) (j * g.dx) else 0

open Classical in
noncomputable def incidentX (g : Grid ℝ) (vol : Vol ℝ) (s : ℝ → ℝ) (n : ℕ) (i j : ℤ) : ℝ :=
  if InRegion (g.toGrid vol.a) (g.toGrid vol.b) i j ∧ InRegion (g.toGrid vol.a) (g.toGrid vol.b) i (j + 1) then
    planeE s (entry g vol) ((n + 1 / 2) * g.dt) ((j + 1 / 2) * g.dx) else 0

/-- The number of rows of a region. -/
noncomputable def rows (g : Grid ℝ) (vol : Vol ℝ) : ℝ := ((g.toGrid vol.b).y - (g.toGrid vol.a).y + 1 : ℤ)

/-- The error of the electric field of the incident wave after `n` steps in a region of `R` rows, and that of its magnetic field. -/
noncomputable def incidentError (M dt : ℝ) (n : ℕ) (R : ℝ) : ℝ := 80 * n * ((R + 1) * (M * dt ^ 4))
noncomputable def incidentErrorX (M dt : ℝ) (n : ℕ) (R : ℝ) : ℝ := incidentError M dt n R + M * dt ^ 2 + R * (160 * (n + 1) * ((R + 1) * (M * dt ^ 5)) + 5 * (M * dt ^ 3))

/-- The incident wave induces a current in the objects: the current that it would need there beyond that in the vacuum. -/
noncomputable def induced (eps sig : ℝ → ℝ → ℝ) (s : ℝ → ℝ) (y0 : ℝ) (t x y : ℝ) : ℝ := (eps x y - 1) * planeEt s y0 t y + sig x y * planeE s y0 t y

/-- The objects are inside the region. -/
def AllWithin (g : Grid ℝ) (vol : Vol ℝ) (objs : List (Object ℝ)) : Prop :=
  ∀ o ∈ objs, ∀ i j : ℤ, o.inside (g.toReal ⟨i, j⟩) = true →
    (g.toGrid vol.a).x ≤ i ∧ i ≤ (g.toGrid vol.b).x ∧ (g.toGrid vol.a).y < j ∧ j < (g.toGrid vol.b).y

/-- The error of the induced currents up to time `τ`. -/
noncomputable def inducedError (M dt τ R k : ℝ) : ℝ := k * (80 * τ * ((R + 1) * (M * dt ^ 3)) + M * dt ^ 2)

/-- The square of the difference between the fields of the simulation after `n` steps and the sum of the scattered wave `w` and the incident wave,
integrated over the rectangle. -/
noncomputable def litGap (w : Wave) (vol : Vol ℝ) (s : ℝ → ℝ) (g : Grid ℝ) (n : ℕ) (f : Flds ℝ) (R : Box) : ℝ :=
  g.dx ^ 2 * R.sum fun i j => (f.Ez.val i j - (w.nodeE g n i j + incidentE g vol s n i j)) ^ 2 +
    (f.Hx.val i j - (w.nodeX g n i j + incidentX g vol s n i j)) ^ 2 + (f.Hy.val i j - w.nodeY g n i j) ^ 2

end Qbox.Spec
