import Verif.Spec.EnergySpec

/-! # Plane waves, on the grid and in the continuum -/

namespace Qbox.Spec
open Qbox

/-- `a cos(k·r - ω t + ph)`. -/
noncomputable def planeWave (a kx ky w ph x y t : ℝ) : ℝ := a * Real.cos (kx * x + ky * y - w * t + ph)

/-- The frequency that Maxwell's equations give to the wave vector `(kx, ky)` in a dielectric. -/
noncomputable def lightFrequency (e kx ky : ℝ) : ℝ := Real.sqrt (kx ^ 2 + ky ^ 2) / Real.sqrt e

/-- What the differences over a cell of size `d` make of the wave number `k`. -/
noncomputable def cellNumber (d k : ℝ) : ℝ := 2 / d * Real.sin (k * d / 2)

/-- The frequency that the difference equations give to the wave vector `(kx, ky)` in a dielectric: `ω'² e = kx'² + ky'²`, where `k' = cellNumber dx k` and
`ω' = cellNumber dt ω`. -/
noncomputable def waveFrequency (g : Grid ℝ) (e kx ky : ℝ) : ℝ :=
  2 / g.dt * Real.arcsin (g.dt / 2 * (Real.sqrt (cellNumber g.dx kx ^ 2 + cellNumber g.dx ky ^ 2) / Real.sqrt e))

/-- The fields at the nodes of the rectangle are those of the wave at time `t`: `Ez` at the nodes, `Hx` and `Hy` half a cell and half a step further,
with the ratio `k'/ω'` to `Ez`. -/
structure CarriesWave (g : Grid ℝ) (a kx ky w ph t : ℝ) (f : Flds ℝ) (R : Box) : Prop where
  Ez : ∀ i j, R.Mem i j → f.Ez.val i j = planeWave a kx ky w ph (i * g.dx) (j * g.dx) t
  Hx : ∀ i j, R.Mem i j → f.Hx.val i j = cellNumber g.dx ky / cellNumber g.dt w * planeWave a kx ky w ph (i * g.dx) ((j + 1 / 2) * g.dx) (t + g.dt / 2)
  Hy : ∀ i j, R.Mem i j → f.Hy.val i j = -(cellNumber g.dx kx / cellNumber g.dt w) * planeWave a kx ky w ph ((i + 1 / 2) * g.dx) (j * g.dx) (t + g.dt / 2)

/-- Values at the nodes at all steps that satisfy the discrete laws at the nodes of a rectangle. -/
structure SolvesGrid (g : Grid ℝ) (med : ℤ → ℤ → Simple ℝ) (R : Box) (E X Y : ℕ → ℤ → ℤ → ℝ) : Prop where
  ampere : ∀ n i j, R.Mem i j → ConductiveLaw (med i j) g.dt (E n i j) (E (n + 1) i j) ((Y n i j - Y n (i - 1) j) / g.dx - (X n i j - X n i (j - 1)) / g.dx)
  faradayX : ∀ n i j, R.Mem i j → X (n + 1) i j = X n i j - g.dt * ((E (n + 1) i (j + 1) - E (n + 1) i j) / g.dx)
  faradayY : ∀ n i j, R.Mem i j → Y (n + 1) i j = Y n i j + g.dt * ((E (n + 1) (i + 1) j - E (n + 1) i j) / g.dx)

/-- The fields at the nodes of the rectangle. -/
structure Has (E X Y : ℤ → ℤ → ℝ) (f : Flds ℝ) (R : Box) : Prop where
  Ez : ∀ i j, R.Mem i j → f.Ez.val i j = E i j
  Hx : ∀ i j, R.Mem i j → f.Hx.val i j = X i j
  Hy : ∀ i j, R.Mem i j → f.Hy.val i j = Y i j

/-- Reflection at a plane between two dielectrics, `k1` and `k2` the components of the wave vectors across the plane: Fresnel's formula for this
polarization. -/
noncomputable def fresnelReflection (k1 k2 : ℝ) : ℝ := (k1 - k2) / (k1 + k2)
noncomputable def fresnelTransmission (k1 k2 : ℝ) : ℝ := 2 * k1 / (k1 + k2)

/-- The same on a grid with cells of size `d`. -/
noncomputable def gridReflection (d k1 k2 : ℝ) : ℝ := (Real.tan (k1 * d / 2) - Real.tan (k2 * d / 2)) / (Real.tan (k1 * d / 2) + Real.tan (k2 * d / 2))
noncomputable def gridTransmission (d k1 k2 : ℝ) : ℝ := (1 + gridReflection d k1 k2) * Real.cos (k1 * d / 2) / Real.cos (k2 * d / 2)

/-- A wave that meets the plane `x = x0`, with its reflection (`x < x0`) or its transmission (`x ≥ x0`). -/
noncomputable def facingWave (d a k1 k2 ky w ph x0 x y t : ℝ) : ℝ :=
  if x < x0 then planeWave a k1 ky w ph (x - x0) y t + planeWave (gridReflection d k1 k2 * a) (-k1) ky w ph (x - x0) y t
  else planeWave (gridTransmission d k1 k2 * a) k2 ky w ph (x - x0) y t

end Qbox.Spec
