import Verif.Spec.PolarSpec
import Verif.Spec.PlaneWaveSpec
import Mathlib.Analysis.SpecialFunctions.Trigonometric.Complex

/-!
# Permittivities, and waves with complex wave numbers

A field `Re(A exp(i(k·r - Ω t)))` in a linear medium meets a permittivity that depends on `Ω`. Its imaginary part makes the wave number complex, and the wave
decays.
-/

namespace Qbox.Spec
open Qbox Complex

/-- The part of the permittivity that is due to the delayed response: the textbook formulas of Debye and of Drude. -/
noncomputable def Response.suscept (Ω : ℂ) : Response → ℂ
  | .plain => 0
  | .debye dEps tau => dEps / (1 - I * Ω * tau)
  | .drude gamma omega => -omega ^ 2 / (Ω * (Ω + I * gamma))

/-- The permittivity at frequency `Ω` of a medium with permittivity `eps` without delay, conductivity `sig` and delayed response `r`. -/
noncomputable def permittivity (eps sig : ℝ) (r : Response) (Ω : ℂ) : ℂ := eps + I * sig / Ω + r.suscept Ω

/-- The frequency is no pole of the permittivity. -/
def Response.Regular (Ω : ℂ) : Response → Prop
  | .plain => True
  | .debye _ tau => 1 - I * Ω * tau ≠ 0
  | .drude gamma _ => Ω + I * gamma ≠ 0

/-- `A exp(i(k·r - ω t))`, its real part is the field. -/
noncomputable def carrier (A kx ky w : ℂ) (x y t : ℝ) : ℂ := A * exp (I * (kx * x + ky * y - w * t))

/-- What differences over a step of size `d` make of a wave number or frequency. -/
noncomputable def cellNumberC (d : ℝ) (k : ℂ) : ℂ := 2 / d * sin (k * d / 2)

/-- The frequency at which the media respond: the difference of the field over a step, divided by the mean, is `-i Ω dt`. -/
noncomputable def warped (dt : ℝ) (w : ℂ) : ℂ := 2 / dt * tan (w * dt / 2)

/-- Reflection and transmission at a plane between two media on a grid with cells of size `d`; `k1` and `k2` are the wave numbers across the plane. -/
noncomputable def mirrorBack (d : ℝ) (k1 k2 : ℂ) : ℂ := sin ((k1 - k2) * d / 2) / sin ((k1 + k2) * d / 2)
noncomputable def mirrorThrough (d : ℝ) (k1 k2 : ℂ) : ℂ := sin (k1 * d) / sin ((k1 + k2) * d / 2)

/-- A wave that meets the plane `x = x0`, with its reflection (`x < x0`) or its transmission (`x ≥ x0`). -/
noncomputable def mirrored (d : ℝ) (A k1 k2 ky w : ℂ) (x0 x y t : ℝ) : ℂ :=
  if x < x0 then carrier A k1 ky w (x - x0) y t + carrier (mirrorBack d k1 k2 * A) (-k1) ky w (x - x0) y t
  else carrier (mirrorThrough d k1 k2 * A) k2 ky w (x - x0) y t

/-- Values at the nodes at all steps that satisfy the discrete laws in a rectangle of media with memory. `K` is the polarization current. -/
structure SolvesMatter (g : Grid ℝ) (eps sig : ℤ → ℤ → ℝ) (res : ℤ → ℤ → Response) (R : Box) (E X Y K : ℕ → ℤ → ℤ → ℝ) : Prop where
  ampere : ∀ n i j, R.Mem i j → eps i j * ((E (n + 1) i j - E n i j) / g.dt) + sig i j * ((E (n + 1) i j + E n i j) / 2) + (K (n + 1) i j + K n i j) / 2 =
    (Y n i j - Y n (i - 1) j) / g.dx - (X n i j - X n i (j - 1)) / g.dx
  pole : ∀ n i j, R.Mem i j → (res i j).Law ((E (n + 1) i j + E n i j) / 2) ((E (n + 1) i j - E n i j) / g.dt) ((K (n + 1) i j + K n i j) / 2)
    ((K (n + 1) i j - K n i j) / g.dt)
  faradayX : ∀ n i j, R.Mem i j → X (n + 1) i j = X n i j - g.dt * ((E (n + 1) i (j + 1) - E (n + 1) i j) / g.dx)
  faradayY : ∀ n i j, R.Mem i j → Y (n + 1) i j = Y n i j + g.dt * ((E (n + 1) (i + 1) j - E (n + 1) i j) / g.dx)

/-- The polarization with the currents `K` at the nodes at which the medium has a pole. -/
noncomputable def debyeWith (K : ℤ → ℤ → ℝ) (P : DebyePol ℝ) : DebyePol ℝ :=
  { P with J := { P.J with val := fun i j N => if P.beta.val i j N = 0 then P.J.val i j N else K i j } }
noncomputable def drudeWith (K : ℤ → ℤ → ℝ) (P : DrudePol ℝ) : DrudePol ℝ :=
  { P with J := { P.J with val := fun i j N => if P.beta.val i j N = 0 then P.J.val i j N else K i j } }

/-- The simulation with the currents `K` in its media. -/
noncomputable def withCurrents (c : Core ℝ) (K : ℤ → ℤ → ℝ) : Core ℝ :=
  { c with debye := c.debye.map fun q => (q.1, debyeWith K q.2), drude := c.drude.map fun q => (q.1, drudeWith K q.2) }

/-- The medium takes up energy. -/
def Absorbs (sig : ℝ) : Response → Prop
  | .plain => 0 < sig
  | .debye dEps tau => 0 < dEps ∧ 0 < tau
  | .drude gamma omega => 0 < gamma ∧ omega ≠ 0 ∨ 0 < sig

end Qbox.Spec
