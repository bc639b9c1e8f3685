import Verif.Spec.ScatterSpec
import Verif.Spec.PoyntingSpec

/-!
# The total field, and boxes around and inside the region of an incident wave
-/

namespace Qbox.Spec
open Qbox

/-- The scattered wave `w` and the plane wave with the signal `s` at the height `y0`. The plane wave travels upwards from there; below this height, where no program has an incident
wave, it is continued by the signal. -/
noncomputable def Wave.lit (w : Wave) (s : ℝ → ℝ) (y0 : ℝ) : Wave where
  E t x y := w.E t x y + s (t - max 0 (y - y0))
  X t x y := w.X t x y + s (t - max 0 (y - y0))
  Y := w.Y
  Et t x y := w.Et t x y + deriv s (t - max 0 (y - y0))
  Ex := w.Ex
  Ey t x y := w.Ey t x y - deriv s (t - max 0 (y - y0))
  Xt t x y := w.Xt t x y + deriv s (t - max 0 (y - y0))
  Xy t x y := w.Xy t x y - deriv s (t - max 0 (y - y0))
  Yt := w.Yt
  Yx := w.Yx

/-- The box between the nodes of `a` and `b` has the region of the incident wave inside it. -/
def BoxAround (g : Grid ℝ) (vol : Vol ℝ) (a b : V2 ℝ) : Prop :=
  (g.toGrid a).x < (g.toGrid vol.a).x ∧ (g.toGrid a).y < (g.toGrid vol.a).y ∧ (g.toGrid vol.b).x + 1 < (g.toGrid b).x ∧ (g.toGrid vol.b).y + 1 < (g.toGrid b).y

/-- The box between the nodes of `a` and `b` is inside the region of the incident wave. -/
def BoxWithin (g : Grid ℝ) (vol : Vol ℝ) (a b : V2 ℝ) : Prop :=
  (g.toGrid vol.a).x < (g.toGrid a).x ∧ (g.toGrid vol.a).y < (g.toGrid a).y ∧ (g.toGrid b).x ≤ (g.toGrid vol.b).x ∧ (g.toGrid b).y < (g.toGrid vol.b).y

/-- The error of the fields of a program with an incident wave after `n` steps (C100). -/
noncomputable def litError (S : ℝ → ℝ → Prop) (g : Grid ℝ) (vol : Vol ℝ) (M Ms epsMax sigMax τ δ : ℝ) (n : ℕ) : ℝ :=
  restError S g M epsMax + n * g.dt * drivenError S g M epsMax sigMax (δ + inducedError Ms g.dt τ (rows g vol) (epsMax - 1 + sigMax)) +
    (incidentError Ms g.dt n (rows g vol) + incidentErrorX Ms g.dt n (rows g vol)) * Real.sqrt (g.Lx * g.Ly)

/-- The bound of the scattered wave and that of the plane wave up to time `τ`. -/
noncomputable def litSize (M Ms τ : ℝ) : ℝ := M + Ms * (1 + τ) ^ 2

end Qbox.Spec
