import Verif.Spec.DftSpec

/-!
# What a monitor along a line should record
-/

namespace Qbox.Spec
open Qbox Scalar

/-- What is found at the points of a monitor when an update is over: the time, the electric field and the other components. -/
structure Snap (K : Type) where
  t : K
  e : ℤ → K
  h : String → ℤ → K

variable {K : Type} [Scalar K]

/-- The signals at the instants half a step before the updates: the magnetic field as found, the electric field averaged with the
one found at the previous update (`prev` before the first). An update at the time of the previous one (`t0` for the first) gives no
sample. -/
def averaged (t0 : K) (prev : ℤ → K) : List (Snap K) → List (Sample K ℤ)
  | [] => []
  | s :: l =>
    if eqb t0 s.t then averaged t0 prev l
    else ⟨s.t, fun n i => if n = "Ez" then (s.e i + prev i) / ofInt 2 else s.h n i⟩ :: averaged s.t s.e l

/-- The signals at the instants half way between the updates: every update gives one sample, of the magnetic field as found and of the
mean of the electric fields found at this update and at the one before it (`prev` before the first). -/
def midway (prev : ℤ → K) : List (Snap K) → List (Sample K ℤ)
  | [] => []
  | s :: l => ⟨s.t, fun n i => if n = "Ez" then (s.e i + prev i) / ofInt 2 else s.h n i⟩ :: midway s.e l

end Qbox.Spec
