import Verif.Spec.DftSpec
import Verif.Model.Monitors

/-! # What a point monitor is meant to record -/

namespace Qbox.Spec
open Qbox Scalar

variable {K : Type} [Scalar K]

/-- The fields centred at a node half a step before the update: the mean of the electric field now and at the update before (`prev` at the
first), and the means of the two magnetic nodes next to the node. -/
def centred (node : V2 ℤ) (prev : K) : List (Flds K × K) → List (Sample K Unit)
  | [] => []
  | (f, t) :: l => ⟨t, fun n _ =>
      if n = "Ez" then (f.Ez.val node.x node.y + prev) / ofInt 2
      else if n = "Hx" then (f.Hx.val node.x node.y + f.Hx.val node.x (node.y - 1)) / ofInt 2
      else (f.Hy.val node.x node.y + f.Hy.val (node.x - 1) node.y) / ofInt 2⟩ :: centred node (f.Ez.val node.x node.y) l

end Qbox.Spec
