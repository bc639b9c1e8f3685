import Verif.Spec.InterpSpec

/-!
# Moving a component to another set of points of the staggered grid
-/

namespace Qbox.Spec
open Qbox

/-- The three sets of points: the nodes, the points half a cell to the right of them and the points half a cell above them. -/
inductive Points | nodes | xgrid | ygrid
  deriving DecidableEq

/-- The point of a set that belongs to the node `p`. -/
noncomputable def Points.pos (dx : ℝ) : Points → V2 ℤ → V2 ℝ
  | .nodes, p => ⟨p.x * dx, p.y * dx⟩
  | .xgrid, p => ⟨(p.x + 1 / 2) * dx, p.y * dx⟩
  | .ygrid, p => ⟨p.x * dx, (p.y + 1 / 2) * dx⟩

/-- `v` is a value of component `C` at the point `q`: an average of samples less than one cell away, exact whenever the samples are
those of an affine function. -/
def ValueAt (dx : ℝ) (C : Fields) (F : Tensor ℝ) (q : V2 ℝ) (v : ℝ) : Prop :=
  ConvexAround dx C F q v ∧ ∀ α β γ, Affine dx C F α β γ → v = α + β * q.x + γ * q.y

end Qbox.Spec
