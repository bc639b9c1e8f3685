import Verif.Model.Sources
import Mathlib.Algebra.BigOperators.Fin

/-!
# Where the samples of the staggered grid live
-/

namespace Qbox.Spec
open Qbox

/-- Position of the sample with index `(i, j)` of a component: `Ez` at the node, `Hx` half a cell above it, `Hy` half a cell to its
right. -/
noncomputable def samplePos (dx : ℝ) : Fields → ℤ → ℤ → V2 ℝ
  | .Hx, i, j => ⟨i * dx, (j + 1 / 2) * dx⟩
  | .Hy, i, j => ⟨(i + 1 / 2) * dx, j * dx⟩
  | _, i, j => ⟨i * dx, j * dx⟩

/-- The samples `F` are those of the affine function `α + β x + γ y` of the position. -/
def Affine (dx : ℝ) (C : Fields) (F : Tensor ℝ) (α β γ : ℝ) : Prop :=
  ∀ i j, F.In i j → F.val i j = α + β * (samplePos dx C i j).x + γ * (samplePos dx C i j).y

/-- `v` is a convex combination of the values of `F` at four samples, each less than one cell away from `p` in both directions. -/
def ConvexAround (dx : ℝ) (C : Fields) (F : Tensor ℝ) (p : V2 ℝ) (v : ℝ) : Prop :=
  ∃ (w : Fin 4 → ℝ) (n : Fin 4 → ℤ × ℤ), (∀ k, 0 ≤ w k) ∧ ∑ k, w k = 1 ∧ (∀ k, F.In (n k).1 (n k).2) ∧
    (∀ k, |(samplePos dx C (n k).1 (n k).2).x - p.x| < dx ∧ |(samplePos dx C (n k).1 (n k).2).y - p.y| < dx) ∧
    v = ∑ k, w k * F.val (n k).1 (n k).2

end Qbox.Spec
