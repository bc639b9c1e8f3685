import Verif.Spec.MaterialSpec

/-!
# Objects hidden by others
-/

namespace Qbox.Spec
open Qbox

variable {K : Type} [Scalar K]

/-- Every node of the grid inside `o` is inside one of the objects `l`. -/
def Hides (g : Grid K) (l : List (Object K)) (o : Object K) : Prop :=
  ∀ i j : ℤ, 0 ≤ i → i < g.Nx → 0 ≤ j → j < g.Ny → o.inside (g.toReal ⟨i, j⟩) = true →
    ∃ o' ∈ l, o'.inside (g.toReal ⟨i, j⟩) = true

/-- The object has a material without memory. -/
def Plain (o : Object K) : Prop := ∃ m, o.mat.kind = .simple m

end Qbox.Spec
