import Verif.Spec.HistorySpec
import Verif.Spec.LocalSpec

/-! # Histories that restart -/

namespace Qbox.Spec
open Qbox

variable {K : Type}

/-- The calls that put objects, sources, the incident wave and the materials in place. -/
def builds : Op K → Bool
  | .addObject _ => true
  | .addSource _ => true
  | .setTfsf _ _ => true
  | .pose _ _ => true
  | .clearMaterials => true
  | .updateMaterialGrid => true
  | _ => false

/-- The calls of a history that build. -/
def rebuild (ops : List (Op K)) : List (Op K) := ops.filter builds

/-- The call does not add an object of a dispersive material. -/
def NoDispersion : Op K → Prop
  | .addObject o => ∃ m, o.mat.kind = .simple m
  | _ => True

/-- The absorbing layer remembers nothing. -/
def EmptyMemory [Scalar K] (p : Pml K) : Prop := p.psi = PmlPsi.init p.par.T p.Nx p.Ny

/-- Node `(i, j)` belongs to the absorbing layer or is next to it. -/
def NearLayer (g : Grid K) (i j : ℤ) : Prop := i ≤ g.T ∨ g.Nx - g.T - 2 ≤ i ∨ j ≤ g.T ∨ g.Ny - g.T - 2 ≤ j

/-- The source drives no node within `n` cells of the absorbing layer. -/
def FarFromLayer [Scalar K] (g : Grid K) (n : ℕ) (s : Source K) : Prop := ∀ i j, NearLayer g i j → Apart g (Ball i j n) s

end Qbox.Spec
