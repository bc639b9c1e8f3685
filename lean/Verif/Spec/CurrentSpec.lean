import Verif.Spec.WindowSpec

/-!
# Objects as currents

An object in vacuum acts on the fields like a current at the nodes inside it: there is a program without objects, with one more
point source at every such node, that computes the same fields.
-/

namespace Qbox.Spec
open Qbox

/-- The nodes of the grid that are inside some object. -/
noncomputable def nodesIn (g : Grid ℝ) (objs : List (Object ℝ)) : List (V2 ℤ) :=
  ((List.range g.Nx.toNat).flatMap fun i : ℕ => (List.range g.Ny.toNat).map fun j : ℕ => (⟨i, j⟩ : V2 ℤ)).filter
    (fun p => objs.any fun o => o.inside (g.toReal p))

/-- A point source of `Ez` at a node, with the signal of that node. -/
noncomputable def current (g : Grid ℝ) (J : ℤ → ℤ → ℝ → ℝ) (p : V2 ℤ) : Source ℝ :=
  ⟨"current", .point .Ez (g.toReal p), ⟨J p.x p.y, none, []⟩⟩

/-- One such source at every node inside the objects. -/
noncomputable def currents (g : Grid ℝ) (objs : List (Object ℝ)) (J : ℤ → ℤ → ℝ → ℝ) : List (Source ℝ) :=
  (nodesIn g objs).map (current g J)

/-- Two states have the same fields at all nodes. -/
structure SameEH (c d : Core ℝ) : Prop where
  Ez : ∀ i j, d.f.Ez.val i j = c.f.Ez.val i j
  Hx : ∀ i j, d.f.Hx.val i j = c.f.Hx.val i j
  Hy : ∀ i j, d.f.Hy.val i j = c.f.Hy.val i j

/-- The medium that covers the node is the simple medium `m`, and no dispersive object contains the node. -/
def Covers (objs : List (Object ℝ)) (p : V2 ℝ) (m : Simple ℝ) : Prop :=
  (∃ o, TopAt objs p o ∧ o.mat.kind = .simple m) ∧ ∀ o ∈ objs, o.inside p = true → ∃ m', o.mat.kind = .simple m'

end Qbox.Spec
