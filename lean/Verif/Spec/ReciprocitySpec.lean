import Verif.Model.Core

/-!
# Specification of reciprocity
-/

namespace Qbox.Spec
open Qbox

/-- The simulation holds the same matter at the two nodes: the same coefficient of the curl, and the same strength of every pole of every dispersive
medium. -/
structure SameMatter (c : Core ℝ) (i j k l : ℤ) : Prop where
  Cb : c.f.Cb.val i j = c.f.Cb.val k l
  debye : ∀ q ∈ c.debye, ∀ N, 0 ≤ N → N < q.2.np → q.2.beta.val i j N = q.2.beta.val k l N
  drude : ∀ q ∈ c.drude, ∀ N, 0 ≤ N → N < q.2.np → q.2.beta.val i j N = q.2.beta.val k l N
  lorentz : ∀ q ∈ c.lorentz, ∀ N, 0 ≤ N → N < q.2.np → q.2.delta.val i j N = q.2.delta.val k l N

/-- A source of `Ez` at a node beyond the layer. -/
def EmitsAt (g : Grid ℝ) (s : Source ℝ) (i j : ℤ) : Prop := ∃ p, s.kind = .point .Ez p ∧ g.toGrid p = ⟨i, j⟩

/-- What resists the change of the electric field in a conducting dielectric over one step. -/
noncomputable def weight (m : Simple ℝ) (dt : ℝ) : ℝ := m.eps / dt + m.conduc / 2

end Qbox.Spec
