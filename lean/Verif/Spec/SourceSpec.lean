import Verif.Model.Core
import Verif.Lemmas.SrcLemmas
import Verif.Props.GridProps

/-!
# What the documentation promises about sources

Independent of the loops: which nodes a source drives.
-/

namespace Qbox.Spec
open Qbox Scalar

/-- Node `p` is on the axis-parallel segment from `a` to `b`, `a` included and `b` excluded. -/
def OnSeg (a b p : V2 ℤ) : Prop :=
  p ≠ b ∧ ((a.x = b.x ∧ p.x = a.x ∧ min a.y b.y ≤ p.y ∧ p.y ≤ max a.y b.y) ∨
    (a.y = b.y ∧ p.y = a.y ∧ min a.x b.x ≤ p.x ∧ p.x ≤ max a.x b.x))

variable {K : Type} [Scalar K]

/-- The source drives component `C` at node `p`. -/
def Drives (g : Grid K) (s : Source K) (C : Fields) (p : V2 ℤ) : Prop :=
  match s.kind with
  | .point C' q => C = C' ∧ p = g.toGrid q
  | .line C' surf => C = C' ∧ OnSeg (g.toGrid surf.a) (g.toGrid surf.b) p

/-- The source is usable: an actual component, nodes inside the grid, a line spans at least one cell of one grid row or
column. -/
def Fits (g : Grid K) (s : Source K) : Prop :=
  match s.kind with
  | .point C q => C.IsComp ∧ Props.InGrid g (g.toGrid q)
  | .line C surf => C.IsComp ∧
      (((g.toGrid surf.a).x = (g.toGrid surf.b).x ∧ (g.toGrid surf.a).y ≠ (g.toGrid surf.b).y) ∨
        ((g.toGrid surf.a).x ≠ (g.toGrid surf.b).x ∧ (g.toGrid surf.a).y = (g.toGrid surf.b).y)) ∧
      ∀ p, OnSeg (g.toGrid surf.a) (g.toGrid surf.b) p → Props.InGrid g p

open Classical in
/-- What the source adds to component `C` at node `p` when its profile's value is `v`. -/
noncomputable def contrib (g : Grid ℝ) (s : Source ℝ) (v : ℝ) (C : Fields) (p : V2 ℤ) : ℝ :=
  if Drives g s C p then v else 0

end Qbox.Spec
