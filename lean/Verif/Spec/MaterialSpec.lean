import Verif.Model.Core

/-! # Specification vocabulary for the material grid -/

namespace Qbox.Spec
open Qbox

variable {K : Type} [Scalar K]

/-- `o` is the most recently added object of `objs` that contains the position `p`. -/
def TopAt (objs : List (Object K)) (p : V2 K) (o : Object K) : Prop :=
  ∃ before after, objs = before ++ o :: after ∧ o.inside p = true ∧ ∀ o' ∈ after, o'.inside p = false

/-- The node `(i, j)` carries the update coefficients of the medium `k`. -/
structure HasMedium (f : Flds K) (k : MatKind K) (dt : K) (i j : ℤ) : Prop where
  Ca : f.Ca.val i j = k.Ca dt
  Cb : f.Cb.val i j = k.Cb dt
  Da : f.Da.val i j = k.Da dt
  Db : f.Db.val i j = k.Db dt

/-- Two states carry the same update coefficients at every node. -/
structure SameMedia (f f' : Flds K) (Nx Ny : ℤ) : Prop where
  Ca : ∀ i j, 0 ≤ i → i < Nx → 0 ≤ j → j < Ny → f.Ca.val i j = f'.Ca.val i j
  Cb : ∀ i j, 0 ≤ i → i < Nx → 0 ≤ j → j < Ny → f.Cb.val i j = f'.Cb.val i j
  Da : ∀ i j, 0 ≤ i → i < Nx → 0 ≤ j → j < Ny → f.Da.val i j = f'.Da.val i j
  Db : ∀ i j, 0 ≤ i → i < Nx → 0 ≤ j → j < Ny → f.Db.val i j = f'.Db.val i j

/-- No grid node is inside two of the objects. -/
def NodeDisjoint (g : Grid K) (objs : List (Object K)) : Prop :=
  objs.Pairwise fun o o' => ∀ i j : ℤ, 0 ≤ i → i < g.Nx → 0 ≤ j → j < g.Ny →
    ¬ (o.inside (g.toReal ⟨i, j⟩) = true ∧ o'.inside (g.toReal ⟨i, j⟩) = true)

/-- A grid as `grid_properties` builds it, in exact arithmetic. -/
structure Lawful (g : Grid ℝ) : Prop where
  dx : 0 < g.dx
  Lx : g.Lx = g.dx * ((g.Nx - 1 : ℤ) : ℝ)
  Ly : g.Ly = g.dx * ((g.Ny - 1 : ℤ) : ℝ)
  dt : g.dt = g.dx / 2

theorem lawful_make (Lx Ly res : ℝ) (pml : ℤ) (h : 0 < res) : Lawful (Grid.make Lx Ly res pml) where
  dx := by simp only [Grid.make]; positivity
  Lx := rfl
  Ly := rfl
  dt := by simp [Grid.make]

/-- The bounding box an object reports, if it reports one, contains every point of the object. The shapes of the
library satisfy this (C07); a user-defined geometry has to. -/
def BoxSound (o : Object ℝ) : Prop :=
  ∀ p b, o.inside p = true → o.bbox = some b → b.a.x ≤ p.x ∧ p.x ≤ b.b.x ∧ b.a.y ≤ p.y ∧ p.y ≤ b.b.y

/-- The object does not reach across the right edge or the bottom edge of the domain (the two edges that
`grid_properties::clip` does not guard). It may overhang the other two. -/
def ClearOfUnguardedEdges (g : Grid ℝ) (o : Object ℝ) : Prop :=
  ∀ p, o.inside p = true → p.x ≤ g.Lx ∧ 0 ≤ p.y

end Qbox.Spec
