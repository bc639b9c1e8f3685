import Verif.Spec.MediumSpec
import Verif.Spec.LocalSpec

/-!
# Discrete electromagnetic energy

`Ez` is known at full time steps and `H` half a step later, so the energy at a full step uses the product of the two neighbouring
values of `H`. The earlier one follows from the stored fields by Faraday's law. The permeability is one.
-/

namespace Qbox.Spec
open Qbox

/-- `Hx` half a step before the time of `Ez`. -/
noncomputable def hxBack (g : Grid ℝ) (f : Flds ℝ) (i j : ℤ) : ℝ := f.Hx.val i j + g.dt * ((f.Ez.val i (j + 1) - f.Ez.val i j) / g.dx)
/-- `Hy` half a step before the time of `Ez`. -/
noncomputable def hyBack (g : Grid ℝ) (f : Flds ℝ) (i j : ℤ) : ℝ := f.Hy.val i j - g.dt * ((f.Ez.val (i + 1) j - f.Ez.val i j) / g.dx)

/-- A rectangle of nodes, edges included. -/
structure Box where
  l : ℤ
  r : ℤ
  b : ℤ
  t : ℤ

/-- The node is in the rectangle. -/
def Box.Mem (R : Box) (i j : ℤ) : Prop := (R.l ≤ i ∧ i ≤ R.r) ∧ (R.b ≤ j ∧ j ≤ R.t)

/-- Sum over the nodes of a rectangle. -/
noncomputable def Box.sum (R : Box) (F : ℤ → ℤ → ℝ) : ℝ := ∑ i ∈ Finset.Icc R.l R.r, ∑ j ∈ Finset.Icc R.b R.t, F i j

/-- The energy in the rectangle `R` of a medium `med`. -/
noncomputable def energy (g : Grid ℝ) (med : ℤ → ℤ → Simple ℝ) (f : Flds ℝ) (R : Box) : ℝ :=
  g.dx ^ 2 * R.sum fun i j => ((med i j).eps * f.Ez.val i j ^ 2 + f.Hx.val i j * hxBack g f i j + f.Hy.val i j * hyBack g f i j) / 2

/-- The mean of `Ez` before and after a step. -/
noncomputable def meanEz (f f' : Flds ℝ) (i j : ℤ) : ℝ := (f.Ez.val i j + f'.Ez.val i j) / 2

/-- Power turned into heat during the step from `f` to `f'`. -/
noncomputable def heat (g : Grid ℝ) (med : ℤ → ℤ → Simple ℝ) (f f' : Flds ℝ) (R : Box) : ℝ :=
  g.dx ^ 2 * R.sum fun i j => (med i j).conduc * meanEz f f' i j ^ 2

/-- Power that leaves the rectangle during the step, the Poynting vector `(-Ez Hy, Ez Hx)` summed over the four sides. -/
noncomputable def outflow (g : Grid ℝ) (f f' : Flds ℝ) (R : Box) : ℝ :=
  g.dx * ((∑ j ∈ Finset.Icc R.b R.t, (-(meanEz f f' (R.r + 1) j * f.Hy.val R.r j) + meanEz f f' R.l j * f.Hy.val (R.l - 1) j)) +
    ∑ i ∈ Finset.Icc R.l R.r, (meanEz f f' i (R.t + 1) * f.Hx.val i R.t - meanEz f f' i R.b * f.Hx.val i (R.b - 1)))

/-- The plain sum of squares of all field values. -/
noncomputable def size (g : Grid ℝ) (f : Flds ℝ) (R : Box) : ℝ :=
  g.dx ^ 2 * R.sum fun i j => f.Ez.val i j ^ 2 + f.Hx.val i j ^ 2 + f.Hy.val i j ^ 2

/-- Every node of the rectangle is beyond the absorbing layer and has the medium `med`, which is passive. -/
structure Passive (c : Core ℝ) (med : ℤ → ℤ → Simple ℝ) (R : Box) : Prop where
  beyond : ∀ i j, R.Mem i j → Beyond c.g i j
  medium : ∀ i j, R.Mem i j → InSimple c (med i j) i j
  eps : ∀ i j, R.Mem i j → 1 ≤ (med i j).eps
  conduc : ∀ i j, R.Mem i j → 0 ≤ (med i j).conduc
  lorentz : c.lorentz = []

/-- No medium of the rectangle conducts. -/
def Lossless (med : ℤ → ℤ → Simple ℝ) (R : Box) : Prop := ∀ i j, R.Mem i j → (med i j).conduc = 0

/-- No field on the frame of the rectangle, as far as it enters the flow through the frame. -/
structure FrameQuiet (f : Flds ℝ) (R : Box) : Prop where
  left : ∀ j, f.Hy.val (R.l - 1) j = 0
  right : ∀ j, f.Ez.val (R.r + 1) j = 0
  bottom : ∀ i, f.Hx.val i (R.b - 1) = 0
  top : ∀ i, f.Ez.val i (R.t + 1) = 0

/-- The simulation with all field values set to zero. -/
noncomputable def noField (c : Core ℝ) : Core ℝ :=
  { c with f := { c.f with Ez := c.f.Ez.setv fun _ _ => 0, Hx := c.f.Hx.setv fun _ _ => 0, Hy := c.f.Hy.setv fun _ _ => 0 } }

/-- The rectangle without its `n` outermost rings. -/
def Box.shrink (R : Box) (n : ℕ) : Box := ⟨R.l + n, R.r - n, R.b + n, R.t - n⟩

/-- There is no field outside the rectangle. -/
def Within (f : Flds ℝ) (R : Box) : Prop := ∀ i j, ¬ R.Mem i j → f.Ez.val i j = 0 ∧ f.Hx.val i j = 0 ∧ f.Hy.val i j = 0

/-- `med` is the medium of the topmost object at every node, and vacuum where there is no object. -/
structure FilledBy (g : Grid ℝ) (objs : List (Object ℝ)) (med : ℤ → ℤ → Simple ℝ) : Prop where
  object : ∀ i j o, TopAt objs (g.toReal ⟨i, j⟩) o → o.mat.kind = .simple (med i j)
  vacuum : ∀ i j, (∀ o ∈ objs, o.inside (g.toReal ⟨i, j⟩) = false) → med i j = Qbox.vacuum

/-- The simulation with other field values. -/
noncomputable def withFields (c : Core ℝ) (e x y : ℤ → ℤ → ℝ) : Core ℝ :=
  { c with f := { c.f with Ez := c.f.Ez.setv e, Hx := c.f.Hx.setv x, Hy := c.f.Hy.setv y } }

/-- Object of a simple material with a permittivity of at least one and a conductivity that is not negative. -/
def PassiveObject (o : Object ℝ) : Prop := ∃ m, o.mat.kind = .simple m ∧ 1 ≤ m.eps ∧ 0 ≤ m.conduc

end Qbox.Spec
