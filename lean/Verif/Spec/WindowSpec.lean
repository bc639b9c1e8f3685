import Verif.Spec.SourceSpec
import Verif.Spec.MaterialSpec
import Verif.Model.Core

/-!
# The same scene in another grid, in another unit of length

`View` says how a second program sees the scene of a first one: a length of one is a length of `s`, and the node `(i, j)` is
the node `(i + a, j + b)`.  Speed of light is one, so times scale like lengths, frequencies and conductivities like their
inverses.  Fields do not change.
-/

namespace Qbox.Spec
open Qbox

structure View where
  s : ℝ
  a : ℤ
  b : ℤ

namespace View
variable (v : View)

/-- The same place; `dx` is the spacing of the first program. -/
noncomputable def point (dx : ℝ) (p : V2 ℝ) : V2 ℝ := ⟨v.s * (p.x + dx * v.a), v.s * (p.y + dx * v.b)⟩

noncomputable def simple (m : Simple ℝ) : Simple ℝ := { m with conduc := m.conduc / v.s }
noncomputable def debye (m : Debye ℝ) : Debye ℝ := { m with poles := m.poles.map fun p => ⟨p.dEps, v.s * p.tau⟩ }
noncomputable def drude (m : Drude ℝ) : Drude ℝ := { m with poles := m.poles.map fun p => ⟨p.omega / v.s, p.gamma / v.s⟩ }
noncomputable def lorentz (m : Lorentz ℝ) : Lorentz ℝ :=
  { m with poles := m.poles.map fun p => ⟨p.omega / v.s, p.dEps, p.gamma / v.s⟩ }

/-- The same medium. -/
noncomputable def kind : MatKind ℝ → MatKind ℝ
  | .simple m => .simple (v.simple m)
  | .debye m => .debye (v.debye m)
  | .drude m => .drude (v.drude m)
  | .lorentz m => .lorentz (v.lorentz m)

/-- The same object: same name of the material, same medium, same places inside. -/
structure SameObj (dx : ℝ) (o o' : Object ℝ) : Prop where
  name : o'.mat.name = o.mat.name
  kind : o'.mat.kind = v.kind o.mat.kind
  inside : ∀ p, o'.inside (v.point dx p) = o.inside p

/-- The same signal. -/
def SameSignal (r r' : ℝ → ℝ) : Prop := ∀ t, r' (v.s * t) = r t

/-- The same source: same component, same nodes, same signal. -/
structure SameSource (g g' : Grid ℝ) (k k' : Source ℝ) : Prop where
  drives : ∀ C i j, Drives g' k' C ⟨i + v.a, j + v.b⟩ ↔ Drives g k C ⟨i, j⟩
  signal : v.SameSignal k.tp.resp k'.tp.resp

/-- The same values at the nodes of `S`, up to a factor `k`. -/
def On (S : ℤ → ℤ → Prop) (k : ℝ) (A B : Tensor ℝ) : Prop := ∀ i j, S i j → B.val (i + v.a) (j + v.b) = k * A.val i j

/-- The same fields: `Ez` at the nodes of `SE`, `Hx` and `Hy` at the nodes of `SH`, and the same number of steps. -/
structure SameFields (SE SH : ℤ → ℤ → Prop) (c d : Core ℝ) : Prop where
  tStep : d.tStep = c.tStep
  t : d.t = v.s * c.t
  Ez : v.On SE 1 c.f.Ez d.f.Ez
  Hx : v.On SH 1 c.f.Hx d.f.Hx
  Hy : v.On SH 1 c.f.Hy d.f.Hy

/-- The same incident wave: same nodes, same signal. -/
structure SameWave (g g' : Grid ℝ) (w w' : Vol ℝ × TimeProfile ℝ) : Prop where
  a : g'.toGrid w'.1.a = ⟨(g.toGrid w.1.a).x + v.a, (g.toGrid w.1.a).y + v.b⟩
  b : g'.toGrid w'.1.b = ⟨(g.toGrid w.1.b).x + v.a, (g.toGrid w.1.b).y + v.b⟩
  signal : v.SameSignal w.2.resp w'.2.resp

end View

/-- What a program puts into its domain: objects in the order of `add_object`, sources, and at most one incident wave. -/
structure Scene where
  objs : List (Object ℝ)
  srcs : List (Source ℝ)
  wave : Option (Vol ℝ × TimeProfile ℝ) := none

/-- The program: construct the fields, add the objects, set the incident wave, step `n` times. -/
noncomputable def Scene.run (S : Scene) (g : Grid ℝ) (n : ℕ) : M (Core ℝ) := do
  let c ← Core.make g
  let c ← forList S.objs c (fun o c => c.insertObject o)
  let c := match S.wave with
    | none => c
    | some w => c.setTfsf w.1 w.2
  let r ← c.run n S.srcs
  pure r.1

/-- A scene that fits a grid: the painting of the objects stays inside the arrays and their bounding boxes are right, the sources and
the region of the incident wave are in the grid. -/
structure Scene.Fits (S : Scene) (g : Grid ℝ) : Prop where
  clear : ∀ o ∈ S.objs, ClearOfUnguardedEdges g o
  box : ∀ o ∈ S.objs, BoxSound o
  srcs : ∀ k ∈ S.srcs, Spec.Fits g k
  wave : ∀ w, S.wave = some w → 1 ≤ (g.toGrid w.1.a).x ∧ (g.toGrid w.1.a).x ≤ (g.toGrid w.1.b).x ∧ (g.toGrid w.1.b).x < g.Nx ∧
    1 ≤ (g.toGrid w.1.a).y ∧ (g.toGrid w.1.a).y ≤ (g.toGrid w.1.b).y ∧ (g.toGrid w.1.b).y < g.Ny

/-- Two programs with the same scene. -/
structure View.SameScene (v : View) (g g' : Grid ℝ) (S S' : Scene) : Prop where
  objs : List.Forall₂ (v.SameObj g.dx) S.objs S'.objs
  srcs : List.Forall₂ (v.SameSource g g') S.srcs S'.srcs
  wave : Option.Rel (v.SameWave g g') S.wave S'.wave

/-- A node with four neighbours: the nodes the main loop updates. -/
def Upd (g : Grid ℝ) (i j : ℤ) : Prop := 1 ≤ i ∧ i < g.Nx - 1 ∧ 1 ≤ j ∧ j < g.Ny - 1

/-- A node of the grid. -/
def Node (g : Grid ℝ) (i j : ℤ) : Prop := 0 ≤ i ∧ i < g.Nx ∧ 0 ≤ j ∧ j < g.Ny

/-- Nodes of `Ez` more than `r` cells away from the absorbing layer. -/
def InnerE (g : Grid ℝ) (r : ℤ) (i j : ℤ) : Prop :=
  g.T + r < i ∧ i < g.Nx - 1 - g.T - r ∧ g.T + r < j ∧ j < g.Ny - 1 - g.T - r

/-- Nodes of `Hx`, `Hy` more than `r` cells away from the absorbing layer. -/
def InnerH (g : Grid ℝ) (r : ℤ) (i j : ℤ) : Prop :=
  g.T + r < i ∧ i + 1 < g.Nx - 1 - g.T - r ∧ g.T + r < j ∧ j + 1 < g.Ny - 1 - g.T - r

end Qbox.Spec
