import Verif.Lemmas.CoreOps
import Verif.Spec.LocalSpec

/-!
# States a program can bring a simulation into, and the step without the absorbing layer
-/

namespace Qbox.Spec
open Qbox Scalar

variable {K : Type} [Scalar K]

/-- The physical states a program can reach on the grid `g` by successful calls of the operations of `Field2D`: the
constructor, `add` of an object, `update_material_grid`, `clear_materials`, `clear_fields`, `set_tfsf`, `update` with any
sources, and (as the members are public) any assignment of the field and coefficient arrays that keeps their size. -/
inductive Reach (g : Grid K) : Core K → Prop
  | make {c} : Core.make g = .ok c → Reach g c
  | insert {c c'} (o : Object K) : Reach g c → c.insertObject o = .ok c' → Reach g c'
  | updateGrid {c c'} (objs : List (Object K)) : Reach g c → c.updateMaterialGrid objs = .ok c' → Reach g c'
  | clearMaterials {c f} : Reach g c → clearMaterials c.g c.f = .ok f → Reach g { c with f := f }
  | clearFields {c} : Reach g c → Reach g c.clearFields
  | setTfsf {c} (vol : Vol K) (tp : TimeProfile K) : Reach g c → TfsfFits c.g vol → Reach g (c.setTfsf vol tp)
  | update {c c' l l'} : Reach g c → c.update l = .ok (c', l') → Reach g c'
  | poke {c} (f : Flds K) : Reach g c → f.Dims c.g.Nx c.g.Ny → Reach g { c with f := f }

/-- `Core.stageE` without `BC->update_E` and with the spacings `sc`. -/
def bareStageE (sc : Scaling K) (c : Core K) : M (Core K) := do
  let prev2E := assignIf c.prev2E c.prevE
  let prevE := assignIf c.prevE (some c.f.Ez)
  let Ez ← ezLoop c.g.Nx c.g.Ny c.f sc
  let (debye, Ez) ← mapUpdateJ (fun P Ez => P.updateJ c.g prevE Ez) c.debye Ez
  let (drude, Ez) ← mapUpdateJ (fun P Ez => P.updateJ c.g prevE Ez) c.drude Ez
  let (lorentz, Ez) ← mapUpdateJ (fun P Ez => P.updateJ c.g prev2E Ez) c.lorentz Ez
  let Ez ← optUpdateD c.tfsf Ez
  pure { c with
    tStep := c.tStep + 1, t := c.t + c.g.dt, prevE := prevE, prev2E := prev2E, f := { c.f with Ez := Ez },
    debye := debye, drude := drude, lorentz := lorentz }

/-- `Core.stageH` without `BC->update_H` and with the spacings `sc`. -/
def bareStageH (sc : Scaling K) (c : Core K) : M (Core K) := do
  let tfsf ← optPulse c.tfsf
  let h ← hLoop c.g.Nx c.g.Ny c.f sc
  let h ← optUpdateH tfsf h
  pure { c with tfsf := tfsf, f := { c.f with Hx := h.Hx, Hy := h.Hy } }

/-- A step of a simulation that has no absorbing layer. -/
def bareUpdate (sc : Scaling K) (c : Core K) (srcs : List (Source K)) : M (Core K × List (Source K)) := do
  let c ← bareStageE sc c
  let (srcs, f) ← pulseAll c.g c.t srcs c.f
  let c ← bareStageH sc { c with f := f }
  pure (c, srcs)

/-- The spacings of a grid without absorbing layer: the cell size everywhere. -/
def plainSc (g : Grid K) : Scaling K := ⟨.const g.Nx g.dx, .const g.Nx g.dx, .const g.Ny g.dx, .const g.Ny g.dx⟩

/-- Two simulations with the same time, coefficients and incident wave whose `Ez` and polarization agree on `SE`, whose `Hx` agree
on `SX` and whose `Hy` agree on `SY`. -/
structure Undisturbed (SE SX SY : ℤ → ℤ → Prop) (c d : Core K) : Prop where
  g : c.g = d.g
  tStep : c.tStep = d.tStep
  t : c.t = d.t
  tfsf : c.tfsf = d.tfsf
  prevE : c.prevE = d.prevE
  prev2E : c.prev2E = d.prev2E
  Ez : AgreeOn SE c.f.Ez d.f.Ez
  Hx : AgreeOn SX c.f.Hx d.f.Hx
  Hy : AgreeOn SY c.f.Hy d.f.Hy
  Ca : c.f.Ca = d.f.Ca
  Cb : c.f.Cb = d.f.Cb
  Da : c.f.Da = d.f.Da
  Db : c.f.Db = d.f.Db
  debye : List.Forall₂ (fun p q => p.1 = q.1 ∧ DebyeAgree SE p.2 q.2) c.debye d.debye
  drude : List.Forall₂ (fun p q => p.1 = q.1 ∧ DrudeAgree SE p.2 q.2) c.drude d.drude
  lorentz : List.Forall₂ (fun p q => p.1 = q.1 ∧ LorentzAgree SE p.2 q.2) c.lorentz d.lorentz

end Qbox.Spec
