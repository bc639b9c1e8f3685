import Verif.Model.Tfsf
import Verif.Model.Polarization

/-!
# The physical state of `Field2D` and the physical part of `update()`

`Field2D::update` (`src/field2.cpp:122-197`) is split into the stage before the monitors are updated
(`Core.stageE`, `:123-157`), the sources (`pulseAll`, `:160-162`) and the stage after the monitors (`Core.stageH`,
`:174-188`).  Monitors, clocks and output are added in `Verif.Model.Sim`.
-/

namespace Qbox
open Scalar

/-- The members of `Field2D` that take part in time stepping, `include/field2.h:82-120`. `Nx`, `Ny`, `dx`, `Lx`, `Ly` and
`dt` are copies of the grid's members (`src/field2.cpp:26-29`) that nothing modifies, so the grid's are used. -/
structure Core (K : Type) where
  g : Grid K
  tStep : ℤ
  t : K
  f : Flds K
  sc : Scaling K
  pml : Pml K
  prevE : Option (Tensor K)
  prev2E : Option (Tensor K)
  debye : List (String × DebyePol K)
  drude : List (String × DrudePol K)
  lorentz : List (String × LorentzPol K)
  tfsf : Option (Tfsf K)

section
variable {K : Type} [Scalar K]

/-- Body of `clear_materials`, `src/field2.cpp:238-241`; also `:373-376` with the object's material. -/
def setMat (k : MatKind K) (dt : K) (i j : ℤ) (f : Flds K) : M (Flds K) := do
  let Ca ← f.Ca.wr i j (k.Ca dt)
  let Cb ← f.Cb.wr i j (k.Cb dt)
  let Da ← f.Da.wr i j (k.Da dt)
  let Db ← f.Db.wr i j (k.Db dt)
  pure { f with Ca := Ca, Cb := Cb, Da := Da, Db := Db }

/-- `Field2D::clear_materials`, `src/field2.cpp:235-244`. -/
def clearMaterials (g : Grid K) (f : Flds K) : M (Flds K) :=
  forRange 0 g.Nx f (fun i f => forRange 0 g.Ny f (fun j f => setMat (.simple vacuum) g.dt i j f))

/-- Index box scanned for an object, `src/field2.cpp:363-365`. -/
def objBox (g : Grid K) (o : Object K) : IVol :=
  g.clipI (g.toGridV (o.bbox.getD g.domain))

/-- `Field2D::update_object_material_grid`, `src/field2.cpp:361-380`. -/
def paintObject (g : Grid K) (o : Object K) (f : Flds K) : M (Flds K) :=
  let b := objBox g o
  forRange b.a.x (b.b.x + 1) f (fun i f => forRange b.a.y (b.b.y + 1) f (fun j f =>
    if o.inside (g.toReal ⟨i, j⟩) then setMat o.mat.kind g.dt i j f else .ok f))

/-- `add_polarization`, `include/field2.h:171-184`: find the map entry, or create it; insert the object. -/
def addPol {P : Type} (name : String) (fresh : P) (ins : P → M P) (l : List (String × P)) :
    M (List (String × P)) :=
  match mapFind name l with
  | none => do let p ← ins fresh; pure (mapInsert name p l)
  | some p => do let p ← ins p; pure (mapSet name p l)

/-- `if (!opt) opt = v` -/
def orInit {α : Type} (o : Option α) (v : α) : Option α := match o with | some a => some a | none => some v

/-- `Field2D::insert_object` without the output of the material parameters, `src/field2.cpp:320-349`, `:358`. -/
def Core.insertObject (c : Core K) (o : Object K) : M (Core K) := do
  let f ← paintObject c.g o c.f
  match o.mat.kind with
  | .simple _ => pure { c with f := f }
  | .debye m => do
    let l ← addPol o.mat.name (DebyePol.make c.g m) (fun P => P.insert c.g o) c.debye
    pure { c with f := f, debye := l, prevE := orInit c.prevE f.Ez }
  | .drude m => do
    let l ← addPol o.mat.name (DrudePol.make c.g m) (fun P => P.insert c.g o) c.drude
    pure { c with f := f, drude := l, prevE := orInit c.prevE f.Ez }
  | .lorentz m => do
    let l ← addPol o.mat.name (LorentzPol.make c.g m) (fun P => P.insert c.g o) c.lorentz
    pure { c with f := f, lorentz := l, prevE := orInit c.prevE f.Ez, prev2E := orInit c.prev2E f.Ez }

/-- `P_map.at(name).insert_object(obj)`, `src/field2.cpp:387-392`. -/
def atInsert {P : Type} (name : String) (ins : P → M P) (l : List (String × P)) : M (List (String × P)) :=
  match mapFind name l with
  | none => .error (.exn "map::at")
  | some p => do let p ← ins p; pure (mapSet name p l)

/-- `Field2D::update_object_polarization_grid`, `src/field2.cpp:382-394`. -/
def Core.updatePolGrid (c : Core K) (o : Object K) : M (Core K) :=
  match o.mat.kind with
  | .simple _ => .ok c
  | .debye _ => do let l ← atInsert o.mat.name (fun P => P.insert c.g o) c.debye; pure { c with debye := l }
  | .drude _ => do let l ← atInsert o.mat.name (fun P => P.insert c.g o) c.drude; pure { c with drude := l }
  | .lorentz _ => do
    let l ← atInsert o.mat.name (fun P => P.insert c.g o) c.lorentz; pure { c with lorentz := l }

/-- `Field2D::update_material_grid`, `src/field2.cpp:199-206`; `objs` is `obj_list`. -/
def Core.updateMaterialGrid (c : Core K) (objs : List (Object K)) : M (Core K) := do
  let f ← clearMaterials c.g c.f
  forList objs { c with f := f } (fun o c => do
    let f ← paintObject c.g o c.f
    ({ c with f := f }).updatePolGrid o)

/-- `Field2D::clear_fields`, `src/field2.cpp:212-233`. -/
def Core.clearFields (c : Core K) : Core K :=
  { c with
    t := 0, tStep := 0,
    f := { c.f with Ez := c.f.Ez.fill 0, Hx := c.f.Hx.fill 0, Hy := c.f.Hy.fill 0 },
    debye := c.debye.map (fun p => (p.1, p.2.reset)),
    drude := c.drude.map (fun p => (p.1, p.2.reset)),
    lorentz := c.lorentz.map (fun p => (p.1, p.2.reset)),
    tfsf := c.tfsf.map (·.reset) }

/-- `Field2D::set_tfsf`, `src/field2.cpp:246-250`, without the output file. -/
def Core.setTfsf (c : Core K) (vol : Vol K) (tp : TimeProfile K) : Core K :=
  { c with tfsf := some (Tfsf.make c.g tp vol c.g.dt) }

/-- `Field2D::Field2D`, `src/field2.cpp:26-46`. The coefficient tensors are uninitialised before `clear_materials` fills
them, here they start as zero. -/
def Core.make (g : Grid K) : M (Core K) := do
  let z : Tensor K := .const g.Nx g.Ny 0
  let f ← clearMaterials g ⟨z, z, z, z, z, z, z⟩
  let pml ← Pml.make g
  let sc ← pml.par.scaling g.Nx g.Ny
  pure { g := g, tStep := 0, t := 0, f := f, sc := sc, pml := pml, prevE := none, prev2E := none,
         debye := [], drude := [], lorentz := [], tfsf := none }

/-- `if (opt) opt = v`, `src/field2.cpp:131-134`. -/
def assignIf {α : Type} (o v : Option α) : Option α := match o with | none => none | some _ => v

/-- First part of `Field2D::update`, `src/field2.cpp:123-156`, up to the sources. -/
def Core.stageE (c : Core K) : M (Core K) := do
  let prev2E := assignIf c.prev2E c.prevE
  let prevE := assignIf c.prevE (some c.f.Ez)
  let Ez ← ezLoop c.g.Nx c.g.Ny c.f c.sc
  let (pml, Ez) ← c.pml.updateE c.f.Hx c.f.Hy c.f.Cb Ez
  let (debye, Ez) ← mapUpdateJ (fun P Ez => P.updateJ c.g prevE Ez) c.debye Ez
  let (drude, Ez) ← mapUpdateJ (fun P Ez => P.updateJ c.g prevE Ez) c.drude Ez
  let (lorentz, Ez) ← mapUpdateJ (fun P Ez => P.updateJ c.g prev2E Ez) c.lorentz Ez
  let Ez ← optUpdateD c.tfsf Ez
  pure { c with
    tStep := c.tStep + 1, t := c.t + c.g.dt, prevE := prevE, prev2E := prev2E, f := { c.f with Ez := Ez },
    pml := pml, debye := debye, drude := drude, lorentz := lorentz }

/-- Last part of `Field2D::update`, `src/field2.cpp:174-188`. -/
def Core.stageH (c : Core K) : M (Core K) := do
  let tfsf ← optPulse c.tfsf
  let h ← hLoop c.g.Nx c.g.Ny c.f c.sc
  let (pml, Hx, Hy) ← c.pml.updateH c.f.Ez c.f.Db h.Hx h.Hy
  let h ← optUpdateH tfsf ⟨Hx, Hy⟩
  pure { c with tfsf := tfsf, pml := pml, f := { c.f with Hx := h.Hx, Hy := h.Hy } }

/-- The loop over the sources, `src/field2.cpp:160-162`, when nothing throws. -/
def pulseAll (g : Grid K) (t : K) : List (Source K) → Flds K → M (List (Source K) × Flds K)
  | [], f => .ok ([], f)
  | s :: l, f => do
    let f' ← (s.pulse g t f).2
    let (l', f'') ← pulseAll g t l f'
    pure ((s.pulse g t f).1 :: l', f'')

/-- The physical part of `Field2D::update`: everything except clocks, monitors and output. -/
def Core.update (c : Core K) (srcs : List (Source K)) : M (Core K × List (Source K)) := do
  let c ← c.stageE
  let (srcs, f) ← pulseAll c.g c.t srcs c.f
  let c ← ({ c with f := f }).stageH
  pure (c, srcs)

/-- `n` calls of `update()`. -/
def Core.run : ℕ → Core K → List (Source K) → M (Core K × List (Source K))
  | 0, c, l => .ok (c, l)
  | n + 1, c, l => do
    let (c, l) ← c.update l
    Core.run n c l

end

end Qbox
