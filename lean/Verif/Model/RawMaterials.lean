import Verif.Model.Core

/-!
# Dispersive materials as the user gives them: arrays of parameters

`Verif.Model.Materials` keeps one list of poles. The constructors of `debye`, `drude` and `lorentz` take one array for each parameter
and do not compare their lengths (`src/materials/debye.cpp:9-12`, `drude.cpp:9-13`, `lorentz.cpp:9-13`). Here the arrays are kept apart, and the functions
that combine them are written with Eigen's coefficient-wise operators.
-/

namespace Qbox
open Scalar

/-- The members of `debye`, `include/materials/debye.h:36-38`. -/
structure RawDebye (K : Type) where
  epsInf : K
  dEps : List K
  tau : List K

/-- The members of `drude`, `include/materials/drude.h`. -/
structure RawDrude (K : Type) where
  epsInf : K
  omega : List K
  gamma : List K

/-- The members of `lorentz`, `include/materials/lorentz.h`. -/
structure RawLorentz (K : Type) where
  epsInf : K
  omega : List K
  dEps : List K
  gamma : List K

/-- A dispersive material. -/
inductive RawKind (K : Type)
  | debye (m : RawDebye K)
  | drude (m : RawDrude K)
  | lorentz (m : RawLorentz K)

section
variable {K : Type} [Scalar K]

/-- A coefficient-wise operation between two Eigen arrays of dynamic size: it asserts that the sizes agree; with `NDEBUG` one of the arrays is read
past its end. Both are undefined behaviour here. -/
def cwise (op : K → K → K) (a b : List K) : M (List K) :=
  if a.length = b.length then .ok (List.zipWith op a b) else .error (.ub .oob)

/-- `debye::beta`, `src/materials/debye.cpp:32-34`. -/
def RawDebye.beta (m : RawDebye K) (dt : K) : M (List K) := do
  let a ← cwise (· / ·) (m.dEps.map (· * dt)) m.tau
  cwise (· / ·) a (m.tau.map fun t => 1 + dt / (ofInt 2 * t))

/-- `debye::Ca`, `src/materials/debye.cpp:40-42`. -/
def RawDebye.Ca (_ : RawDebye K) (_ : K) : M K := .ok 1

/-- `debye::Cb`, `src/materials/debye.cpp:44-47`. -/
def RawDebye.Cb (m : RawDebye K) (dt : K) : M K := do
  let b ← m.beta dt
  pure ((ofInt 2 * dt) / (ofInt 2 * m.epsInf + sumL b))

/-- `drude::beta`, `src/materials/drude.cpp:34-36`. -/
def RawDrude.beta (m : RawDrude K) (dt : K) : M (List K) :=
  cwise (· / ·) (m.omega.map fun w => npow w 2 * dt / ofInt 2) (m.gamma.map fun c => 1 + c * dt / ofInt 2)

/-- `drude::Ca`, `src/materials/drude.cpp:42-45`. -/
def RawDrude.Ca (m : RawDrude K) (dt : K) : M K := do
  let b ← m.beta dt
  pure ((ofInt 2 * m.epsInf - dt * sumL b) / (ofInt 2 * m.epsInf + dt * sumL b))

/-- `drude::Cb`, `src/materials/drude.cpp:47-50`. -/
def RawDrude.Cb (m : RawDrude K) (dt : K) : M K := do
  let b ← m.beta dt
  pure ((ofInt 2 * dt) / (ofInt 2 * m.epsInf + dt * sumL b))

/-- `lorentz::delta`, `src/materials/lorentz.cpp:47-49`. -/
def RawLorentz.delta (m : RawLorentz K) (dt : K) : M (List K) := do
  let a ← cwise (· * ·) m.dEps (m.omega.map fun w => npow w 2)
  cwise (· / ·) (a.map (· * npow dt 2)) (m.gamma.map fun c => 1 + c * dt)

/-- `lorentz::Ca`, `src/materials/lorentz.cpp:56-59`. -/
def RawLorentz.Ca (m : RawLorentz K) (dt : K) : M K := do
  let d ← m.delta dt
  pure ((ofInt 2 * m.epsInf) / (ofInt 2 * m.epsInf + sumL d / ofInt 2))

/-- `lorentz::Cb`, `src/materials/lorentz.cpp:61-64`. -/
def RawLorentz.Cb (m : RawLorentz K) (dt : K) : M K := do
  let d ← m.delta dt
  pure ((ofInt 2 * dt) / (ofInt 2 * m.epsInf + sumL d / ofInt 2))

/-- `mat_ptr->Ca(dt)`, `src/field2.cpp:373`. -/
def RawKind.Ca (dt : K) : RawKind K → M K
  | .debye m => m.Ca dt
  | .drude m => m.Ca dt
  | .lorentz m => m.Ca dt

/-- `mat_ptr->Cb(dt)`, `src/field2.cpp:374`. -/
def RawKind.Cb (dt : K) : RawKind K → M K
  | .debye m => m.Cb dt
  | .drude m => m.Cb dt
  | .lorentz m => m.Cb dt

/-- `src/field2.cpp:373-376`. -/
def setRaw (k : RawKind K) (dt : K) (i j : ℤ) (f : Flds K) : M (Flds K) := do
  let a ← k.Ca dt
  let Ca ← f.Ca.wr i j a
  let b ← k.Cb dt
  let Cb ← f.Cb.wr i j b
  let Da ← f.Da.wr i j 1
  let Db ← f.Db.wr i j dt
  pure { f with Ca := Ca, Cb := Cb, Da := Da, Db := Db }

/-- `Field2D::update_object_material_grid`, `src/field2.cpp:361-380`. -/
def paintRaw (g : Grid K) (o : Object K) (k : RawKind K) (f : Flds K) : M (Flds K) :=
  let b := objBox g o
  forRange b.a.x (b.b.x + 1) f (fun i f => forRange b.a.y (b.b.y + 1) f (fun j f =>
    if o.inside (g.toReal ⟨i, j⟩) then setRaw k g.dt i j f else .ok f))

/-- The poles of the arrays. -/
def RawDebye.zip (m : RawDebye K) : Debye K := ⟨m.epsInf, List.zipWith DebyePole.mk m.dEps m.tau⟩
/-- The poles of the arrays. -/
def RawDrude.zip (m : RawDrude K) : Drude K := ⟨m.epsInf, List.zipWith DrudePole.mk m.omega m.gamma⟩
/-- The poles of the arrays. -/
def RawLorentz.zip (m : RawLorentz K) : Lorentz K :=
  ⟨m.epsInf, List.zipWith (fun (q : K × K) c => LorentzPole.mk q.1 q.2 c) (List.zip m.omega m.dEps) m.gamma⟩

/-- The constructor of `debye_polarization` and its first `insert_object`, `src/materials/debye_polarization.cpp:7-24`. The arrays have `Npoles()`, the
length of `delta_epsilon` (`include/materials/debye.h:29`). The polarization keeps the material; its poles are only formed when `beta` has succeeded. -/
def RawDebye.fresh (g : Grid K) (m : RawDebye K) (o : Object K) : M (DebyePol K) := do
  let vals ← m.beta g.dt
  let b ← insertLoop g m.dEps.length (.ofList vals) o (.const g.Nx g.Ny m.dEps.length 0)
  pure ⟨m.zip, m.dEps.length, .const g.Nx g.Ny m.dEps.length 0, b⟩

/-- The same for `drude_polarization`, `src/materials/drude_polarization.cpp:7-24`. -/
def RawDrude.fresh (g : Grid K) (m : RawDrude K) (o : Object K) : M (DrudePol K) := do
  let vals ← m.beta g.dt
  let b ← insertLoop g m.omega.length (.ofList vals) o (.const g.Nx g.Ny m.omega.length 0)
  pure ⟨m.zip, m.omega.length, .const g.Nx g.Ny m.omega.length 0, b⟩

/-- The same for `lorentz_polarization`, `src/materials/lorentz_polarization.cpp:7-25`. -/
def RawLorentz.fresh (g : Grid K) (m : RawLorentz K) (o : Object K) : M (LorentzPol K) := do
  let vals ← m.delta g.dt
  let b ← insertLoop g m.omega.length (.ofList vals) o (.const g.Nx g.Ny m.omega.length 0)
  pure ⟨m.zip, m.omega.length, .const g.Nx g.Ny m.omega.length 0, b, .const g.Nx g.Ny m.omega.length 0⟩

/-- `add_polarization`, `include/field2.h:171-184`, with a constructor that may fail. An entry that exists keeps its own material. -/
def addRaw {P : Type} (name : String) (fresh : M P) (ins : P → M P) (l : List (String × P)) : M (List (String × P)) :=
  match mapFind name l with
  | none => do let p ← fresh; pure (mapInsert name p l)
  | some p => do let p ← ins p; pure (mapSet name p l)

/-- `Field2D::insert_object`, `src/field2.cpp:320-349`, `:358`, for an object of a dispersive material. Of `o` only the geometry is used. -/
def Core.insertRaw (c : Core K) (o : Object K) (name : String) (k : RawKind K) : M (Core K) := do
  let f ← paintRaw c.g o k c.f
  match k with
  | .debye m => do
    let l ← addRaw name (m.fresh c.g o) (fun P => P.insert c.g o) c.debye
    pure { c with f := f, debye := l, prevE := orInit c.prevE f.Ez }
  | .drude m => do
    let l ← addRaw name (m.fresh c.g o) (fun P => P.insert c.g o) c.drude
    pure { c with f := f, drude := l, prevE := orInit c.prevE f.Ez }
  | .lorentz m => do
    let l ← addRaw name (m.fresh c.g o) (fun P => P.insert c.g o) c.lorentz
    pure { c with f := f, lorentz := l, prevE := orInit c.prevE f.Ez, prev2E := orInit c.prev2E f.Ez }

/-- Eigen's comma initializer `x << a, b` into an array of size `n`: it asserts that the array is filled exactly; with `NDEBUG` it writes past the end
or leaves entries uninitialised. Both are undefined behaviour here. -/
def comma (n : ℕ) (a b : List K) : M (List K) :=
  if a.length + b.length = n then .ok (a ++ b) else .error (.ub .oob)

/-- `drude_lorentz`, `src/materials/creation.cpp:8-24`. -/
def rawDrudeLorentz (d : RawDrude K) (l : RawLorentz K) : M (RawLorentz K) := do
  let n := d.omega.length + l.omega.length
  let omega ← comma n (d.omega.map fun _ => lit1e20) l.omega
  let dEps ← comma n (d.omega.map fun w => npow w 2 / npow lit1e20 2) l.dEps
  let gamma ← comma n (d.gamma.map fun c => c / ofInt 2) l.gamma
  pure ⟨d.epsInf, omega, dEps, gamma⟩

end

end Qbox
