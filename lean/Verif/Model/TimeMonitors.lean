import Verif.Model.Monitors

/-!
# `include/time_monitors/*.h`, `src/time_monitors/*.cpp` and the output file

The output file is represented by the objects of its group `fields`: groups (one per time monitor) and data sets, each with the
rows written to it.  HDF5 itself is not modelled.  A call of `h5cpp` that finds an object of the wrong kind, or creates one that
already exists, is an exception here.
-/

namespace Qbox
open Scalar

/-! ### `every` with 32-bit counters -/

/-- `struct every`, `include/time_monitors/time_monitor.h:11-31`. The members are 32-bit `int`s, here integers. -/
structure Every where
  nRepeat : ℤ
  n : ℤ
  never : Bool

/-- Conversion of an `unsigned int` to `int`: modulo `2^32`. -/
def toInt32 (r : ℕ) : ℤ := if r < 2 ^ 31 then r else (r : ℤ) - 2 ^ 32

/-- `every(unsigned int r)`, `include/time_monitors/time_monitor.h:12-14`, for `r < 2^32`. -/
def Every.make (r : ℕ) : Every := ⟨toInt32 r, 1, decide (r = 0)⟩

/-- `every::check_repeat`, `include/time_monitors/time_monitor.h:16-26`. Division by zero and the signed overflow of `n += 1` are
undefined behaviour. `%` truncates. -/
def Every.check (e : Every) : M (Bool × Every) :=
  if e.never then .ok (false, e)
  else if e.nRepeat = 0 then .error (.ub .divZero)
  else if e.n.tmod e.nRepeat = 0 then .ok (true, { e with n := 1 })
  else if e.n = 2 ^ 31 - 1 then .error (.ub .overflow)
  else .ok (false, { e with n := e.n + 1 })

/-! ### The file -/

/-- One entry of a data set: the dimensions and the values in row-major order. -/
structure Row (K : Type) where
  dims : List ℤ
  data : List K

/-- The members of the group `fields`. `groups` are its sub-groups. `sets` are the data sets: `(none, C)` is `fields/C` and
`(some n, C)` is `fields/n/C`. -/
structure File (K : Type) where
  groups : List String
  sets : List ((Option String × Fields) × List (Row K))

/-- `field_names`, `src/field2.cpp:22-24`. -/
def fieldName : Fields → String
  | .Ez => "Ez"
  | .Hx => "Hx"
  | .Hy => "Hy"
  | .E => "E"
  | .H => "H"
  | .all => "all"

section
variable {K : Type} [Scalar K]

/-- The rows of a data set. -/
def File.rows (F : File K) (k : Option String × Fields) : Option (List (Row K)) :=
  (F.sets.find? (fun e => e.1 == k)).map (·.2)

/-- `append` on an existing data set. -/
def File.append (F : File K) (k : Option String × Fields) (r : Row K) : File K :=
  { F with sets := F.sets.map (fun e => if e.1 == k then (e.1, e.2 ++ [r]) else e) }

/-- exception of a failing HDF5 call -/
def h5Fault : Fault := .exn "HDF5 error"

/-- Creation of a data set with one row. -/
def File.create (F : File K) (k : Option String × Fields) (r : Row K) : M (File K) :=
  match F.rows k with
  | some _ => .error h5Fault
  | none =>
    if k.1 = none ∧ fieldName k.2 ∈ F.groups then .error h5Fault
    else .ok { F with sets := F.sets ++ [(k, [r])] }

/-- `create_or_open_group(name)` in `fields`. -/
def File.openGroup (F : File K) (name : String) : M (File K) :=
  if name ∈ F.groups then .ok F
  else if F.sets.any (fun e => e.1.1 == none && fieldName e.1.2 == name) then .error h5Fault
  else .ok { F with groups := F.groups ++ [name] }

/-- The values of an array in row-major order. -/
def Tensor.row (a : Tensor K) : Row K :=
  ⟨[a.nx, a.ny], (intRange 0 a.nx).flatMap (fun i => (intRange 0 a.ny).map (fun j => a.val i j))⟩

/-! ### Time monitors -/

/-- Which nodes are written: `point_time_monitor`, `surface_time_monitor`, `volume_time_monitor`. -/
inductive TShape (K : Type)
  | point (pos : V2 K)
  | surface (surf : Surf K)
  | volume (vol : Vol K)

/-- `class time_monitor`, `include/time_monitors/time_monitor.h:36-65`. `dsets` are the keys of the map of open data sets; `what` is the
member `Fields`. -/
structure TMon (K : Type) where
  name : String
  shape : TShape K
  what : Fields
  outFreq : Every
  dsets : List Fields

/-- `set_F`: `src/time_monitors/time_monitor.cpp:8-11` and e.g. `src/time_monitors/point_time_monitor.cpp:11-14`. The properties
are written to the group of the monitor, which fails when they exist already. -/
def TMon.setF (F : File K) (m : TMon K) : M (File K) :=
  if m.name ∈ F.groups then .error h5Fault else F.openGroup m.name

/-- A loop that collects values, in order. -/
def collect {α : Type} (read : α → M K) : List α → M (List K)
  | [] => .ok []
  | a :: l => do
    let v ← read a
    let vs ← collect read l
    pure (v :: vs)

/-- The snapshot taken by `write_impl`: `src/time_monitors/point_time_monitor.cpp:17-19`,
`surface_time_monitor.cpp:17-25`, `volume_time_monitor.cpp:17-28`. -/
def TShape.snapshot (g : Grid K) (a : Tensor K) : TShape K → M (Row K)
  | .point pos => do
    let p := g.toGrid pos
    let v ← a.rd p.x p.y
    pure ⟨[], [v]⟩
  | .surface surf => do
    let is ← g.toGridS surf
    let length := is.dim.inorm
    let vs ← collect (fun i => let p := is.a + V2.smul i is.tangent; a.rd p.x p.y) (intRange 0 length)
    pure ⟨[length], vs⟩
  | .volume vol => do
    let iv := g.toGridV vol
    let vs ← collect (fun q => let p := iv.a + ⟨q.1, q.2⟩; a.rd p.x p.y) (pos2 (iv.dim.x + 1) (iv.dim.y + 1))
    pure ⟨[iv.dim.x + 1, iv.dim.y + 1], vs⟩

/-- `write_impl(A)`, e.g. `src/time_monitors/point_time_monitor.cpp:16-31`. -/
def TMon.writeImpl (g : Grid K) (f : Flds K) (A : Fields) (m : TMon K) (F : File K) : M (TMon K × File K) := do
  let a ← f.get A
  let r ← m.shape.snapshot g a
  if A ∈ m.dsets then pure (m, F.append (some m.name, A) r)
  else do
    let F ← F.openGroup m.name
    let F ← F.create (some m.name, A) r
    pure ({ m with dsets := m.dsets ++ [A] }, F)

/-- `write(E)`, `src/time_monitors/time_monitor.cpp:31`. -/
def TMon.writeE (g : Grid K) (f : Flds K) (m : TMon K) (F : File K) : M (TMon K × File K) :=
  m.writeImpl g f .Ez F

/-- `write(H)`, `src/time_monitors/time_monitor.cpp:32-33`. -/
def TMon.writeH (g : Grid K) (f : Flds K) (m : TMon K) (F : File K) : M (TMon K × File K) := do
  let (m, F) ← m.writeImpl g f .Hx F
  m.writeImpl g f .Hy F

/-- `time_monitor::write(A)`, `src/time_monitors/time_monitor.cpp:29-38`, with its recursive calls resolved. -/
def TMon.writeA (g : Grid K) (f : Flds K) (A : Fields) (m : TMon K) (F : File K) : M (TMon K × File K) :=
  match A with
  | .E => m.writeE g f F
  | .H => m.writeH g f F
  | .all => do
    let (m, F) ← m.writeE g f F
    m.writeH g f F
  | A => m.writeImpl g f A F

/-- `time_monitor::write()`, `src/time_monitors/time_monitor.cpp:25-27`. -/
def TMon.write (g : Grid K) (f : Flds K) (m : TMon K) (F : File K) : M (TMon K × File K) :=
  m.writeA g f m.what F

/-- `time_monitor::write_if_ready`, `src/time_monitors/time_monitor.cpp:20-23`. -/
def TMon.writeIfReady (g : Grid K) (f : Flds K) (m : TMon K) (F : File K) : M (TMon K × File K) := do
  let (ready, e) ← m.outFreq.check
  let m := { m with outFreq := e }
  if ready then m.write g f F else pure (m, F)

/-- The loop over the time monitors, `src/field2.cpp:193-195`. -/
def writeReady (g : Grid K) (f : Flds K) : List (TMon K) → File K → M (List (TMon K) × File K)
  | [], F => .ok ([], F)
  | m :: l, F => do
    let (m, F) ← m.writeIfReady g f F
    let (l, F) ← writeReady g f l F
    pure (m :: l, F)

/-! What an exception leaves behind: the time monitor and the file when the call of the same name throws. -/

/-- `write_impl(A)` left by an exception, e.g. `src/time_monitors/point_time_monitor.cpp:16-31`: the group may have been created. -/
def TMon.writeImplLeft (g : Grid K) (f : Flds K) (A : Fields) (m : TMon K) (F : File K) : TMon K × File K :=
  match (do let a ← f.get A; m.shape.snapshot g a : M (Row K)) with
  | .error _ => (m, F)
  | .ok _ =>
    if A ∈ m.dsets then (m, F)
    else match F.openGroup m.name with
      | .error _ => (m, F)
      | .ok F => (m, F)

/-- `x` and then `y`, of which one throws. -/
def thenLeft {σ : Type} (x : M σ) (left : σ) (y : σ → σ) : σ :=
  match x with
  | .ok s => y s
  | .error _ => left

/-- `write(H)` left by an exception, `src/time_monitors/time_monitor.cpp:32-33`. -/
def TMon.writeHLeft (g : Grid K) (f : Flds K) (m : TMon K) (F : File K) : TMon K × File K :=
  thenLeft (m.writeImpl g f .Hx F) (m.writeImplLeft g f .Hx F) fun r => r.1.writeImplLeft g f .Hy r.2

/-- `time_monitor::write()` left by an exception, `src/time_monitors/time_monitor.cpp:25-38`. -/
def TMon.writeLeft (g : Grid K) (f : Flds K) (m : TMon K) (F : File K) : TMon K × File K :=
  match m.what with
  | .E => m.writeImplLeft g f .Ez F
  | .H => m.writeHLeft g f F
  | .all => thenLeft (m.writeE g f F) (m.writeImplLeft g f .Ez F) fun r => r.1.writeHLeft g f r.2
  | A => m.writeImplLeft g f A F

/-- `time_monitor::write_if_ready` left by an exception, `src/time_monitors/time_monitor.cpp:20-23`: the counter has been advanced. -/
def TMon.writeIfReadyLeft (g : Grid K) (f : Flds K) (m : TMon K) (F : File K) : TMon K × File K :=
  match m.outFreq.check with
  | .error _ => (m, F)
  | .ok (ready, e) => if ready then { m with outFreq := e }.writeLeft g f F else ({ m with outFreq := e }, F)

/-- The loop over the time monitors left by an exception, `src/field2.cpp:193-195`: the time monitors before the one that throws have written. -/
def writeReadyLeft (g : Grid K) (f : Flds K) : List (TMon K) → File K → List (TMon K) × File K
  | [], F => ([], F)
  | m :: l, F =>
    match m.writeIfReady g f F with
    | .ok (m, F) => let r := writeReadyLeft g f l F; (m :: r.1, r.2)
    | .error _ => let r := m.writeIfReadyLeft g f F; (r.1 :: l, r.2)

/-- `write_field` on the file, `src/field2.cpp:61-88` (`create_fields_dataset`, `:315-318`). -/
def File.writeField (f : Flds K) (C : Fields) (F : File K) : M (File K) := do
  let a ← f.get C
  match F.rows (none, C) with
  | some _ => pure (F.append (none, C) a.row)
  | none => F.create (none, C) a.row

end

end Qbox
