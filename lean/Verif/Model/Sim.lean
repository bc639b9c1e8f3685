import Verif.Model.TimeMonitors
import Verif.Model.Timer

/-!
# `Field2D` as a user sees it: objects, sources, monitors, output file, clocks, and the public calls

A call ends normally, with an exception that leaves the object in some state, or with undefined behaviour.
-/

namespace Qbox
open Scalar

/-- Outcome of a call on a state of type `σ`. -/
inductive Res (σ : Type)
  | ok (s : σ)
  | threw (msg : String) (s : σ)
  | ub (u : UB)

/-- Run `x`; on an exception the state is `s`. -/
def tryM {σ β : Type} (x : M β) (s : σ) (k : β → Res σ) : Res σ :=
  match x with
  | .ok b => k b
  | .error (.exn m) => .threw m s
  | .error (.ub u) => .ub u

/-- `Field2D`, `include/field2.h:82-130`. -/
structure Sim (K : Type) where
  core : Core K
  objs : List (Object K)
  srcs : List (Source K)
  mons : List (Monitor K)
  tmons : List (TMon K)
  mats : List String
  file : File K
  clocks : Clocks

/-- Result of the loop over the sources: what has been done when it ends or is left by an exception. -/
structure Pulsed (K : Type) where
  srcs : List (Source K)
  f : Flds K
  err : Option Fault

section
variable {K : Type} [Scalar K]

/-- The loop over the sources, `src/field2.cpp:160-162`. -/
def pulseTry (g : Grid K) (t : K) : List (Source K) → Flds K → Pulsed K
  | [], f => ⟨[], f, none⟩
  | s :: l, f =>
    match (s.pulse g t f).2 with
    | .error e => ⟨(s.pulse g t f).1 :: l, f, some e⟩
    | .ok f' =>
      let r := pulseTry g t l f'
      ⟨(s.pulse g t f).1 :: r.srcs, r.f, r.err⟩

/-- `tStep += 1; t += dt`, `src/field2.cpp:123-124`. -/
def Core.tick (c : Core K) : Core K := { c with tStep := c.tStep + 1, t := c.t + c.g.dt }

/-- `Field2D::update`, `src/field2.cpp:122-197`. Monitors cannot throw (see `Verif/Props/SimProps.lean`); when a time monitor
throws, the state kept is that before the loop over the time monitors. -/
def Sim.update (now : ℕ → ℝ) (s : Sim K) : Res (Sim K) :=
  tryM (s.clocks.begin now .looping) { s with core := s.core.tick } fun ck =>
  tryM s.core.stageE { s with clocks := ck } fun c =>
  let r := pulseTry c.g c.t s.srcs c.f
  let s := { s with clocks := ck, core := { c with f := r.f }, srcs := r.srcs }
  tryM (match r.err with | none => .ok () | some e => .error e) s fun _ =>
  tryM (s.clocks.stop now .looping) s fun ck =>
  tryM (ck.begin now .fourier) { s with clocks := ck } fun ck =>
  tryM (mapM' (Monitor.update s.core.g s.core.f s.core.t) s.mons) { s with clocks := ck } fun mons =>
  let s := { s with clocks := ck, mons := mons }
  tryM (s.clocks.stop now .fourier) s fun ck =>
  tryM (ck.begin now .looping) { s with clocks := ck } fun ck =>
  tryM s.core.stageH { s with clocks := ck } fun c =>
  let s := { s with clocks := ck, core := c }
  tryM (s.clocks.stop now .looping) s fun ck =>
  let s := { s with clocks := ck }
  let left := writeReadyLeft s.core.g s.core.f s.tmons s.file
  tryM (writeReady s.core.g s.core.f s.tmons s.file) { s with tmons := left.1, file := left.2 } fun (tmons, file) =>
  .ok { s with tmons := tmons, file := file }

/-- `Field2D::write_field`, `src/field2.cpp:59-90`. -/
def Sim.writeField (now : ℕ → ℝ) (C : Fields) (s : Sim K) : Res (Sim K) :=
  tryM (s.clocks.begin now .hdf5) s fun ck =>
  let s := { s with clocks := ck }
  tryM (s.file.writeField s.core.f C) s fun file =>
  let s := { s with file := file }
  tryM (s.clocks.stop now .hdf5) s fun ck =>
  .ok { s with clocks := ck }

/-- `monitors[i] -= other`, `include/monitors/rank_monitor.h:16-18`, `box_monitor.h:98-101`. Surface, cylinder and box monitors are all
`rank_monitor<1>`, so the one on the left may be a surface or cylinder monitor and the one on the right any of the three; to a box monitor only a
box monitor can be subtracted. Other combinations do not compile and are represented as doing nothing. -/
def Monitor.sub : Monitor K → Monitor K → M (Monitor K)
  | .surf m, .surf o => do let m ← m.sub o; pure (.surf m)
  | .surf m, .cyl o => do let d ← m.fourier.sub o.fourier; pure (.surf { m with fourier := d })
  | .surf m, .box o => do let d ← m.fourier.sub o.fourier; pure (.surf { m with fourier := d })
  | .box m, .box o => do let m ← m.sub o; pure (.box m)
  | .vol m, .vol o => do let d ← m.fourier.sub o.fourier; pure (.vol { m with fourier := d })
  | .point m, .point o => do let d ← m.fourier.sub o.fourier; pure (.point { m with fourier := d })
  | .cyl m, .cyl o => do let d ← m.fourier.sub o.fourier; pure (.cyl { m with fourier := d })
  | .cyl m, .surf o => do let d ← m.fourier.sub o.fourier; pure (.cyl { m with fourier := d })
  | .cyl m, .box o => do let d ← m.fourier.sub o.fourier; pure (.cyl { m with fourier := d })
  | m, _ => .ok m

/-- `monitors[i]` when `monitors[i] -= other` is left by an exception. -/
def Monitor.subLeft : Monitor K → Monitor K → Monitor K
  | .surf m, .surf o => .surf (m.subLeft o)
  | .surf m, .cyl o => .surf { m with fourier := m.fourier.subLeft o.fourier }
  | .surf m, .box o => .surf { m with fourier := m.fourier.subLeft o.fourier }
  | .box m, .box o => .box (m.subLeft o)
  | .vol m, .vol o => .vol { m with fourier := m.fourier.subLeft o.fourier }
  | .point m, .point o => .point { m with fourier := m.fourier.subLeft o.fourier }
  | .cyl m, .cyl o => .cyl { m with fourier := m.fourier.subLeft o.fourier }
  | .cyl m, .surf o => .cyl { m with fourier := m.fourier.subLeft o.fourier }
  | .cyl m, .box o => .cyl { m with fourier := m.fourier.subLeft o.fourier }
  | m, _ => m

/-- The calls a program can make on a simulation. -/
inductive Op (K : Type)
  | update
  | addObject (o : Object K)
  | addSource (s : Source K)
  | addMonitor (m : Monitor K)
  | addTimeMonitor (m : TMon K)
  | clearFields
  | clearMaterials
  | updateMaterialGrid
  | removeMonitors
  | setTfsf (vol : Vol K) (tp : TimeProfile K)
  | writeField (C : Fields)
  | writeE
  | writeH
  /-- `write_monitor(mon)`, which does nothing but use the clock -/
  | writeMonitor
  /-- a pose call on the `i`-th object -/
  | pose (i : ℕ) (p : PoseOp K)
  /-- `write()` on the `i`-th time monitor -/
  | writeTimeMonitor (i : ℕ)
  /-- `-=` on the `i`-th monitor -/
  | subtract (i : ℕ) (o : Monitor K)

/-- The next call, if the first one ends normally. -/
def Res.andThen {σ : Type} (r : Res σ) (k : σ → Res σ) : Res σ :=
  match r with
  | .ok s => k s
  | .threw m s => .threw m s
  | .ub u => .ub u

/-- One call. `add`: `include/field2.h:133-168`; `insert_object_helper`: `src/field2.cpp:351-359`; the others at
`src/field2.cpp:92-105`, `:199-250`. Access to a monitor or object that does not exist leaves the state as it is. -/
def Sim.step (now : ℕ → ℝ) (s : Sim K) : Op K → Res (Sim K)
  | .update => s.update now
  | .addObject o =>
    let s := if o.mat.name ∈ s.mats then s else { s with mats := s.mats ++ [o.mat.name] }
    tryM (s.core.insertObject o) s fun c => .ok { s with core := c, objs := s.objs ++ [o] }
  | .addSource x => .ok { s with srcs := s.srcs ++ [x] }
  | .addMonitor m => tryM (m.setF s.core.g) s fun m => .ok { s with mons := s.mons ++ [m] }
  | .addTimeMonitor m => tryM (m.setF s.file) s fun file => .ok { s with file := file, tmons := s.tmons ++ [m] }
  | .clearFields => .ok { s with core := s.core.clearFields }
  | .clearMaterials => tryM (Qbox.clearMaterials s.core.g s.core.f) s fun f => .ok { s with core := { s.core with f := f } }
  | .updateMaterialGrid => tryM (s.core.updateMaterialGrid s.objs) s fun c => .ok { s with core := c }
  | .removeMonitors => .ok { s with mons := [] }
  | .setTfsf vol tp => .ok { s with core := s.core.setTfsf vol tp }
  | .writeField C => s.writeField now C
  | .writeE => s.writeField now .Ez
  | .writeH => (s.writeField now .Hx).andThen (fun s => s.writeField now .Hy)
  | .writeMonitor =>
    tryM (s.clocks.begin now .hdf5) s fun ck =>
    tryM (ck.stop now .hdf5) { s with clocks := ck } fun ck => .ok { s with clocks := ck }
  | .pose i p => .ok { s with objs := s.objs.modify i (fun o => o.pose p) }
  | .writeTimeMonitor i =>
    match s.tmons[i]? with
    | none => .ok s
    | some m =>
      let left := m.writeLeft s.core.g s.core.f s.file
      tryM (m.write s.core.g s.core.f s.file) { s with tmons := s.tmons.set i left.1, file := left.2 } fun (m, file) =>
        .ok { s with tmons := s.tmons.set i m, file := file }
  | .subtract i o =>
    match s.mons[i]? with
    | none => .ok s
    | some m => tryM (m.sub o) { s with mons := s.mons.set i (m.subLeft o) } fun m => .ok { s with mons := s.mons.set i m }

/-- A program: a sequence of calls. Exceptions are caught and the program goes on with the next call. -/
def Sim.run (now : ℕ → ℝ) : Sim K → List (Op K) → M (Sim K)
  | s, [] => .ok s
  | s, op :: l =>
    match s.step now op with
    | .ok s => Sim.run now s l
    | .threw _ s => Sim.run now s l
    | .ub u => .error (.ub u)

/-- A program in which no call throws; it ends at the first exception. -/
def Sim.runOk (now : ℕ → ℝ) : Sim K → List (Op K) → M (Sim K)
  | s, [] => .ok s
  | s, op :: l =>
    match s.step now op with
    | .ok s => Sim.runOk now s l
    | .threw m _ => .error (.exn m)
    | .ub u => .error (.ub u)

/-- `Field2D::Field2D(grid, filename)`, `src/field2.cpp:26-57`. With an empty file name `outFile` stays null and `:55`
dereferences it. -/
def Sim.make (now : ℕ → ℝ) (g : Grid K) (filename : String) : M (Sim K) := do
  let ck ← Clocks.make now
  let c ← Core.make g
  if filename = "" then .error (.ub .null)
  else pure { core := c, objs := [], srcs := [], mons := [], tmons := [], mats := [], file := ⟨[], []⟩, clocks := ck }

end

end Qbox
