import Verif.Model.Sim
import Verif.Model.Recenter

/-!
# The output file outside the group `fields`, and `Field2D` together with it

`Verif/Model/Sim.lean` has the group `fields` of the file. Here are the other groups (`grid`, `materials`, `objects`,
`dynamic_objects`, `sources`, `monitors`) and the calls that write to them.

HDF5 is represented by a finite map from paths to objects: creating an object where there is one fails, opening a group where there
is none creates it, a reference can only be made to an existing object. A failing call of `h5cpp` throws; what has been written
before it stays. Names containing `/` and errors of the file system are not represented. Shapes of arrays are not kept, only the
values in row-major order.
-/

namespace Qbox
open Scalar

/-- A path, from the root. -/
abbrev Path := List String

/-- An object in the file. -/
inductive H5Obj (K : Type)
  | group
  /-- a data set of numbers -/
  | nums (v : List K)
  /-- a data set of integers -/
  | ints (v : List ℤ)
  /-- a string -/
  | text (s : String)
  /-- a data set of complex numbers -/
  | cxs (v : List (Cx K))
  /-- an object reference -/
  | ref (p : Path)
  /-- a data set created with `append::True`: one entry per row -/
  | series (rows : List (List K))

/-- The file. -/
abbrev Tree (K : Type) := List (Path × H5Obj K)

section
variable {K : Type} [Scalar K]

/-- The object at a path. -/
def Tree.at (t : Tree K) (p : Path) : Option (H5Obj K) := (t.find? (fun e => e.1 == p)).map (·.2)

/-- `create_or_open_group`, or creation of a data set; `none` when it fails. -/
def Tree.put (t : Tree K) (p : Path) (n : H5Obj K) : Option (Tree K) :=
  match t.at p, n with
  | some .group, .group => some t
  | some _, _ => none
  | none, .ref q => if (t.at q).isSome then some (t ++ [(p, n)]) else none
  | none, _ => some (t ++ [(p, n)])

/-- Several of these calls; the first that fails ends them. The second component says whether all succeeded. -/
def Tree.puts : Tree K → List (Path × H5Obj K) → Tree K × Bool
  | t, [] => (t, true)
  | t, (p, n) :: l =>
    match t.put p n with
    | some t' => Tree.puts t' l
    | none => (t, false)

/-- `open_dataset(...).append(row)`; `none` when it fails. -/
def Tree.append (t : Tree K) (p : Path) (row : List K) : Option (Tree K) :=
  match t.at p with
  | some (.series _) =>
    some (t.map fun e => if e.1 == p then (e.1, match e.2 with | .series rows => .series (rows ++ [row]) | n => n) else e)
  | _ => none

/-- The three nested `create_or_open_group` of the `get_group` functions: `src/object.cpp:29-35`, `src/sources/source.cpp:25-31`,
`src/monitors/monitor.cpp:21-27`. -/
def groups3 (a b c : String) : List (Path × H5Obj K) := [([a], .group), ([a, b], .group), ([a, b, c], .group)]

/-- the two components of a vector, `h5cpp::write_vector` -/
def V2.list (v : V2 K) : List K := [v.x, v.y]

/-! ### Properties -/

/-- `grid_properties::write`, `src/grid.cpp:76-85`, with `create_group("grid")`, `src/field2.cpp:55`. -/
def Grid.entries (g : Grid K) : List (Path × H5Obj K) :=
  [(["grid"], .group), (["grid", "Lx"], .nums [g.Lx]), (["grid", "Ly"], .nums [g.Ly]), (["grid", "Nx"], .ints [g.Nx]),
   (["grid", "Ny"], .ints [g.Ny]), (["grid", "dx"], .nums [g.dx]), (["grid", "dt"], .nums [g.dt]),
   (["grid", "resolution"], .nums [g.res]), (["grid", "pml_thickness"], .ints [g.T])]

/-- What `write` of a material writes into its group: `src/materials/simple_material.cpp:20-23`, `debye.cpp:26-29`,
`drude.cpp:28-31`, `lorentz.cpp:32-36`. -/
def MatKind.params : MatKind K → List (String × H5Obj K)
  | .simple m => [("material_type", .text "simple"), ("eps", .nums [m.eps]), ("mu", .nums [m.mu]), ("conduc", .nums [m.conduc])]
  | .debye m => [("material_type", .text "debye"), ("eps_inf", .nums [m.epsInf]), ("delta_epsilon", .nums (m.poles.map (·.dEps))),
      ("tau", .nums (m.poles.map (·.tau)))]
  | .drude m => [("material_type", .text "drude"), ("eps_inf", .nums [m.epsInf]), ("omega_0", .nums (m.poles.map (·.omega))),
      ("gamma", .nums (m.poles.map (·.gamma)))]
  | .lorentz m => [("material_type", .text "lorentz"), ("eps_inf", .nums [m.epsInf]), ("omega_0", .nums (m.poles.map (·.omega))),
      ("gamma", .nums (m.poles.map (·.gamma))), ("delta_epsilon", .nums (m.poles.map (·.dEps)))]

/-- `material::get_group_path`, `src/materials/material.cpp:9-11`. -/
def Material.path (m : Material K) : Path := ["materials", m.name]

/-- `material::write` with `get_group`, `src/materials/material.cpp:13-17`. -/
def Material.entries (m : Material K) : List (Path × H5Obj K) :=
  (["materials"], .group) :: (m.path, .group) :: m.kind.params.map (fun e => (m.path ++ [e.1], e.2))

/-- The group of an object: `object::get_group`, `src/object.cpp:29-35`, or `dynamic_object::get_group`,
`src/dynamic_object.cpp:33-39`. -/
def Object.path (dyn : Bool) (o : Object K) : Path := [if dyn then "dynamic_objects" else "objects", o.geom.group, o.name]

/-- opening the group of an object -/
def Object.groups (dyn : Bool) (o : Object K) : List (Path × H5Obj K) :=
  groups3 (if dyn then "dynamic_objects" else "objects") o.geom.group o.name

/-- `object::write`, `src/object.cpp:37-52`, or `dynamic_object::write`, `src/dynamic_object.cpp:41-48`. -/
def Object.entries (dyn : Bool) (o : Object K) : List (Path × H5Obj K) :=
  o.groups dyn ++
  [(o.path dyn ++ ["position"], if dyn then .series [o.pos.list] else .nums o.pos.list),
   (o.path dyn ++ ["theta"], if dyn then .series [[o.theta]] else .nums [o.theta])] ++
  o.geom.params.map (fun e => (o.path dyn ++ [e.1], .nums e.2)) ++
  o.groups dyn ++ [(o.path dyn ++ ["material"], .ref o.mat.path)]

/-- `surface::write`, `include/vec.h:98-102`. -/
def Surf.entries (p : Path) (s : Surf K) : List (Path × H5Obj K) :=
  [(p ++ ["p1"], .nums s.a.list), (p ++ ["p2"], .nums s.b.list), (p ++ ["sign"], .ints [s.sg.toInt])]

/-- `volume::write`, `include/vec.h:126-129`. -/
def Vol.entries (p : Path) (v : Vol K) : List (Path × H5Obj K) :=
  [(p ++ ["p1"], .nums v.a.list), (p ++ ["p2"], .nums v.b.list)]

/-- `sub_group` of a source: `src/sources/point_source.cpp:10`, `line_source.cpp:10`. -/
def SrcKind.sub : SrcKind K → String
  | .point .. => "point"
  | .line .. => "line"

/-- The group of a source, `src/sources/source.cpp:25-31`. -/
def Source.path (s : Source K) : Path := ["sources", s.kind.sub, s.name]

/-- `write()` of a source, called by `set_F`: `src/sources/source.cpp:41-44`, `point_source.cpp:20-24`, `line_source.cpp:23-27`. The
component that the source drives is not written. -/
def Source.entries (s : Source K) : List (Path × H5Obj K) :=
  groups3 "sources" s.kind.sub s.name ++ s.tp.params.map (fun e => (s.path ++ [e.1], .nums [e.2])) ++
  groups3 "sources" s.kind.sub s.name ++
  match s.kind with
  | .point _ p => [(s.path ++ ["position"], .nums p.list)]
  | .line _ surf => surf.entries s.path

/-- `tfsf::write_properties`, `src/tfsf.cpp:133-144`. The parameters of the time profile are not written. -/
def tfsfEntries (vol : Vol K) (tp : TimeProfile K) : List (Path × H5Obj K) :=
  [(["sources"], .group), (["sources", "tfsf"], .group)] ++ vol.entries ["sources", "tfsf"] ++
  match tp.dft with
  | none => []
  | some d => [(["sources", "tfsf", "dft_frequency"], .nums d.freq)]

/-- The name of a monitor. -/
def Monitor.name : Monitor K → String
  | .surf m => m.name
  | .box m => m.name
  | .vol m => m.name
  | .point m => m.name
  | .cyl m => m.name

/-- `sub_group` of a monitor, e.g. `include/monitors/surface_monitor.h:18`. -/
def Monitor.sub_group : Monitor K → String
  | .surf _ => "surface_monitor"
  | .box _ => "box_monitor"
  | .vol _ => "volume_monitor"
  | .point _ => "point_monitor"
  | .cyl _ => "cylinder_monitor"

/-- The group of a monitor, `src/monitors/monitor.cpp:21-27`. -/
def Monitor.path (m : Monitor K) : Path := ["monitors", m.sub_group, m.name]

/-- `monitor::get_group`, `src/monitors/monitor.cpp:21-27`. -/
def Monitor.groups (m : Monitor K) : List (Path × H5Obj K) := groups3 "monitors" m.sub_group m.name

/-- `dft::write_properties`, `include/dft.h:76-78`. -/
def freqEntry (p : Path) (freq : List K) : List (Path × H5Obj K) := [(p ++ ["dft_frequency"], .nums freq)]

/-- What `set_F` of a surface monitor writes, `include/monitors/surface_monitor.h:52-54`. -/
def SurfMon.entries (m : SurfMon K) : List (Path × H5Obj K) :=
  (Monitor.surf m).groups ++ m.surf.entries (Monitor.surf m).path ++ freqEntry (Monitor.surf m).path m.fourier.freq

/-- What `set_F` of a monitor writes: `include/monitors/surface_monitor.h:52-54`, `box_monitor.h:29-37`, `volume_monitor.h:36-38`,
`point_monitor.h:31-33`, `cylinder_monitor.h:39-41`. -/
def Monitor.entries : Monitor K → List (Path × H5Obj K)
  | .surf m => m.entries
  | .box m => m.faces.flatMap SurfMon.entries ++ (Monitor.box m).groups ++ m.vol.entries (Monitor.box m).path ++
      freqEntry (Monitor.box m).path m.fourier.freq
  | .vol m => (Monitor.vol m).groups ++ m.vol.entries (Monitor.vol m).path ++ freqEntry (Monitor.vol m).path m.fourier.freq
  | .point m => (Monitor.point m).groups ++ [((Monitor.point m).path ++ ["position"], .nums m.pos.list)] ++
      freqEntry (Monitor.point m).path m.fourier.freq
  | .cyl m => (Monitor.cyl m).groups ++
      [((Monitor.cyl m).path ++ ["center"], .nums m.surf.center.list), ((Monitor.cyl m).path ++ ["radius"], .nums [m.surf.radius])] ++
      freqEntry (Monitor.cyl m).path m.fourier.freq

/-! ### Results -/

/-- The values of one component: `real + 1i*imag`, positions first, then frequencies; `src/dft.cpp:7-26`. -/
def Acc.values {P : Type} (nfreq : ℤ) (a : Acc K P) : List (Cx K) :=
  a.pos.flatMap fun q => (intRange 0 nfreq).map fun k => ⟨a.re q k, a.im q k⟩

/-- `dft::write`, `include/dft.h:80-84`. -/
def Dft.entries {P : Type} (p : Path) (d : Dft K P) : List (Path × H5Obj K) :=
  d.acc.map fun e => (p ++ [e.1], .cxs (e.2.values d.nfreq))

/-- `rank_monitor::write`, `include/monitors/rank_monitor.h:20-22`. A box monitor inherits it and has its own `fourier`. -/
def Monitor.spectra (m : Monitor K) : List (Path × H5Obj K) :=
  m.groups ++ match m with
  | .surf x => x.fourier.entries m.path
  | .box x => x.fourier.entries m.path
  | .vol x => x.fourier.entries m.path
  | .point x => x.fourier.entries m.path
  | .cyl x => x.fourier.entries m.path

/-- The quantities a monitor can compute and write. The centre is an argument of the functions of a surface monitor only. -/
inductive Quantity (K : Type)
  | flux
  | force
  | torque (center : V2 K)
  | ntff (center p : V2 K)
  | sphere (radius : K) (N : ℕ)

/-- The name of the data set: `src/monitors/flux.cpp:15`, `force.cpp:15`, `:28`, `ntff.cpp:15`, `:28`. -/
def Quantity.name : Quantity K → String
  | .flux => "flux"
  | .force => "force"
  | .torque _ => "torque"
  | .ntff _ _ => "ntff_point"
  | .sphere _ _ => "ntff_sphere"

/-- values of a function of the frequency index -/
def overFreq {β : Type} (n : ℤ) (S : ℤ → β) : List β := (intRange 0 n).map S

/-- both rows of a force, `src/monitors/force.cpp:37` -/
def forceRows (n : ℤ) (S : ℤ → V2 K) : H5Obj K := .nums (overFreq n (fun j => (S j).x) ++ overFreq n (fun j => (S j).y))

/-- The computation, `none` when the class has no such function: volume and point monitors have none. -/
def Monitor.compute (g : Grid K) : Monitor K → Quantity K → Option (M (H5Obj K))
  | .surf m, .flux => some do let S ← m.flux g; pure (.nums (overFreq m.fourier.nfreq S))
  | .surf m, .force => some do let S ← m.partialForce g; pure (forceRows m.fourier.nfreq S)
  | .surf m, .torque c => some do let S ← m.partialTorque g c; pure (.nums (overFreq m.fourier.nfreq S))
  | .surf m, .ntff c p => some do let S ← m.ntff g c p; pure (.cxs (overFreq m.fourier.nfreq S))
  | .box m, .flux => some do let S ← m.flux g; pure (.nums (overFreq m.nfreq S))
  | .box m, .force => some do let S ← m.force g; pure (forceRows m.nfreq S)
  | .box m, .torque _ => some do let S ← m.torque g; pure (.nums (overFreq m.nfreq S))
  | .box m, .ntff _ p => some do let S ← m.ntff g p; pure (.cxs (overFreq m.nfreq S))
  | .box m, .sphere r N => some do let S ← m.ntffSphere g r N; pure (.cxs (S.flatMap (overFreq m.nfreq)))
  | .cyl m, .flux => some do let S ← m.flux; pure (.nums (overFreq m.fourier.nfreq S))
  | .cyl m, .force => some do let S ← m.force; pure (forceRows m.fourier.nfreq S)
  | .cyl m, .torque _ => some do let S ← m.torque; pure (.nums (overFreq m.fourier.nfreq S))
  | .cyl m, .ntff _ p => some do let S ← m.ntff p; pure (.cxs (overFreq m.fourier.nfreq S))
  | .cyl m, .sphere r N => some do let S ← m.ntffSphere r N; pure (.cxs (S.flatMap (overFreq m.fourier.nfreq)))
  | _, _ => none

end

/-! ### `Field2D` with its file -/

/-- `Field2D`, `include/field2.h:82-130`, with the whole file. `dyn` says for each member of `obj_list` whether it is a
`dynamic_object`. -/
structure World (K : Type) where
  sim : Sim K
  dyn : List Bool
  tree : Tree K

/-- The calls of a program: those of `Op`, and those that write properties or results. -/
inductive Call (K : Type)
  | op (o : Op K)
  /-- `add<dynamic_object>(...)` -/
  | addDynamic (o : Object K)
  /-- `write_current()` on the `i`-th object -/
  | writeCurrent (i : ℕ)
  /-- `write()` on the `i`-th monitor -/
  | writeSpectra (i : ℕ)
  /-- e.g. `flux().write()` on the `i`-th monitor -/
  | report (i : ℕ) (r : Quantity K)
  /-- `flux().write()` on the incident wave -/
  | tfsfFlux

section
variable {K : Type} [Scalar K]

/-- The message of a failing HDF5 call. -/
def h5Msg : String := "HDF5 error"

/-- Write, and go on if all calls succeed. -/
def World.write (w : World K) (es : List (Path × H5Obj K)) (k : World K → Res (World K)) : Res (World K) :=
  let r := w.tree.puts es
  if r.2 then k { w with tree := r.1 } else .threw h5Msg { w with tree := r.1 }

/-- Append, and go on if it succeeds. -/
def World.append (w : World K) (p : Path) (row : List K) (k : World K → Res (World K)) : Res (World K) :=
  match w.tree.append p row with
  | some t => k { w with tree := t }
  | none => .threw h5Msg w

/-- A call that does not write to these groups. -/
def World.lift (w : World K) : Res (Sim K) → Res (World K)
  | .ok s => .ok { w with sim := s }
  | .threw m s => .threw m { w with sim := s }
  | .ub u => .ub u

/-- `add` for objects, `include/field2.h:136-142`: `insert_object` (`src/field2.cpp:320-349`), which writes a material whose name is
new (`:351-359`), then `set_owner`, which writes the object (`src/object.cpp:66-69`), then `push_back`. -/
def World.addObject (dyn : Bool) (o : Object K) (w : World K) : Res (World K) :=
  let new := !(w.sim.mats.contains o.mat.name)
  let w := if new then { w with sim := { w.sim with mats := w.sim.mats ++ [o.mat.name] } } else w
  w.write (if new then o.mat.entries else []) fun w =>
  tryM (w.sim.core.insertObject o) w fun c =>
  let w := { w with sim := { w.sim with core := c } }
  w.write (o.entries dyn) fun w =>
  .ok { w with sim := { w.sim with objs := w.sim.objs ++ [o] }, dyn := w.dyn ++ [dyn] }

/-- `dynamic_object::write_current`, `src/dynamic_object.cpp:50-57`. -/
def World.writeCurrent (o : Object K) (w : World K) : Res (World K) :=
  w.write (o.groups true) fun w =>
  w.append (o.path true ++ ["position"]) o.pos.list fun w =>
  w.append (o.path true ++ ["theta"]) [o.theta] fun w => .ok w

/-- One call. `add`: `include/field2.h:133-168`; `set_tfsf`: `src/field2.cpp:246-250`. `set_F` of a monitor writes at its end; the
four `set_F` of the faces of a box monitor are taken to run before the first write. Calls on objects or monitors that do not exist,
or that the class does not have, leave the state as it is. -/
def World.step (now : ℕ → ℝ) (w : World K) : Call K → Res (World K)
  | .op (.addObject o) => w.addObject false o
  | .addDynamic o => w.addObject true o
  | .op (.addSource x) => w.write x.entries fun w => .ok { w with sim := { w.sim with srcs := w.sim.srcs ++ [x] } }
  | .op (.addMonitor m) =>
    tryM (m.setF w.sim.core.g) w fun m =>
    w.write m.entries fun w => .ok { w with sim := { w.sim with mons := w.sim.mons ++ [m] } }
  | .op (.setTfsf vol tp) =>
    let w := { w with sim := { w.sim with core := w.sim.core.setTfsf vol tp } }
    w.write (tfsfEntries vol tp) fun w => .ok w
  | .op o => w.lift (w.sim.step now o)
  | .writeCurrent i =>
    match w.sim.objs[i]?, w.dyn[i]? with
    | some o, some true => w.writeCurrent o
    | _, _ => .ok w
  | .writeSpectra i =>
    match w.sim.mons[i]? with
    | none => .ok w
    | some m => w.write m.spectra fun w => .ok w
  | .report i r =>
    match w.sim.mons[i]? with
    | none => .ok w
    | some m =>
      match m.compute w.sim.core.g r with
      | none => .ok w
      | some x => tryM x w fun v => w.write (m.groups ++ [(m.path ++ [r.name], v)]) fun w => .ok w
  | .tfsfFlux =>
    match w.sim.core.tfsf with
    | none => .ok w
    | some x => tryM x.flux w fun S =>
      w.write [(["sources", "tfsf"], .group), (["sources", "tfsf", "flux"], .nums (overFreq S.n S.val))] fun w => .ok w

/-- A program: a sequence of calls. Exceptions are caught and the program goes on with the next call. -/
def World.run (now : ℕ → ℝ) : World K → List (Call K) → M (World K)
  | w, [] => .ok w
  | w, c :: l =>
    match w.step now c with
    | .ok w => World.run now w l
    | .threw _ w => World.run now w l
    | .ub u => .error (.ub u)

/-- A program in which no call throws; it ends at the first exception. -/
def World.runOk (now : ℕ → ℝ) : World K → List (Call K) → M (World K)
  | w, [] => .ok w
  | w, c :: l =>
    match w.step now c with
    | .ok w => World.runOk now w l
    | .threw m _ => .error (.exn m)
    | .ub u => .error (.ub u)

/-- `Field2D::Field2D(grid, filename)`, `src/field2.cpp:26-57`: `io::w` makes an empty file, then `grid.write`. -/
def World.make (now : ℕ → ℝ) (g : Grid K) (filename : String) : M (World K) := do
  let s ← Sim.make now g filename
  let r := Tree.puts [] g.entries
  if r.2 then pure ⟨s, [], r.1⟩ else .error (.exn h5Msg)

end

end Qbox
