import Verif.Model.Base

/-!
# Names of monitors, time monitors, sources, objects and materials

Constructors without a name use a static counter of the base class: `monitor::_num_created` (`src/monitors/monitor.cpp:14`),
`time_monitor::_num_created` (`src/time_monitors/time_monitor.cpp:6`), `source::_num_created` (`src/sources/source.cpp:14`),
`object::num_created` (`src/object.cpp:13`), `material::num_created` (`src/materials/material.cpp:7`).
-/

namespace Qbox

/-- The classes that have a counter. -/
inductive Kind | monitor | timeMonitor | source | object | material
  deriving DecidableEq, Repr

/-- The text before the number: `include/monitors/surface_monitor.h:23`, `src/time_monitors/point_time_monitor.cpp:9`,
`src/sources/source.cpp:23`, `src/object.cpp:19`, `include/materials/material.h:13`. -/
def Kind.prefix : Kind → String
  | .monitor => "monitor_"
  | .timeMonitor => "monitor_"
  | .source => "source_"
  | .object => "object_"
  | .material => "material_"

/-- A named thing that exists. `auto`: the name was generated. -/
structure Item where
  kind : Kind
  name : String
  auto : Bool

/-- A call of a constructor. `plain` and `box` are the constructors without a name; `box` is `box_monitor`, all other classes are
`plain`. -/
inductive Make
  | plain (k : Kind)
  | box
  | named (k : Kind) (name : String)
  | namedBox (name : String)

/-- The counters, non-negative `int`s. -/
abbrev Counters := Kind → ℕ

/-- `_num_created++` on a 32-bit `int`. -/
def Counters.bump (c : Counters) (k : Kind) : M Counters :=
  if c k = 2 ^ 31 - 1 then .error (.ub .overflow) else .ok (fun x => if x = k then c k + 1 else c x)

/-- `"..._" + std::to_string(_num_created)` -/
def Counters.name (c : Counters) (k : Kind) : String := k.prefix ++ toString (c k)

/-- The surface monitors inside a box monitor, `include/monitors/box_monitor.h:21-24`. -/
def faceItems (name : String) (auto : Bool) : List Item :=
  [⟨.monitor, name ++ "_1", auto⟩, ⟨.monitor, name ++ "_2", auto⟩, ⟨.monitor, name ++ "_3", auto⟩, ⟨.monitor, name ++ "_4", auto⟩]

/-- One constructor call. The delegated constructor runs first, with the old value of the counter; e.g.
`include/monitors/surface_monitor.h:22-23`, `include/monitors/box_monitor.h:19-27`. -/
def construct (c : Counters) : Make → M (Counters × List Item)
  | .plain k => do
    let c' ← c.bump k
    pure (c', [⟨k, c.name k, true⟩])
  | .box => do
    let c' ← c.bump .monitor
    pure (c', ⟨.monitor, c.name .monitor, true⟩ :: faceItems (c.name .monitor) true)
  | .named k name => .ok (c, [⟨k, name, false⟩])
  | .namedBox name => .ok (c, ⟨.monitor, name, false⟩ :: faceItems name false)

/-- Constructor calls one after the other. -/
def constructAll : Counters → List Make → M (Counters × List Item)
  | c, [] => .ok (c, [])
  | c, m :: l => do
    let (c, x) ← construct c m
    let (c, y) ← constructAll c l
    pure (c, x ++ y)

end Qbox
