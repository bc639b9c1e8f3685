import Verif.Model.Materials
import Verif.Model.Grid

/-!
# `src/geometry/*.cpp`, `src/object.cpp`, `src/dynamic_object.cpp`
-/

namespace Qbox
open Scalar

/-- `class geometry` (`include/geometry/geometry.h`): the virtual functions `inside` and `get_bounding_box` that the
simulation uses, `group_name` and what `write` writes (`params`, by name). User classes may implement them arbitrarily;
the three shapes of the library are below. -/
structure Geometry (K : Type) where
  inside : V2 K → Bool
  bbox : K → Option (Vol K)
  group : String := ""
  params : List (String × List K) := []

section
variable {K : Type} [Scalar K]

/-- `geometry::get_bounding_box(theta)`, `src/geometry/geometry.cpp:5-14`: `R` is the entrywise absolute value of
the rotation matrix `[[cos, -sin], [sin, cos]]`. -/
def rotatedBox (box : Vol K) (theta : K) : Vol K :=
  let c := absS (Scalar.cos theta)
  let s := absS (Scalar.sin theta)
  let s' := absS (-(Scalar.sin theta))
  let nd : V2 K := ⟨c * box.dim.x + s' * box.dim.y, s * box.dim.x + c * box.dim.y⟩
  Vol.make (V2.sdiv (V2.neg nd) (ofInt 2)) (V2.sdiv nd (ofInt 2))

/-- `block`, `src/geometry/block.cpp:7-19`, `include/geometry/block.h:15`. -/
def Geometry.block (dim : V2 K) : Geometry K where
  inside v :=
    let d := v.cabs - V2.sdiv dim (ofInt 2)
    !(ltb 0 d.x || ltb 0 d.y)
  bbox th := some (rotatedBox (Vol.make (V2.sdiv (V2.neg dim) (ofInt 2)) (V2.sdiv dim (ofInt 2))) th)
  group := "blocks"
  params := [("dimensions", [dim.x, dim.y])]

/-- `cylinder`, `src/geometry/cylinder.cpp:7-19,25-27`, `include/geometry/cylinder.h:16`: the bounding box ignores the rotation. -/
def Geometry.cylinder (r : K) : Geometry K where
  inside p := ltb p.sqNorm (npow r 2)
  bbox _ := some (Vol.make ⟨-r, -r⟩ ⟨r, r⟩)
  group := "cylinders"
  params := [("radius", [r])]

/-- `ellipse`, `src/geometry/ellipse.cpp:7-20`, `include/geometry/ellipse.h:15`. -/
def Geometry.ellipse (rx ry : K) : Geometry K where
  inside p := ltb (npow (p.x / rx) 2 + npow (p.y / ry) 2) 1
  bbox th := some (rotatedBox (Vol.make ⟨-rx, -ry⟩ ⟨rx, ry⟩) th)
  group := "ellipses"
  params := [("rx", [rx]), ("ry", [ry])]

/-- `class object`, `include/object.h:27-60`. -/
structure Object (K : Type) where
  name : String
  geom : Geometry K
  mat : Material K
  pos : V2 K
  theta : K

/-- `Rotation2Dd(a).toRotationMatrix() * v` -/
def rotVec (a : K) (v : V2 K) : V2 K :=
  ⟨Scalar.cos a * v.x + (-(Scalar.sin a)) * v.y, Scalar.sin a * v.x + Scalar.cos a * v.y⟩

/-- `object::inside`, `src/object.cpp:21-27`: `R = Rotation2Dd(theta).inverse()` is the rotation by `-theta`,
`T` the translation by `-position`; Eigen composes them to `v ↦ R*v + R*(-position)`. -/
def Object.inside (o : Object K) (v : V2 K) : Bool :=
  o.geom.inside (rotVec (-o.theta) v + rotVec (-o.theta) (V2.neg o.pos))

/-- `object::get_bounding_box`, `src/object.cpp:71-77`. -/
def Object.bbox (o : Object K) : Option (Vol K) :=
  (o.geom.bbox o.theta).map (·.translate o.pos)

/-- The box used by `object::get_box_monitor`, `src/object.cpp:58-64`; `std::optional::value` throws when there is
no bounding box. -/
def Object.monitorBox (o : Object K) (buffer : ℤ) : M (Vol K) :=
  match o.bbox with
  | none => .error (.exn "bad optional access")
  | some b => .ok (b.pad (ofInt buffer))

/-- Pose calls of `dynamic_object`. -/
inductive PoseOp (K : Type)
  | move (dr : V2 K)
  | rotate (dtheta : K)
  | setPosition (p : V2 K)
  | setTheta (theta : K)

/-- `dynamic_object::{move,rotate,set_position,set_theta}`, `src/dynamic_object.cpp:17-31`. -/
def Object.pose (o : Object K) : PoseOp K → Object K
  | .move dr => { o with pos := o.pos + dr }
  | .rotate dth => { o with theta := o.theta + dth }
  | .setPosition p => { o with pos := p }
  | .setTheta th => { o with theta := th }

end

end Qbox
