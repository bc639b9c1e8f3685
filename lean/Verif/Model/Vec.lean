import Verif.Model.Base
import Verif.Model.Scalar
import Mathlib.Data.Nat.Sqrt

/-!
# `include/vec.h`
-/

namespace Qbox
open Scalar

/-- `Eigen::Matrix<T,2,1>`: `vec` (doubles, `include/vec.h:15`) and `ivec` (ints, `:17`). -/
@[ext] structure V2 (α : Type) where
  x : α
  y : α
  deriving DecidableEq

namespace V2
variable {α : Type}
instance [Add α] : Add (V2 α) := ⟨fun p q => ⟨p.x + q.x, p.y + q.y⟩⟩
instance [Sub α] : Sub (V2 α) := ⟨fun p q => ⟨p.x - q.x, p.y - q.y⟩⟩
@[simp] theorem add_x [Add α] (p q : V2 α) : (p + q).x = p.x + q.x := rfl
@[simp] theorem add_y [Add α] (p q : V2 α) : (p + q).y = p.y + q.y := rfl
@[simp] theorem sub_x [Sub α] (p q : V2 α) : (p - q).x = p.x - q.x := rfl
@[simp] theorem sub_y [Sub α] (p q : V2 α) : (p - q).y = p.y - q.y := rfl
/-- scalar times vector -/
def smul [Mul α] (c : α) (p : V2 α) : V2 α := ⟨c * p.x, c * p.y⟩
@[simp] theorem smul_x [Mul α] (c : α) (p : V2 α) : (smul c p).x = c * p.x := rfl
@[simp] theorem smul_y [Mul α] (c : α) (p : V2 α) : (smul c p).y = c * p.y := rfl
/-- vector divided by scalar -/
def sdiv [Div α] (p : V2 α) (c : α) : V2 α := ⟨p.x / c, p.y / c⟩
@[simp] theorem sdiv_x [Div α] (c : α) (p : V2 α) : (sdiv p c).x = p.x / c := rfl
@[simp] theorem sdiv_y [Div α] (c : α) (p : V2 α) : (sdiv p c).y = p.y / c := rfl
/-- unary minus -/
def neg [Neg α] (p : V2 α) : V2 α := ⟨-p.x, -p.y⟩
@[simp] theorem neg_x [Neg α] (p : V2 α) : (neg p).x = -p.x := rfl
@[simp] theorem neg_y [Neg α] (p : V2 α) : (neg p).y = -p.y := rfl
/-- `a.dot(b)` -/
def dot [Add α] [Mul α] (p q : V2 α) : α := p.x * q.x + p.y * q.y
end V2

/-- `enum class box_side`, `include/vec.h:32-36`. -/
inductive BoxSide | x_bottom | x_top | y_bottom | y_top
  deriving DecidableEq, Repr

/-- `enum class fields`, `include/vec.h:38-45`. -/
inductive Fields | Ez | Hx | Hy | E | H | all
  deriving DecidableEq, Repr

/-- `enum class sign : int`, `include/vec.h:47-50`. -/
inductive Sgn | Positive | Negative
  deriving DecidableEq, Repr

/-- `int(Sign)` -/
def Sgn.toInt : Sgn → ℤ
  | .Positive => 1
  | .Negative => -1

section
variable {K : Type} [Scalar K]

/-- `v.squaredNorm()` -/
def V2.sqNorm (v : V2 K) : K := v.x * v.x + v.y * v.y
/-- `v.norm()` -/
def V2.norm (v : V2 K) : K := Scalar.sqrt v.sqNorm
/-- `v.cwiseAbs()` -/
def V2.cabs (v : V2 K) : V2 K := ⟨absS v.x, absS v.y⟩
/-- `v.cwiseAbs()` for integers -/
def V2.icabs (v : V2 ℤ) : V2 ℤ := ⟨|v.x|, |v.y|⟩
/-- `v.norm()` of an integer vector: `sqrt` of the integer squared norm converted back to `int`. -/
def V2.inorm (v : V2 ℤ) : ℤ := ((v.x * v.x + v.y * v.y).toNat.sqrt : ℕ)
/-- `v.cast<double>()` -/
def V2.cast (v : V2 ℤ) : V2 K := ⟨ofInt v.x, ofInt v.y⟩

/-- `surface`, `include/vec.h:76-110`, `T = double`. -/
structure Surf (K : Type) where
  a : V2 K
  b : V2 K
  sg : Sgn
  dim : V2 K
  normal : V2 K
  tangent : V2 K

/-- `isurface`, `include/vec.h:76-110`, `T = int`. -/
structure ISurf where
  a : V2 ℤ
  b : V2 ℤ
  sg : Sgn
  dim : V2 ℤ
  normal : V2 ℤ
  tangent : V2 ℤ

/-- message of `include/vec.h:84` -/
def surfMsg : String := "vectors must have one component equal to each other"

/-- Constructor `surface_template<double>`, `include/vec.h:79-86`. For `a == b` the tangent is the IEEE
quotient `0/0` (not undefined behaviour for doubles). -/
def Surf.make (a b : V2 K) (sg : Sgn) : M (Surf K) :=
  let dim := (a - b).cabs
  let mk (n : V2 K) : Surf K :=
    { a := a, b := b, sg := sg, dim := dim, normal := V2.smul (ofInt sg.toInt) n,
      tangent := V2.sdiv (b - a) (b - a).norm }
  if eqb dim.x 0 then .ok (mk ⟨1, 0⟩)
  else if eqb dim.y 0 then .ok (mk ⟨0, 1⟩)
  else .error (.exn surfMsg)

/-- Constructor `surface_template<int>`, `include/vec.h:79-86`. Integer division by `norm() == 0` is
undefined behaviour; otherwise division truncates. -/
def ISurf.make (a b : V2 ℤ) (sg : Sgn) : M ISurf := do
  let dim := (a - b).icabs
  let n : V2 ℤ ←
    if dim.x = 0 then .ok (V2.smul sg.toInt ⟨1, 0⟩)
    else if dim.y = 0 then .ok (V2.smul sg.toInt ⟨0, 1⟩)
    else .error (.exn surfMsg)
  let len := (b - a).inorm
  if len = 0 then .error (.ub .divZero)
  else .ok { a := a, b := b, sg := sg, dim := dim, normal := n,
             tangent := ⟨(b - a).x.tdiv len, (b - a).y.tdiv len⟩ }

/-- `volume`, `include/vec.h:112-163`, `T = double`. -/
structure Vol (K : Type) where
  a : V2 K
  b : V2 K
  dim : V2 K

/-- `ivolume`, `T = int`. -/
structure IVol where
  a : V2 ℤ
  b : V2 ℤ
  dim : V2 ℤ

/-- `volume(a,b)`, `include/vec.h:115-117`. -/
def Vol.make (a b : V2 K) : Vol K := ⟨a, b, (a - b).cabs⟩

/-- `volume(center,lx,ly)`, `include/vec.h:119-122`. -/
def Vol.ofCenter (c : V2 K) (lx ly : K) : Vol K :=
  { a := c - V2.sdiv ⟨lx, ly⟩ (ofInt 2), b := c + V2.sdiv ⟨lx, ly⟩ (ofInt 2), dim := ⟨lx, ly⟩ }

/-- `ivolume(a,b)`. -/
def IVol.make (a b : V2 ℤ) : IVol := ⟨a, b, (a - b).icabs⟩

/-- `volume::center`, `include/vec.h:131-133`. -/
def Vol.center (v : Vol K) : V2 K := V2.sdiv (v.a + v.b) (ofInt 2)

/-- `volume::pad`, `include/vec.h:135-139`. -/
def Vol.pad (v : Vol K) (size : K) : Vol K := Vol.make (v.a - ⟨size, size⟩) (v.b + ⟨size, size⟩)

/-- `volume::translate`, `include/vec.h:141-144`. -/
def Vol.translate (v : Vol K) (p : V2 K) : Vol K := Vol.make (v.a + p) (v.b + p)

/-- `volume::get_surface`, `include/vec.h:146-158`. -/
def Vol.getSurface (v : Vol K) : BoxSide → M (Surf K)
  | .y_bottom => Surf.make v.a ⟨v.b.x, v.a.y⟩ .Negative
  | .y_top => Surf.make v.b ⟨v.a.x, v.b.y⟩ .Positive
  | .x_bottom => Surf.make ⟨v.a.x, v.b.y⟩ v.a .Negative
  | .x_top => Surf.make ⟨v.b.x, v.a.y⟩ v.b .Positive

/-- `cylinder_surface`, `include/vec.h:52-74`. -/
structure CylSurf (K : Type) where
  center : V2 K
  radius : K

/-- `cylinder_surface::tangent`, `include/vec.h:56-58`. -/
def CylSurf.tangent (_ : CylSurf K) (th : K) : V2 K := ⟨-(Scalar.sin th), Scalar.cos th⟩
/-- `cylinder_surface::normal`, `include/vec.h:59-61`. -/
def CylSurf.normal (_ : CylSurf K) (th : K) : V2 K := ⟨Scalar.cos th, Scalar.sin th⟩
/-- `cylinder_surface::position`, `include/vec.h:62-64`. -/
def CylSurf.position (c : CylSurf K) (th : K) : V2 K := V2.smul c.radius (c.normal th) + c.center

end

end Qbox
