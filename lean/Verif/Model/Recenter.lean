import Verif.Model.Monitors

/-!
# `Field2D::to_grid`, `to_xgrid`, `to_ygrid` and the far field on a circle
-/

namespace Qbox
open Scalar

section
variable {K : Type} [Scalar K]

/-- The `default` branch of the three functions, `src/field2.cpp:284`, `:293`, `:302`. -/
def notComponent : M K := .error (.exn "not a valid field component")

/-- `Field2D::to_grid`, `src/field2.cpp:279-286`. -/
def Flds.toGrid (f : Flds K) (C : Fields) (p : V2 ℤ) : M K :=
  match C with
  | .Ez => f.Ez.rd p.x p.y
  | .Hx => do pure (((← f.Hx.rd p.x p.y) + (← f.Hx.rd p.x (p.y - 1))) / ofInt 2)
  | .Hy => do pure (((← f.Hy.rd p.x p.y) + (← f.Hy.rd (p.x - 1) p.y)) / ofInt 2)
  | _ => notComponent

/-- `Field2D::to_xgrid`, `src/field2.cpp:288-295`. -/
def Flds.toXgrid (f : Flds K) (C : Fields) (p : V2 ℤ) : M K :=
  match C with
  | .Ez => do pure (((← f.Ez.rd p.x p.y) + (← f.Ez.rd (p.x + 1) p.y)) / ofInt 2)
  | .Hx => do pure (((← f.Hx.rd p.x p.y) + (← f.Hx.rd (p.x - 1) p.y) + (← f.Hx.rd p.x (p.y + 1))
      + (← f.Hx.rd (p.x + -1) (p.y + 1))) / ofInt 4)
  | .Hy => f.Hy.rd p.x p.y
  | _ => notComponent

/-- `Field2D::to_ygrid`, `src/field2.cpp:297-304`. -/
def Flds.toYgrid (f : Flds K) (C : Fields) (p : V2 ℤ) : M K :=
  match C with
  | .Ez => do pure (((← f.Ez.rd p.x p.y) + (← f.Ez.rd p.x (p.y + 1))) / ofInt 2)
  | .Hx => f.Hx.rd p.x p.y
  | .Hy => do pure (((← f.Hy.rd p.x p.y) + (← f.Hy.rd (p.x - 1) p.y) + (← f.Hy.rd p.x (p.y + 1))
      + (← f.Hy.rd (p.x + -1) (p.y + 1))) / ofInt 4)
  | _ => notComponent

/-! ### Far field on a circle -/

/-- `Array::LinSpaced(N, lo, hi)` of Eigen at index `i`: the last entry is `hi` itself, the others are `lo` plus `i` steps of
`(hi - lo)/(N - 1)`. -/
def linSpaced (N : ℤ) (lo hi : K) (i : ℤ) : K :=
  if i = N - 1 then hi else lo + ofInt i * ((hi - lo) / ofInt (N - 1))

/-- The directions of the far field on a circle, `include/monitors/box_monitor.h:66` and
`include/monitors/cylinder_monitor.h:176`. -/
def sphereTheta (N i : ℤ) : K := linSpaced N 0 (ofInt 2 * Scalar.pi) i

/-- The observation points, `include/monitors/box_monitor.h:69` and `include/monitors/cylinder_monitor.h:179`. -/
def spherePoint (center : V2 K) (radius : K) (N i : ℤ) : V2 K :=
  V2.smul radius ⟨Scalar.cos (sphereTheta N i), Scalar.sin (sphereTheta N i)⟩ + center

/-- The loop `for (int i = 0; i < N; i++)` that fills the rows of `result`, `include/monitors/box_monitor.h:68-73` and
`include/monitors/cylinder_monitor.h:178-183`; the row of index `i` is the far field at the `i`-th point. -/
def sphereRows (ntff : V2 K → M (ℤ → Cx K)) (center : V2 K) (radius : K) (N : ℤ) : M (List (ℤ → Cx K)) :=
  (intRange 0 N).mapM (fun i => ntff (spherePoint center radius N i))

/-- `box_monitor::ntff(radius, N)`, `include/monitors/box_monitor.h:64-75`, for `N ≥ 0` (`ComplexTensor result(N, Nfreq)`). -/
def BoxMon.ntffSphere (g : Grid K) (m : BoxMon K) (radius : K) (N : ℕ) : M (List (ℤ → Cx K)) :=
  sphereRows (m.ntff g) m.vol.center radius N

/-- `cylinder_monitor::ntff(radius, N)`, `include/monitors/cylinder_monitor.h:172-185`, for `N ≥ 0`. -/
def CylMon.ntffSphere (m : CylMon K) (radius : K) (N : ℕ) : M (List (ℤ → Cx K)) :=
  sphereRows m.ntff m.surf.center radius N

end

end Qbox
