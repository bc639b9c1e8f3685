import Verif.Model.Pml

/-!
# The two main loops of `Field2D::update`, `src/field2.cpp:136-142` and `:177-183`
-/

namespace Qbox
open Scalar

/-- The tensors of `Field2D`, `include/field2.h:90`. -/
structure Flds (K : Type) where
  Ez : Tensor K
  Hx : Tensor K
  Hy : Tensor K
  Ca : Tensor K
  Cb : Tensor K
  Da : Tensor K
  Db : Tensor K

/-- The pair of tensors written by the magnetic loop. -/
structure HPair (K : Type) where
  Hx : Tensor K
  Hy : Tensor K

section
variable {K : Type} [Scalar K]

/-- Body of the electric loop, `src/field2.cpp:139-140`. -/
def ezBody (Hx Hy Ca Cb : Tensor K) (kedx kedy : Arr K) (i j : ℤ) (Ez : Tensor K) : M (Tensor K) := do
  Ez.wr i j ((← Ca.rd i j) * (← Ez.rd i j)
    + (← Cb.rd i j) * (((← Hy.rd i j) - (← Hy.rd (i - 1) j)) / (← kedx.rd i)
      + ((← Hx.rd i (j - 1)) - (← Hx.rd i j)) / (← kedy.rd j)))

/-- The electric loop, `src/field2.cpp:136-142`. -/
def ezLoop (Nx Ny : ℤ) (f : Flds K) (sc : Scaling K) : M (Tensor K) :=
  forRange 1 (Nx - 1) f.Ez (fun i Ez => forRange 1 (Ny - 1) Ez (fun j Ez =>
    ezBody f.Hx f.Hy f.Ca f.Cb sc.kedx sc.kedy i j Ez))

/-- Body of the magnetic loop, `src/field2.cpp:180-181`. -/
def hBody (Ez Da Db : Tensor K) (khdx khdy : Arr K) (i j : ℤ) (h : HPair K) : M (HPair K) := do
  let Hx ← h.Hx.wr i j ((← Da.rd i j) * (← h.Hx.rd i j)
    - (← Db.rd i j) * ((← Ez.rd i (j + 1)) - (← Ez.rd i j)) / (← khdy.rd j))
  let Hy ← h.Hy.wr i j ((← Da.rd i j) * (← h.Hy.rd i j)
    + (← Db.rd i j) * ((← Ez.rd (i + 1) j) - (← Ez.rd i j)) / (← khdx.rd i))
  pure ⟨Hx, Hy⟩

/-- The magnetic loop, `src/field2.cpp:177-183`. -/
def hLoop (Nx Ny : ℤ) (f : Flds K) (sc : Scaling K) : M (HPair K) :=
  forRange 1 (Nx - 1) ⟨f.Hx, f.Hy⟩ (fun i h => forRange 1 (Ny - 1) h (fun j h =>
    hBody f.Ez f.Da f.Db sc.khdx sc.khdy i j h))

end

end Qbox
