import Verif.Lemmas.Upd

/-!
# The finite-difference equations

What one half step of the TM Yee scheme has to compute, as a relation between the fields before and after, without
reference to any loop.
-/

namespace Qbox.Spec
open Qbox Scalar

variable {K : Type} [Scalar K]

/-- Node strictly inside a grid of `Nx` by `Ny` nodes. -/
def Inner (Nx Ny i j : ℤ) : Prop := 0 < i ∧ i < Nx - 1 ∧ 0 < j ∧ j < Ny - 1

/-- `E` is the electric field after the step: the discrete Ampère law at every inner node, nothing else changed. -/
def AmpereStep (Nx Ny : ℤ) (f : Flds K) (sc : Scaling K) (E : Tensor K) : Prop :=
  E.nx = f.Ez.nx ∧ E.ny = f.Ez.ny ∧
  (∀ i j, Inner Nx Ny i j → E.val i j = f.Ca.val i j * f.Ez.val i j
    + f.Cb.val i j * ((f.Hy.val i j - f.Hy.val (i - 1) j) / sc.kedx.val i
      + (f.Hx.val i (j - 1) - f.Hx.val i j) / sc.kedy.val j)) ∧
  ∀ i j, ¬ Inner Nx Ny i j → E.val i j = f.Ez.val i j

/-- `H` is the magnetic field after the step: the discrete Faraday law at every inner node, nothing else changed. -/
def FaradayStep (Nx Ny : ℤ) (f : Flds K) (sc : Scaling K) (H : HPair K) : Prop :=
  (H.Hx.nx = f.Hx.nx ∧ H.Hx.ny = f.Hx.ny ∧ H.Hy.nx = f.Hy.nx ∧ H.Hy.ny = f.Hy.ny) ∧
  (∀ i j, Inner Nx Ny i j →
    H.Hx.val i j = f.Da.val i j * f.Hx.val i j - f.Db.val i j * (f.Ez.val i (j + 1) - f.Ez.val i j) / sc.khdy.val j ∧
    H.Hy.val i j = f.Da.val i j * f.Hy.val i j + f.Db.val i j * (f.Ez.val (i + 1) j - f.Ez.val i j) / sc.khdx.val i) ∧
  ∀ i j, ¬ Inner Nx Ny i j → H.Hx.val i j = f.Hx.val i j ∧ H.Hy.val i j = f.Hy.val i j

end Qbox.Spec
