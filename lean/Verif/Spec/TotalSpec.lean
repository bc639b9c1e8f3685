import Verif.Spec.ConvergeSpec
import Verif.Spec.RoundSpec

/-! # The whole error of a simulation -/

namespace Qbox.Spec
open Qbox

/-- What the finite size of the cells contributes to the error per unit of time: a term of second order, and a term for the cells in which the solution is
not smooth. -/
noncomputable def cellError (S : ℝ → ℝ → Prop) (g : Grid ℝ) (M epsMax sigMax : ℝ) : ℝ :=
  Real.sqrt (12 * (epsMax + 1) * (g.Lx * g.Ly * ((epsMax + sigMax + 8) / 16 * M * g.dx ^ 2) ^ 2 +
    crossedArea S g ⟨1, g.Nx - 2, 1, g.Ny - 2⟩ * ((epsMax + sigMax + 2) * M) ^ 2))

/-- The square of the difference between the fields of a simulation with rounding and the wave after `n` steps, integrated over the rectangle. -/
noncomputable def totalGap {A : Arith} (w : Wave) (g : Grid ℝ) (n : ℕ) (f : Flds (Rnd A)) (R : Box) : ℝ :=
  g.dx ^ 2 * R.sum fun i j => ((f.Ez.val i j).val - w.nodeE g n i j) ^ 2 + ((f.Hx.val i j).val - w.nodeX g n i j) ^ 2 +
    ((f.Hy.val i j).val - w.nodeY g n i j) ^ 2

/-- The integral of the square of the wave over the rectangle at the start. -/
noncomputable def waveSize (w : Wave) (g : Grid ℝ) (R : Box) : ℝ :=
  g.dx ^ 2 * R.sum fun i j => w.nodeE g 0 i j ^ 2 + w.nodeX g 0 i j ^ 2 + w.nodeY g 0 i j ^ 2

end Qbox.Spec
