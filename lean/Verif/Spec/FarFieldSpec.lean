import Verif.Model.Vec
import Mathlib.Analysis.SpecialFunctions.Trigonometric.Basic

/-!
# The sum that gives the far field
-/

namespace Qbox.Spec
open Qbox

/-- length of a vector -/
noncomputable def len (p : V2 ℝ) : ℝ := Real.sqrt (p.x ^ 2 + p.y ^ 2)

/-- inner product -/
def inner2 (p q : V2 ℝ) : ℝ := p.x * q.x + p.y * q.y

/-- The field at the displacement `p` (from the centre) of the currents `J i`, `N i` at the displacements `pos i`, with the wave number `k`:
`exp (i (π/4 - k r)) / √(8 π k r) ∑ (k J + k N (p · normal) / r) exp (i k p · pos / r)`. -/
noncomputable def farField (k : ℝ) (p : V2 ℝ) (n : ℕ) (J N : ℕ → ℂ) (normal pos : ℕ → V2 ℝ) : ℂ :=
  Complex.exp ((Real.pi / 4 - k * len p : ℝ) * Complex.I) / (Real.sqrt (8 * len p * Real.pi * k) : ℝ) *
    ∑ i ∈ Finset.range n, (k * J i + k * N i * ((inner2 p (normal i) / len p : ℝ) : ℂ)) *
      Complex.exp ((k * (inner2 p (pos i) / len p) : ℝ) * Complex.I)

end Qbox.Spec
