import Verif.Spec.RoundSpec
import Verif.Spec.DrivenSpec

/-!
# Sources in arithmetic with rounding
-/

namespace Qbox.Spec
open Qbox Scalar

/-- The source `s'` of the exact simulation is the source `s`: it drives the same nodes. Their signals are compared by `mishear`. -/
def SameSource {A : Arith} (g : Grid (Rnd A)) (s : Source (Rnd A)) (s' : Source ℝ) : Prop :=
  ∀ C i j, Drives (exactGrid g) s' C ⟨i, j⟩ ↔ Drives g s C ⟨i, j⟩

/-- By how much the signals of the sources differ when the clock shows `t` in one simulation and `t'` in the other one. -/
noncomputable def mishear {A : Arith} : List (Source (Rnd A)) → List (Source ℝ) → Rnd A → ℝ → ℝ
  | s :: l, s' :: l', t, t' => |(s.tp.resp t).val - s'.tp.resp t'| + mishear l l' t t'
  | _, _, _, _ => 0

/-- The sum of these differences over the first `n` updates after the times `t` and `t'`. Both programs add the time step to the time. -/
noncomputable def misheard {A : Arith} (srcs : List (Source (Rnd A))) (srcs' : List (Source ℝ)) (dt : Rnd A) (dt' : ℝ) : Rnd A → ℝ → ℕ → ℝ
  | _, _, 0 => 0
  | t, t', n + 1 => mishear srcs srcs' (t + dt) (t' + dt') + misheard srcs srcs' dt dt' (t + dt) (t' + dt') n

/-- The root of the area of the inner nodes. -/
noncomputable def rootArea {A : Arith} (g : Grid (Rnd A)) : ℝ := Real.sqrt (g.dx.val ^ 2 * (Box.mk 1 (g.Nx - 2) 1 (g.Ny - 2)).sum fun _ _ => 1)

/-- How far the signal of a continuous source of frequency `f` can be from a sine wave after `n` updates, at the time `T`, when the sine of the library is
right up to `η`: the error of the clock shifts the phase. -/
noncomputable def toneError (A : Arith) (η f T : ℝ) (n : ℕ) : ℝ :=
  2 * η + A.u + A.tiny + (24 * A.u * (n + 6) * |f| * T + A.tiny * (5 + 5 * T + 24 * (n + 4) * |f|))

/-- Both sources give a sine wave of the same frequency, at most `F`. -/
def SameTone {A : Arith} (F : ℝ) (s : Source (Rnd A)) (s' : Source ℝ) : Prop :=
  ∃ f : Rnd A, |f.val| ≤ F ∧ s.tp.resp = (TimeProfile.continuous f).resp ∧ s'.tp.resp = (TimeProfile.continuous f.val).resp

end Qbox.Spec
