import Verif.Spec.HistorySpec
import Verif.Props.SourceProps

/-!
# What the monitors are shown during a history of calls
-/

namespace Qbox.Spec
open Qbox Scalar

/-- What an `update` that leads from `s` to `s'` shows to the monitors: the time and the electric field it ends with, and the magnetic field
it began with plus what the sources add to it. -/
structure Shown (s s' : Sim ℝ) (q : Flds ℝ × ℝ) : Prop where
  time : q.2 = s'.core.t
  dims : q.1.Dims s.core.g.Nx s.core.g.Ny
  ez : q.1.Ez = s'.core.f.Ez
  hx : ∀ i j, q.1.Hx.val i j = s.core.f.Hx.val i j + Props.totalContrib s.core.g s'.core.t s.srcs .Hx ⟨i, j⟩
  hy : ∀ i j, q.1.Hy.val i j = s.core.f.Hy.val i j + Props.totalContrib s.core.g s'.core.t s.srcs .Hy ⟨i, j⟩

/-- The calls `ops` lead from `s` to `s'` without exceptions, and its updates show the fields and times `qs`, one per update, in order. -/
inductive Watch (now : ℕ → ℝ) : Sim ℝ → List (Op ℝ) → List (Flds ℝ × ℝ) → Sim ℝ → Prop
  | nil (s : Sim ℝ) : Watch now s [] [] s
  | update {s s1 s' : Sim ℝ} {l qs q} : s.step now .update = .ok s1 → Shown s s1 q → Watch now s1 l qs s' →
      Watch now s (.update :: l) (q :: qs) s'
  | other {s s1 s' : Sim ℝ} {op l qs} : isUpdate op = false → s.step now op = .ok s1 → Watch now s1 l qs s' →
      Watch now s (op :: l) qs s'

/-- The call neither removes nor changes the recorded data of the `k`-th monitor. -/
def Leaves {K : Type} (k : ℕ) : Op K → Prop
  | .removeMonitors => False
  | .subtract i _ => i ≠ k
  | _ => True

end Qbox.Spec
