import Verif.Spec.WindowSpec

/-!
# The same signals, later

Time advances in steps of `dt`; a source is asked for its signal at `dt`, `2 dt`, `3 dt` and so on.
-/

namespace Qbox.Spec
open Qbox

/-- The signal `s'` is the signal `s` that starts `k` steps later and is zero until then. -/
structure Later (dt : ℝ) (k : ℕ) (s s' : ℝ → ℝ) : Prop where
  quiet : ∀ m : ℕ, m ≤ k → s' (m * dt) = 0
  late : ∀ m : ℕ, 1 ≤ m → s' ((m + k : ℕ) * dt) = s (m * dt)

/-- The same source, later. -/
def LaterSource (dt : ℝ) (k : ℕ) (x y : Source ℝ) : Prop := y.kind = x.kind ∧ Later dt k x.tp.resp y.tp.resp

/-- The same incident wave, later. -/
def LaterWave (dt : ℝ) (k : ℕ) (x y : Vol ℝ × TimeProfile ℝ) : Prop := y.1 = x.1 ∧ Later dt k x.2.resp y.2.resp

/-- The same scene, where everything that emits starts `k` steps later. -/
structure LaterScene (dt : ℝ) (k : ℕ) (S S' : Scene) : Prop where
  objs : S'.objs = S.objs
  srcs : List.Forall₂ (LaterSource dt k) S.srcs S'.srcs
  wave : Option.Rel (LaterWave dt k) S.wave S'.wave

/-- The profile with its signal delayed by `τ` and cut off before. -/
noncomputable def postpone (τ : ℝ) (tp : TimeProfile ℝ) : TimeProfile ℝ := { tp with resp := fun t => if t ≤ τ then 0 else tp.resp (t - τ) }

/-- The scene with every signal delayed by `τ`. -/
noncomputable def Scene.postpone (S : Scene) (τ : ℝ) : Scene :=
  ⟨S.objs, S.srcs.map fun s => { s with tp := Spec.postpone τ s.tp }, S.wave.map fun w => (w.1, Spec.postpone τ w.2)⟩

end Qbox.Spec
