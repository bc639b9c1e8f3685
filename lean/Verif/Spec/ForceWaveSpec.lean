import Verif.Spec.FluxWaveSpec

/-!
# Momentum flow of an electromagnetic wave through a line
-/

namespace Qbox.Spec
open Qbox

/-- The momentum of frequency `f` in the direction `k` that flows through the line from `p` to `q` (which is vertical or horizontal), against the normal `n`, up to time `T`:
the integral along the line of the traction, that is, of Maxwell's stress tensor of the spectra times the normal. -/
noncomputable def Wave.pull (w : Wave) (f T : ℝ) (p q n : V2 ℝ) (k : Fin 3) : ℝ :=
  (|q.x - p.x| + |q.y - p.y|) * ∫ s in (0 : ℝ)..1, (w.phasor f T (p.x + s * (q.x - p.x)) (p.y + s * (q.y - p.y))).traction n k

/-- The force of frequency `f` in the direction `k` on the box with the lower left corner `p` and the upper right corner `q` up to time `T`. -/
noncomputable def Wave.boxForce (w : Wave) (f T : ℝ) (p q : V2 ℝ) (k : Fin 3) : ℝ :=
  w.pull f T p ⟨q.x, p.y⟩ ⟨0, -1⟩ k + w.pull f T ⟨q.x, p.y⟩ q ⟨1, 0⟩ k + w.pull f T q ⟨p.x, q.y⟩ ⟨0, 1⟩ k + w.pull f T ⟨p.x, q.y⟩ p ⟨-1, 0⟩ k

/-- The angular momentum of frequency `f` about `c` that flows through the line up to time `T`: the integral of the moment of the traction. -/
noncomputable def Wave.twist (w : Wave) (f T : ℝ) (c p q n : V2 ℝ) : ℝ :=
  (|q.x - p.x| + |q.y - p.y|) * ∫ s in (0 : ℝ)..1, (w.phasor f T (p.x + s * (q.x - p.x)) (p.y + s * (q.y - p.y))).moment n
    (⟨p.x + s * (q.x - p.x), p.y + s * (q.y - p.y)⟩ - c)

/-- The torque of frequency `f` on the box about its centre up to time `T`. -/
noncomputable def Wave.boxTorque (w : Wave) (f T : ℝ) (p q : V2 ℝ) : ℝ :=
  let c : V2 ℝ := ⟨(p.x + q.x) / 2, (p.y + q.y) / 2⟩
  w.twist f T c p ⟨q.x, p.y⟩ ⟨0, -1⟩ + w.twist f T c ⟨q.x, p.y⟩ q ⟨1, 0⟩ + w.twist f T c q ⟨p.x, q.y⟩ ⟨0, 1⟩ + w.twist f T c ⟨p.x, q.y⟩ p ⟨-1, 0⟩

end Qbox.Spec
