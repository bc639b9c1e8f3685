import Verif.Spec.SpectraWaveSpec
import Verif.Spec.SpectrumSpec

/-!
# Energy flow of an electromagnetic wave through a line
-/

namespace Qbox.Spec
open Qbox

/-- The spectra of the three components of the wave at a point, up to time `T`. -/
noncomputable def Wave.phasor (w : Wave) (f T x y : ℝ) : TM :=
  ⟨spectrum (fun t => w.E t x y) f T, spectrum (fun t => w.X t x y) f T, spectrum (fun t => w.Y t x y) f T⟩

/-- The energy of frequency `f` that flows through the line from `p` to `q` (which is vertical or horizontal) in the direction `n` up to time `T`: the integral of the Poynting vector of the
spectra along the line. -/
noncomputable def Wave.flow (w : Wave) (f T : ℝ) (p q n : V2 ℝ) : ℝ :=
  (|q.x - p.x| + |q.y - p.y|) * ∫ s in (0 : ℝ)..1, (w.phasor f T (p.x + s * (q.x - p.x)) (p.y + s * (q.y - p.y))).outflow n

/-- The energy of frequency `f` that leaves the box with the lower left corner `p` and the upper right corner `q` up to time `T`. -/
noncomputable def Wave.boxFlow (w : Wave) (f T : ℝ) (p q : V2 ℝ) : ℝ :=
  w.flow f T p ⟨q.x, p.y⟩ ⟨0, -1⟩ + w.flow f T ⟨q.x, p.y⟩ q ⟨1, 0⟩ + w.flow f T q ⟨p.x, q.y⟩ ⟨0, 1⟩ + w.flow f T ⟨p.x, q.y⟩ p ⟨-1, 0⟩

/-- The magnetic field changes by at most `M` per unit of length along lines in which `Wave.Steady` says nothing about it. -/
structure Wave.Even (w : Wave) (g : Grid ℝ) (τ M : ℝ) : Prop where
  Xx : ∀ t x x' y, 0 ≤ t → t ≤ τ → x ≤ x' → InDomain g x y → InDomain g x' y → |w.X t x' y - w.X t x y| ≤ M * (x' - x)
  Yy : ∀ t x y y', 0 ≤ t → t ≤ τ → y ≤ y' → InDomain g x y → InDomain g x y' → |w.Y t x y' - w.Y t x y| ≤ M * (y' - y)

end Qbox.Spec
