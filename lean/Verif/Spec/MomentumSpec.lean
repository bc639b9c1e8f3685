import Verif.Spec.ForceWaveSpec
import Verif.Spec.PoyntingSpec

/-!
# Force of a wave on currents
-/

namespace Qbox.Spec
open Qbox

/-- The force `C × B` of frequency `f` on the current `C` (which flows along `z`) per unit of area at a point up to time `T`, of the spectra. -/
noncomputable def Wave.pushAt (w : Wave) (C : ℝ → ℝ → ℝ → ℝ) (f T x y : ℝ) : V2 ℝ :=
  ⟨-(spectrum (fun t => C t x y) f T * (starRingEnd ℂ) (spectrum (fun t => w.Y t x y) f T)).re,
   (spectrum (fun t => C t x y) f T * (starRingEnd ℂ) (spectrum (fun t => w.X t x y) f T)).re⟩

/-- The force on the current in the whole box. -/
noncomputable def Wave.push (w : Wave) (C : ℝ → ℝ → ℝ → ℝ) (f T : ℝ) (p q : V2 ℝ) : V2 ℝ :=
  ⟨∫ z in between p q, (w.pushAt C f T z.1 z.2).x, ∫ z in between p q, (w.pushAt C f T z.1 z.2).y⟩

/-- Its moment about the centre of the box. -/
noncomputable def Wave.spin (w : Wave) (C : ℝ → ℝ → ℝ → ℝ) (f T : ℝ) (p q : V2 ℝ) : ℝ :=
  ∫ z in between p q, ((z.1 - (p.x + q.x) / 2) * (w.pushAt C f T z.1 z.2).y - (z.2 - (p.y + q.y) / 2) * (w.pushAt C f T z.1 z.2).x)

/-- The magnetic field has no sources: `Xx` is the derivative of `X` in the direction of `x`, `Yy` that of `Y` in the direction of `y`, and their sum vanishes. -/
structure Wave.Solenoidal (w : Wave) (Xx Yy : ℝ → ℝ → ℝ → ℝ) (S : ℝ → ℝ → Prop) (g : Grid ℝ) (τ M : ℝ) : Prop where
  alongX : ∀ t y a b, 0 ≤ t → t ≤ τ → (∀ x, a ≤ x → x ≤ b → InDomain g x y ∧ S x y) → Tame (fun x => w.X t x y) (fun x => Xx t x y) a b M
  alongY : ∀ t x a b, 0 ≤ t → t ≤ τ → (∀ y, a ≤ y → y ≤ b → InDomain g x y ∧ S x y) → Tame (fun y => w.Y t x y) (fun y => Yy t x y) a b M
  gauss : ∀ t x y, 0 ≤ t → t ≤ τ → InDomain g x y → S x y → Xx t x y + Yy t x y = 0

/-- All currents of a medium and of sources: of polarization, of conduction and of the sources. -/
def Wave.currents (w : Wave) (eps sig : ℝ → ℝ → ℝ) (J : ℝ → ℝ → ℝ → ℝ) (t x y : ℝ) : ℝ := (eps x y - 1) * w.Et t x y + sig x y * w.E t x y + J t x y

/-- What is asked of the wave in a box: it is smooth up to separate lines, without magnetic charges, and at time `T` it has faded to `η`. -/
structure Wave.Calm (w : Wave) (S : ℝ → ℝ → Prop) (g : Grid ℝ) (p q : V2 ℝ) (τ M T η : ℝ) (Xx Yy : ℝ → ℝ → ℝ → ℝ) : Prop extends w.Settled S p q T η where
  solenoidal : w.Solenoidal Xx Yy S g τ M
  evenX : ContinuousOn (fun z : ℝ × ℝ × ℝ => Xx z.1 z.2.1 z.2.2) (Set.Icc 0 T ×ˢ {z | z ∈ between p q ∧ S z.1 z.2})
  evenY : ContinuousOn (fun z : ℝ × ℝ × ℝ => Yy z.1 z.2.1 z.2.2) (Set.Icc 0 T ×ˢ {z | z ∈ between p q ∧ S z.1 z.2})

end Qbox.Spec
