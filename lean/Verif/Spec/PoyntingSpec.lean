import Verif.Spec.FluxWaveSpec
import Mathlib.MeasureTheory.Measure.Lebesgue.Basic

/-!
# Energy that a wave gives to currents
-/

namespace Qbox.Spec
open Qbox

/-- How much of the energy of frequency `f` the wave gives to the current `C` at a point up to time `T`: the electric field times the current, as spectra. -/
noncomputable def Wave.workAt (w : Wave) (C : ℝ → ℝ → ℝ → ℝ) (f T x y : ℝ) : ℝ :=
  (spectrum (fun t => w.E t x y) f T * (starRingEnd ℂ) (spectrum (fun t => C t x y) f T)).re

/-- The points of the box with the lower left corner `p` and the upper right corner `q`. -/
def between (p q : V2 ℝ) : Set (ℝ × ℝ) := Set.Icc p.x q.x ×ˢ Set.Icc p.y q.y

/-- The same in the whole box. If `C` is the conduction current this is the heat, if `C` is the current of a source it is minus the energy that the source supplies. -/
noncomputable def Wave.work (w : Wave) (C : ℝ → ℝ → ℝ → ℝ) (f T : ℝ) (p q : V2 ℝ) : ℝ := ∫ z in between p q, w.workAt C f T z.1 z.2

/-- The part `S` is open, and its boundary lines meet almost all rows and columns of the box in separate points only: what is left if one takes away the boundaries of
discs, blocks and other shapes. -/
structure Pieces (S : ℝ → ℝ → Prop) (p q : V2 ℝ) : Prop where
  isOpen : IsOpen {z : ℝ × ℝ | S z.1 z.2}
  rows : ∀ᵐ y : ℝ, y ∈ Set.Icc p.y q.y → {x | x ∈ Set.Icc p.x q.x ∧ ¬ S x y}.Countable
  columns : ∀ᵐ x : ℝ, x ∈ Set.Icc p.x q.x → {y | y ∈ Set.Icc p.y q.y ∧ ¬ S x y}.Countable

/-- The derivatives of the magnetic field that enter Maxwell's equations are continuous in the part `S` of the box up to time `T`. -/
structure Wave.Regular (w : Wave) (S : ℝ → ℝ → Prop) (p q : V2 ℝ) (T : ℝ) : Prop where
  Yx : ContinuousOn (fun z : ℝ × ℝ × ℝ => w.Yx z.1 z.2.1 z.2.2) (Set.Icc 0 T ×ˢ {z | z ∈ between p q ∧ S z.1 z.2})
  Xy : ContinuousOn (fun z : ℝ × ℝ × ℝ => w.Xy z.1 z.2.1 z.2.2) (Set.Icc 0 T ×ˢ {z | z ∈ between p q ∧ S z.1 z.2})

/-- At time `T` the field in the box is at most `η`. -/
def Wave.Faded (w : Wave) (p q : V2 ℝ) (T η : ℝ) : Prop := ∀ x y, (x, y) ∈ between p q → |w.E T x y| ≤ η ∧ |w.X T x y| ≤ η ∧ |w.Y T x y| ≤ η

/-- What is asked of the wave in a box: it is smooth up to separate lines, and at time `T` it has faded to `η`. -/
structure Wave.Settled (w : Wave) (S : ℝ → ℝ → Prop) (p q : V2 ℝ) (T η : ℝ) : Prop where
  pieces : Pieces S p q
  regular : w.Regular S p q T
  faded : w.Faded p q T η

/-- What a field that has not faded completely contributes. -/
noncomputable def remainder (p q : V2 ℝ) (k η M T : ℝ) : ℝ := (q.x - p.x) * (q.y - p.y) * (k * (η * (M * T * T)))

end Qbox.Spec
