import Verif.Spec.DrivenWaveSpec
import Verif.Spec.WatchSpec
import Mathlib.MeasureTheory.Integral.IntervalIntegral.Basic
import Mathlib.Analysis.SpecialFunctions.Trigonometric.Basic

/-!
# Spectra of an electromagnetic wave
-/

namespace Qbox.Spec
open Qbox

/-- The part of the history of `v` up to time `T` that belongs to the frequency `f`: the integral of `v(t) exp(2πi f t)`. -/
noncomputable def spectrum (v : ℝ → ℝ) (f T : ℝ) : ℂ := ∫ t in (0 : ℝ)..T, (v t : ℂ) * Complex.exp (2 * Real.pi * f * t * Complex.I)

/-- The history of a component of the wave where the grid has the component of node `(i, j)`. -/
noncomputable def Wave.site (w : Wave) (g : Grid ℝ) (x : String) (i j : ℤ) (t : ℝ) : ℝ :=
  if x = "Ez" then w.E t (i * g.dx) (j * g.dx) else if x = "Hx" then w.X t (i * g.dx) ((j + 1 / 2) * g.dx) else w.Y t ((i + 1 / 2) * g.dx) (j * g.dx)

/-- The square of the difference between `dt` times the numbers `F` and the spectra of the wave up to time `T`, integrated over the rectangle. -/
noncomputable def spectralGap (w : Wave) (g : Grid ℝ) (x : String) (f T : ℝ) (F : ℤ → ℤ → Cx ℝ) (R : Box) : ℝ :=
  g.dx ^ 2 * R.sum fun i j => ‖(g.dt : ℂ) * ⟨(F i j).re, (F i j).im⟩ - spectrum (w.site g x i j) f T‖ ^ 2

/-- The calls only look, or add objects and sources. -/
def Furnishes (ops : List (Op ℝ)) : Prop := ∀ op ∈ ops, observes op = true ∨ (∃ o, op = .addObject o) ∨ ∃ s, op = .addSource s

/-- The objects that the calls add. -/
def objectsOf : List (Op ℝ) → List (Object ℝ)
  | [] => []
  | .addObject o :: l => o :: objectsOf l
  | _ :: l => objectsOf l

/-- The sources that the calls add. -/
def sourcesOf : List (Op ℝ) → List (Source ℝ)
  | [] => []
  | .addSource s :: l => s :: sourcesOf l
  | _ :: l => sourcesOf l

/-- The calls only look, add objects and sources, or set an incident wave. -/
def Lights (ops : List (Op ℝ)) : Prop :=
  ∀ op ∈ ops, observes op = true ∨ (∃ o, op = .addObject o) ∨ (∃ s, op = .addSource s) ∨ ∃ vol tp, op = .setTfsf vol tp

/-- The incident wave that the calls leave: the last one that they set. -/
def incidentOf : List (Op ℝ) → Option (Vol ℝ × TimeProfile ℝ)
  | [] => none
  | .setTfsf vol tp :: l => some ((incidentOf l).getD (vol, tp))
  | _ :: l => incidentOf l

/-- The calls only look, or advance the time. -/
def Advances (ops : List (Op ℝ)) : Prop := ∀ op ∈ ops, observes op = true ∨ op = .update

end Qbox.Spec
