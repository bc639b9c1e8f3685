import Verif.Model.Vec
import Mathlib.Data.Complex.Basic
import Mathlib.LinearAlgebra.CrossProduct

/-!
# Energy flow, stress and far field of a time-harmonic TM field

Written from the textbook formulas in three dimensions, for the field `E = (0, 0, Ez)`, `H = (Hx, Hy, 0)`.
-/

namespace Qbox.Spec
open Qbox Matrix

/-- Phasors of the field at a point. -/
structure TM where
  Ez : ℂ
  Hx : ℂ
  Hy : ℂ

/-- electric field vector -/
def TM.E (φ : TM) : Fin 3 → ℂ := ![0, 0, φ.Ez]
/-- magnetic field vector -/
def TM.H (φ : TM) : Fin 3 → ℂ := ![φ.Hx, φ.Hy, 0]

/-- The field multiplied by a complex number. -/
def TM.smul (c : ℂ) (φ : TM) : TM := ⟨c * φ.Ez, c * φ.Hx, c * φ.Hy⟩

/-- Two fields subtracted. -/
def TM.minus (φ ψ : TM) : TM := ⟨φ.Ez - ψ.Ez, φ.Hx - ψ.Hx, φ.Hy - ψ.Hy⟩

/-- Poynting vector `Re (E × H*)`. -/
def TM.poynting (φ : TM) (k : Fin 3) : ℝ := (φ.E ⨯₃ (fun i => (starRingEnd ℂ) (φ.H i))) k |>.re

/-- Maxwell stress tensor `Re (E_k E_l* + H_k H_l*) - δ_kl (|E|² + |H|²) / 2`. -/
noncomputable def TM.stress (φ : TM) (k l : Fin 3) : ℝ :=
  (φ.E k * (starRingEnd ℂ) (φ.E l) + φ.H k * (starRingEnd ℂ) (φ.H l)).re
    - if k = l then (∑ i, Complex.normSq (φ.E i) + ∑ i, Complex.normSq (φ.H i)) / 2 else 0

/-- a vector of the plane, in space -/
def up (n : V2 ℝ) : Fin 3 → ℝ := ![n.x, n.y, 0]

/-- Energy flow through a line element with the normal `n`. -/
noncomputable def TM.outflow (φ : TM) (n : V2 ℝ) : ℝ := ∑ k, φ.poynting k * up n k

/-- Traction: the stress tensor contracted with the normal `n`. -/
noncomputable def TM.traction (φ : TM) (n : V2 ℝ) (k : Fin 3) : ℝ := ∑ l, φ.stress k l * up n l

/-- Third component of `r × T`. -/
noncomputable def TM.moment (φ : TM) (n r : V2 ℝ) : ℝ := (up r ⨯₃ φ.traction n) 2

/-- The normal of a vertical (`a.x = b.x`) or horizontal line with a given sign. -/
noncomputable def lineNormal (a b : V2 ℝ) (sg : Sgn) : V2 ℝ := if a.x = b.x then ⟨sg.toInt, 0⟩ else ⟨0, sg.toInt⟩

end Qbox.Spec
