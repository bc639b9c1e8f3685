import Verif.Spec.ConvergeSpec
import Verif.Spec.DrivenSpec
import Verif.Spec.WindowSpec
import Verif.Spec.CurrentSpec

/-!
# Fields that a current radiates

The current density `J` is a function of `t`, `x`, `y`. A program has no current; it has sources that add numbers to field values once per step.
-/

namespace Qbox.Spec
open Qbox

/-- What the sources add to `Ez` at node `(i, j)` when the clock shows `t`. -/
noncomputable def addedE (g : Grid ℝ) (srcs : List (Source ℝ)) (t : ℝ) (i j : ℤ) : ℝ := (srcs.map fun s => contrib g s (s.tp.resp t) .Ez ⟨i, j⟩).sum

/-- The sources of a program are the current density `J`, up to `δ`. They add to the electric field only, at nodes that an update changes. What they add in
a step is what the current in the middle of the step takes away from the field. -/
structure Carries (g : Grid ℝ) (srcs : List (Source ℝ)) (eps sig : ℝ → ℝ → ℝ) (J : ℝ → ℝ → ℝ → ℝ) (τ δ : ℝ) : Prop where
  electric : ∀ s ∈ srcs, ∀ C i j, Drives g s C ⟨i, j⟩ → C = .Ez ∧ 1 ≤ i ∧ i ≤ g.Nx - 2 ∧ 1 ≤ j ∧ j ≤ g.Ny - 2
  node : ∀ (n : ℕ) (i j : ℤ), 1 ≤ i → i ≤ g.Nx - 2 → 1 ≤ j → j ≤ g.Ny - 2 → ((n : ℝ) + 1) * g.dt ≤ τ →
    |(eps (i * g.dx) (j * g.dx) / g.dt + sig (i * g.dx) (j * g.dx) / 2) * addedE g srcs (((n : ℝ) + 1) * g.dt) i j +
      J ((n + 1 / 2) * g.dt) (i * g.dx) (j * g.dx)| ≤ δ

/-- The current is at most `M` in the domain up to time `τ`. -/
def CurrentAtMost (J : ℝ → ℝ → ℝ → ℝ) (g : Grid ℝ) (τ M : ℝ) : Prop := ∀ t x y, 0 ≤ t → t ≤ τ → InDomain g x y → |J t x y| ≤ M

/-- There is no field at the start. -/
def Wave.AtRest (w : Wave) (g : Grid ℝ) : Prop := ∀ x y, InDomain g x y → w.E 0 x y = 0 ∧ w.X 0 x y = 0 ∧ w.Y 0 x y = 0

/-- What the size of the cells and the sources contribute to the error per unit of time: a term of second order and the error `δ` of the sources, and a term for
the cells in which the solution is not smooth. -/
noncomputable def drivenError (S : ℝ → ℝ → Prop) (g : Grid ℝ) (M epsMax sigMax δ : ℝ) : ℝ :=
  Real.sqrt (12 * (epsMax + 1) * (g.Lx * g.Ly * ((epsMax + sigMax + 8) / 16 * M * g.dx ^ 2 + δ) ^ 2 +
    crossedArea S g ⟨1, g.Nx - 2, 1, g.Ny - 2⟩ * ((epsMax + sigMax + 3) * M + δ) ^ 2))

/-- The magnetic field of a program starts half a step late: a term of second order, and a term for the cells in which the solution is not smooth. -/
noncomputable def restError (S : ℝ → ℝ → Prop) (g : Grid ℝ) (M epsMax : ℝ) : ℝ :=
  Real.sqrt (12 * (epsMax + 1) * (g.Lx * g.Ly * (1 / 16 * M * g.dx ^ 2) ^ 2 + crossedArea S g ⟨1, g.Nx - 2, 1, g.Ny - 2⟩ * (1 / 4 * M * g.dx) ^ 2))

/-- The nodes that an update changes. -/
def innerNodes (g : Grid ℝ) : List (V2 ℤ) :=
  (List.range (g.Nx - 2).toNat).flatMap fun i : ℕ => (List.range (g.Ny - 2).toNat).map fun j : ℕ => (⟨i + 1, j + 1⟩ : V2 ℤ)

/-- A point source at every node, whose signal is the current there `ahead` of the clock, with the sign and the scale of a current. -/
noncomputable def radiators (g : Grid ℝ) (eps sig : ℝ → ℝ → ℝ) (J : ℝ → ℝ → ℝ → ℝ) (ahead : ℝ) : List (Source ℝ) :=
  (innerNodes g).map (current g fun i j t => - J (t + ahead) (i * g.dx) (j * g.dx) / (eps (i * g.dx) (j * g.dx) / g.dt + sig (i * g.dx) (j * g.dx) / 2))

end Qbox.Spec
