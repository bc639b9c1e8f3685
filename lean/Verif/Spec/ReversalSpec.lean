import Verif.Spec.EnergySpec
import Verif.Spec.DispersiveSpec

/-!
# Running a simulation backwards

Reversible matter does not tell the past from the future: with the magnetic field and the currents reversed, the fields go back where they came from. `Ez` and the currents
are known at full steps. The magnetic field is known half a step later, so the one to reverse is that of half a step earlier, which follows by Faraday's law.
-/

namespace Qbox.Spec
open Qbox

/-- A medium whose polarization currents flow backwards. -/
noncomputable def debyeTurn (P : DebyePol ℝ) : DebyePol ℝ := { P with J := { P.J with val := fun i j N => -P.J.val i j N } }
noncomputable def drudeTurn (P : DrudePol ℝ) : DrudePol ℝ := { P with J := { P.J with val := fun i j N => -P.J.val i j N } }

open Classical in
/-- The simulation with the direction of time reversed. The magnetic field of the walls, which no update changes, stays. -/
noncomputable def turned (c : Core ℝ) : Core ℝ :=
  { c with
    f := { c.f with
      Hx := c.f.Hx.setv fun i j => if (Box.mk 1 (c.g.Nx - 2) 1 (c.g.Ny - 2)).Mem i j then -hxBack c.g c.f i j else c.f.Hx.val i j
      Hy := c.f.Hy.setv fun i j => if (Box.mk 1 (c.g.Nx - 2) 1 (c.g.Ny - 2)).Mem i j then -hyBack c.g c.f i j else c.f.Hy.val i j }
    debye := c.debye.map fun q => (q.1, debyeTurn q.2)
    drude := c.drude.map fun q => (q.1, drudeTurn q.2) }

/-- A material that turns no energy into heat, of at most one pole: a dielectric, or a metal without collisions. -/
def Reversible : MatKind ℝ → Prop
  | .simple m => m.conduc = 0
  | .debye m => m.poles = []
  | .drude m => m.poles.length ≤ 1 ∧ ∀ p ∈ m.poles, p.gamma = 0
  | .lorentz _ => False

end Qbox.Spec
