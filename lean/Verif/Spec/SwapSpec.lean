import Verif.Spec.SourceSpec

/-!
# Exchanging the two axes of a simulation

`Core.swap` is the simulation a user would get by exchanging the roles of x and y: the grid, the spacings, the material
coefficients, the absorbing layer and its memory, the dispersive currents and the fields are transposed.  `Ez` points out of
the plane; the reflection that exchanges x and y turns `Hx` into `-Hy` and `Hy` into `-Hx`.
-/

namespace Qbox.Spec
open Qbox

section
variable {K : Type}

/-- Transposed array. -/
def tr (a : Tensor K) : Tensor K := ⟨a.ny, a.nx, fun i j => a.val j i⟩
/-- Transposed array with the opposite sign. -/
noncomputable def trn (a : Tensor ℝ) : Tensor ℝ := ⟨a.ny, a.nx, fun i j => -a.val j i⟩
/-- Array with one entry per pole, transposed in space. -/
def tr3 (a : Tensor3 K) : Tensor3 K := ⟨a.ny, a.nx, a.nz, fun i j N => a.val j i N⟩

def swapV (p : V2 K) : V2 K := ⟨p.y, p.x⟩

def swapGrid (g : Grid K) : Grid K := { g with Lx := g.Ly, Ly := g.Lx, Nx := g.Ny, Ny := g.Nx }
def swapScaling (s : Scaling K) : Scaling K := ⟨s.kedy, s.khdy, s.kedx, s.khdx⟩
def swapCoef (c : PmlCoef K) : PmlCoef K := ⟨c.be_y, c.ce_y, c.bh_y, c.ch_y, c.be_x, c.ce_x, c.bh_x, c.ch_x⟩
end

/-- Memory of the absorbing layer: the part fed by `Hx`, `Hy` changes sign, the part fed by `Ez` does not. -/
noncomputable def swapPsi (p : PmlPsi ℝ) : PmlPsi ℝ where
  Ezx1 := trn p.Ezy1
  Ezx2 := trn p.Ezy2
  Hyx1 := tr p.Hxy1
  Hyx2 := tr p.Hxy2
  Ezy1 := trn p.Ezx1
  Ezy2 := trn p.Ezx2
  Hxy1 := tr p.Hyx1
  Hxy2 := tr p.Hyx2

noncomputable def swapPml (p : Pml ℝ) : Pml ℝ := ⟨p.Ny, p.Nx, p.par, swapCoef p.co, swapPsi p.psi⟩

noncomputable def swapFlds (f : Flds ℝ) : Flds ℝ where
  Ez := tr f.Ez
  Hx := trn f.Hy
  Hy := trn f.Hx
  Ca := tr f.Ca
  Cb := tr f.Cb
  Da := tr f.Da
  Db := tr f.Db

def swapDebye (P : DebyePol ℝ) : DebyePol ℝ := { P with J := tr3 P.J, beta := tr3 P.beta }
def swapDrude (P : DrudePol ℝ) : DrudePol ℝ := { P with J := tr3 P.J, beta := tr3 P.beta }
def swapLorentz (P : LorentzPol ℝ) : LorentzPol ℝ :=
  { P with J := tr3 P.J, delta := tr3 P.delta, prevJ := tr3 P.prevJ }

/-- The simulation with x and y exchanged. A total-field region injects a wave along +y and has no counterpart, so it is
left out. -/
noncomputable def swapCore (c : Core ℝ) : Core ℝ where
  g := swapGrid c.g
  tStep := c.tStep
  t := c.t
  f := swapFlds c.f
  sc := swapScaling c.sc
  pml := swapPml c.pml
  prevE := c.prevE.map tr
  prev2E := c.prev2E.map tr
  debye := c.debye.map fun p => (p.1, swapDebye p.2)
  drude := c.drude.map fun p => (p.1, swapDrude p.2)
  lorentz := c.lorentz.map fun p => (p.1, swapLorentz p.2)
  tfsf := none

def swapComp : Fields → Fields
  | .Hx => .Hy
  | .Hy => .Hx
  | C => C

/-- Sign picked up by a component. -/
def swapSign : Fields → ℝ
  | .Hx => -1
  | .Hy => -1
  | _ => 1

/-- `s'` drives the exchanged component at the exchanged nodes with the same signal (opposite for the magnetic
components). -/
structure SrcSwap (g : Grid ℝ) (s s' : Source ℝ) : Prop where
  drives : ∀ C p, C.IsComp → (Drives (swapGrid g) s' (swapComp C) (swapV p) ↔ Drives g s C p)
  signal : ∀ C p, Drives g s C p → ∀ t, s'.tp.resp t = swapSign C * s.tp.resp t

end Qbox.Spec
