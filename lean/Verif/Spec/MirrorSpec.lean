import Verif.Spec.SwapSpec

/-!
# Mirror images of a simulation

Left-right: the node column `i` of `Ez` and `Hx` corresponds to column `Nx-1-i`; `Hy` lives half a cell to the right of its
index, so its column `i` corresponds to `Nx-2-i`, and it changes sign.  `MirOn r c d` says that `d` is the mirror image of `c`
at all nodes at least `r` columns away from the left and right edges; `MirOn 0` is the complete statement.
-/

namespace Qbox.Spec
open Qbox

/-- Columns of a node quantity are mirrored, at distance `r` from the edges. -/
def ColMir (Nx r : ℤ) (a b : Tensor ℝ) : Prop :=
  ∀ i j, r ≤ i → i ≤ Nx - 1 - r → b.val (Nx - 1 - i) j = a.val i j

/-- Columns of a half-node quantity are mirrored with opposite sign. -/
def HalfMir (Nx r : ℤ) (a b : Tensor ℝ) : Prop :=
  ∀ i j, r ≤ i → i ≤ Nx - 2 - r → b.val (Nx - 2 - i) j = -a.val i j

/-- Columns of a half-node quantity are mirrored. -/
def HalfSame (Nx : ℤ) (a b : Tensor ℝ) : Prop :=
  ∀ i j, 0 ≤ i → i ≤ Nx - 2 → b.val (Nx - 2 - i) j = a.val i j

/-- Memory strips along the left and the right edge, both indexed by the distance from the edge (a strip has
at most `Nx-1` columns). -/
def StripMir (Nx r : ℤ) (σ : ℝ) (a1 a2 b1 b2 : Tensor ℝ) : Prop :=
  ∀ i j, r ≤ i → i ≤ Nx - 2 - r → b2.val i j = σ * a1.val i j ∧ b1.val i j = σ * a2.val i j

/-- Currents. -/
def ColMir3 (Nx r : ℤ) (a b : Tensor3 ℝ) : Prop :=
  ∀ i j N, r ≤ i → i ≤ Nx - 1 - r → b.val (Nx - 1 - i) j N = a.val i j N

structure FldsMir (Nx r : ℤ) (f f' : Flds ℝ) : Prop where
  Ez : ColMir Nx r f.Ez f'.Ez
  Hx : ColMir Nx r f.Hx f'.Hx
  Hy : HalfMir Nx r f.Hy f'.Hy

/-- The media are mirrored. One table of magnetic coefficients serves both `Hx` (on the node column) and `Hy` (half a cell to the
right), so it has to be mirrored about both centres: the magnetic properties do not vary along x. -/
structure TableMir (Nx : ℤ) (f f' : Flds ℝ) : Prop where
  Ca : ColMir Nx 0 f.Ca f'.Ca
  Cb : ColMir Nx 0 f.Cb f'.Cb
  Da : ColMir Nx 0 f.Da f'.Da
  Db : ColMir Nx 0 f.Db f'.Db
  DaH : HalfSame Nx f.Da f'.Da
  DbH : HalfSame Nx f.Db f'.Db

structure PsiMir (Nx r : ℤ) (p p' : PmlPsi ℝ) : Prop where
  Ezy1 : ColMir Nx r p.Ezy1 p'.Ezy1
  Ezy2 : ColMir Nx r p.Ezy2 p'.Ezy2
  Hxy1 : ColMir Nx r p.Hxy1 p'.Hxy1
  Hxy2 : ColMir Nx r p.Hxy2 p'.Hxy2
  Ezx : StripMir Nx r 1 p.Ezx1 p.Ezx2 p'.Ezx1 p'.Ezx2
  Hyx : StripMir Nx r (-1) p.Hyx1 p.Hyx2 p'.Hyx1 p'.Hyx2

def OptMir (Nx r : ℤ) (a b : Option (Tensor ℝ)) : Prop :=
  (a = none ∧ b = none) ∨ ∃ x y, a = some x ∧ b = some y ∧ ColMir Nx r x y

structure DebyeMir (Nx r : ℤ) (P P' : DebyePol ℝ) : Prop where
  mat : P'.mat = P.mat
  beta : ColMir3 Nx 0 P.beta P'.beta
  J : ColMir3 Nx r P.J P'.J
structure DrudeMir (Nx r : ℤ) (P P' : DrudePol ℝ) : Prop where
  mat : P'.mat = P.mat
  beta : ColMir3 Nx 0 P.beta P'.beta
  J : ColMir3 Nx r P.J P'.J
structure LorentzMir (Nx r : ℤ) (P P' : LorentzPol ℝ) : Prop where
  mat : P'.mat = P.mat
  delta : ColMir3 Nx 0 P.delta P'.delta
  J : ColMir3 Nx r P.J P'.J
  prevJ : ColMir3 Nx r P.prevJ P'.prevJ

/-- `d` is the left-right mirror image of `c` at distance `r` from the left and right edges. -/
structure MirOn (r : ℤ) (c d : Core ℝ) : Prop where
  g : d.g = c.g
  t : d.t = c.t
  co : d.pml.co = c.pml.co
  tf : c.tfsf = none ∧ d.tfsf = none
  f : FldsMir c.g.Nx r c.f d.f
  tab : TableMir c.g.Nx c.f d.f
  psi : PsiMir c.g.Nx r c.pml.psi d.pml.psi
  prevE : OptMir c.g.Nx r c.prevE d.prevE
  debye : List.Forall₂ (fun p q => DebyeMir c.g.Nx r p.2 q.2) c.debye d.debye
  drude : List.Forall₂ (fun p q => DrudeMir c.g.Nx r p.2 q.2) c.drude d.drude
  lorentz : List.Forall₂ (fun p q => LorentzMir c.g.Nx r p.2 q.2) c.lorentz d.lorentz

/-- Column of the mirror image of a node of component `C`. -/
def mirCol (Nx : ℤ) : Fields → ℤ → ℤ
  | .Hy, i => Nx - 2 - i
  | _, i => Nx - 1 - i
def mirSign : Fields → ℝ
  | .Hy => -1
  | _ => 1

/-- `s'` drives the mirrored nodes of the same component with the same signal (opposite for `Hy`). -/
structure SrcMir (g : Grid ℝ) (s s' : Source ℝ) : Prop where
  drives : ∀ C i j, C.IsComp → (Drives g s' C ⟨mirCol g.Nx C i, j⟩ ↔ Drives g s C ⟨i, j⟩)
  signal : ∀ C p, Drives g s C p → ∀ t, s'.tp.resp t = mirSign C * s.tp.resp t

/-- Row of the bottom-top mirror image of a node of component `C`: `Hx` lives half a cell above its index. -/
def mirRow (Ny : ℤ) : Fields → ℤ → ℤ
  | .Hx, j => Ny - 2 - j
  | _, j => Ny - 1 - j
def mirSignY : Fields → ℝ
  | .Hx => -1
  | _ => 1

/-- `s'` drives the bottom-top mirrored nodes of the same component with the same signal (opposite for `Hx`). -/
structure SrcMirY (g : Grid ℝ) (s s' : Source ℝ) : Prop where
  drives : ∀ C i j, C.IsComp → (Drives g s' C ⟨i, mirRow g.Ny C j⟩ ↔ Drives g s C ⟨i, j⟩)
  signal : ∀ C p, Drives g s C p → ∀ t, s'.tp.resp t = mirSignY C * s.tp.resp t

/-- Bottom-top, by exchanging the axes. -/
def MirOnY (r : ℤ) (c d : Core ℝ) : Prop := (c.tfsf = none ∧ d.tfsf = none) ∧ MirOn r (swapCore c) (swapCore d)

end Qbox.Spec
