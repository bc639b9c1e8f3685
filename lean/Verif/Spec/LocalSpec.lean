import Verif.Spec.SourceSpec

/-!
# Agreement of two simulations on a set of nodes

`S i j` says that node `(i, j)` belongs to the set. The auxiliary arrays of the absorbing layer belong to the node they
correct: the first array of a pair to the node with the same indices, the second one to the mirrored node.
-/

namespace Qbox.Spec
open Qbox Scalar

variable {K : Type}

/-- Same values at the nodes of `S`. -/
def AgreeOn (S : ℤ → ℤ → Prop) (a b : Tensor K) : Prop := ∀ i j, S i j → a.val i j = b.val i j

/-- Same values of all poles at the nodes of `S`. -/
def AgreeOn3 (S : ℤ → ℤ → Prop) (a b : Tensor3 K) : Prop := ∀ i j, S i j → ∀ N, a.val i j N = b.val i j N

/-- Both absent, or both present with the same values at the nodes of `S`. -/
def OptAgree (S : ℤ → ℤ → Prop) : Option (Tensor K) → Option (Tensor K) → Prop
  | none, none => True
  | some a, some b => AgreeOn S a b
  | _, _ => False

/-- Same fields and coefficients at the nodes of `S`. -/
structure FldsAgree (S : ℤ → ℤ → Prop) (f f' : Flds K) : Prop where
  Ez : AgreeOn S f.Ez f'.Ez
  Hx : AgreeOn S f.Hx f'.Hx
  Hy : AgreeOn S f.Hy f'.Hy
  Ca : AgreeOn S f.Ca f'.Ca
  Cb : AgreeOn S f.Cb f'.Cb
  Da : AgreeOn S f.Da f'.Da
  Db : AgreeOn S f.Db f'.Db

/-- Same memory of the absorbing layer at the nodes of `S` of a grid of `Nx` by `Ny` nodes. -/
structure PsiAgree (S : ℤ → ℤ → Prop) (Nx Ny : ℤ) (p p' : PmlPsi K) : Prop where
  Ezx1 : AgreeOn S p.Ezx1 p'.Ezx1
  Ezx2 : AgreeOn (fun i j => S (Nx - 1 - i) j) p.Ezx2 p'.Ezx2
  Hyx1 : AgreeOn S p.Hyx1 p'.Hyx1
  Hyx2 : AgreeOn (fun i j => S (Nx - 1 - i - 1) j) p.Hyx2 p'.Hyx2
  Ezy1 : AgreeOn S p.Ezy1 p'.Ezy1
  Ezy2 : AgreeOn (fun i j => S i (Ny - 1 - j)) p.Ezy2 p'.Ezy2
  Hxy1 : AgreeOn S p.Hxy1 p'.Hxy1
  Hxy2 : AgreeOn (fun i j => S i (Ny - 1 - j - 1)) p.Hxy2 p'.Hxy2

/-- Same Debye material, memory and strength at the nodes of `S`. -/
structure DebyeAgree (S : ℤ → ℤ → Prop) (P Q : DebyePol K) : Prop where
  mat : P.mat = Q.mat
  np : P.np = Q.np
  J : AgreeOn3 S P.J Q.J
  beta : AgreeOn3 S P.beta Q.beta

/-- Same Drude material, memory and strength at the nodes of `S`. -/
structure DrudeAgree (S : ℤ → ℤ → Prop) (P Q : DrudePol K) : Prop where
  mat : P.mat = Q.mat
  np : P.np = Q.np
  J : AgreeOn3 S P.J Q.J
  beta : AgreeOn3 S P.beta Q.beta

/-- Same Lorentz material, memory and strength at the nodes of `S`. -/
structure LorentzAgree (S : ℤ → ℤ → Prop) (P Q : LorentzPol K) : Prop where
  mat : P.mat = Q.mat
  np : P.np = Q.np
  J : AgreeOn3 S P.J Q.J
  prevJ : AgreeOn3 S P.prevJ Q.prevJ
  delta : AgreeOn3 S P.delta Q.delta

/-- The two simulations have the same grid, time, absorbing-layer parameters, dispersive materials and total-field source,
and the same fields, coefficients and memory at the nodes of `S`. -/
structure Agree (S : ℤ → ℤ → Prop) (c d : Core K) : Prop where
  g : c.g = d.g
  t : c.t = d.t
  sc : c.sc = d.sc
  par : c.pml.par = d.pml.par
  co : c.pml.co = d.pml.co
  tfsf : c.tfsf = d.tfsf
  f : FldsAgree S c.f d.f
  psi : PsiAgree S c.g.Nx c.g.Ny c.pml.psi d.pml.psi
  prevE : OptAgree S c.prevE d.prevE
  prev2E : OptAgree S c.prev2E d.prev2E
  debye : List.Forall₂ (fun p q => p.1 = q.1 ∧ DebyeAgree S p.2 q.2) c.debye d.debye
  drude : List.Forall₂ (fun p q => p.1 = q.1 ∧ DrudeAgree S p.2 q.2) c.drude d.drude
  lorentz : List.Forall₂ (fun p q => p.1 = q.1 ∧ LorentzAgree S p.2 q.2) c.lorentz d.lorentz

/-- The source drives no node of `S`. -/
def Apart [Scalar K] (g : Grid K) (S : ℤ → ℤ → Prop) (s : Source K) : Prop := ∀ C i j, S i j → ¬ Drives g s C ⟨i, j⟩

/-- Two lists of sources that differ only by sources that drive no node of `S`. -/
inductive SrcAgree [Scalar K] (g : Grid K) (S : ℤ → ℤ → Prop) : List (Source K) → List (Source K) → Prop
  | nil : SrcAgree g S [] []
  | both (s : Source K) {l l'} (h : SrcAgree g S l l') : SrcAgree g S (s :: l) (s :: l')
  | left (s : Source K) (hs : Apart g S s) {l l'} (h : SrcAgree g S l l') : SrcAgree g S (s :: l) l'
  | right (s : Source K) (hs : Apart g S s) {l l'} (h : SrcAgree g S l l') : SrcAgree g S l (s :: l')

/-- Nodes at most `r` cells away from `(i0, j0)` in each direction. -/
def Ball (i0 j0 r i j : ℤ) : Prop := (i0 - r ≤ i ∧ i ≤ i0 + r) ∧ (j0 - r ≤ j ∧ j ≤ j0 + r)

end Qbox.Spec
