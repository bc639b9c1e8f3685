import Verif.Model.Core

/-!
# Linear combinations of simulation states

`Combo a b c1 c2 c3`: the three simulations have the same structure (grid, clock, material coefficients, absorbing-layer
coefficients, dispersive materials and where they are, total-field region) and every field value and every memory value
of `c3` is `a` times that of `c1` plus `b` times that of `c2`. The arrays are compared as total functions on the indices.
-/

namespace Qbox.Spec
open Qbox

/-- Three lists of the same length, related entry by entry. -/
inductive Forall3 {α β γ : Type} (R : α → β → γ → Prop) : List α → List β → List γ → Prop
  | nil : Forall3 R [] [] []
  | cons {x y z l m n} : R x y z → Forall3 R l m n → Forall3 R (x :: l) (y :: m) (z :: n)

/-- Absent in all three, or present in all three and related. -/
inductive Opt3 {α β γ : Type} (R : α → β → γ → Prop) : Option α → Option β → Option γ → Prop
  | none : Opt3 R none none none
  | some {x y z} : R x y z → Opt3 R (some x) (some y) (some z)

def TCombo (a b : ℝ) (x y z : Tensor ℝ) : Prop := ∀ i j, z.val i j = a * x.val i j + b * y.val i j
def T3Combo (a b : ℝ) (x y z : Tensor3 ℝ) : Prop := ∀ i j k, z.val i j k = a * x.val i j k + b * y.val i j k
def ACombo (a b : ℝ) (x y z : Arr ℝ) : Prop := ∀ i, z.val i = a * x.val i + b * y.val i
def SCombo (a b x y z : ℝ) : Prop := z = a * x + b * y

/-- Same update coefficients at every node. -/
def SameTable (f f' : Flds ℝ) : Prop := f'.Ca = f.Ca ∧ f'.Cb = f.Cb ∧ f'.Da = f.Da ∧ f'.Db = f.Db

/-- Same update coefficients, combined fields. -/
structure FldsCombo (a b : ℝ) (x y z : Flds ℝ) : Prop where
  sy : SameTable x y
  sz : SameTable x z
  Ez : TCombo a b x.Ez y.Ez z.Ez
  Hx : TCombo a b x.Hx y.Hx z.Hx
  Hy : TCombo a b x.Hy y.Hy z.Hy

/-- The absorbing layer: same parameters and coefficients. -/
def SameLayer (x y : Pml ℝ) : Prop := y.Nx = x.Nx ∧ y.Ny = x.Ny ∧ y.par = x.par ∧ y.co = x.co

structure PmlCombo (a b : ℝ) (x y z : Pml ℝ) : Prop where
  sy : SameLayer x y
  sz : SameLayer x z
  Ezx1 : TCombo a b x.psi.Ezx1 y.psi.Ezx1 z.psi.Ezx1
  Ezx2 : TCombo a b x.psi.Ezx2 y.psi.Ezx2 z.psi.Ezx2
  Hyx1 : TCombo a b x.psi.Hyx1 y.psi.Hyx1 z.psi.Hyx1
  Hyx2 : TCombo a b x.psi.Hyx2 y.psi.Hyx2 z.psi.Hyx2
  Ezy1 : TCombo a b x.psi.Ezy1 y.psi.Ezy1 z.psi.Ezy1
  Ezy2 : TCombo a b x.psi.Ezy2 y.psi.Ezy2 z.psi.Ezy2
  Hxy1 : TCombo a b x.psi.Hxy1 y.psi.Hxy1 z.psi.Hxy1
  Hxy2 : TCombo a b x.psi.Hxy2 y.psi.Hxy2 z.psi.Hxy2

/-- Entries of a polarization map: same material at the same nodes, combined currents. -/
def DebyeCombo (a b : ℝ) (x y z : String × DebyePol ℝ) : Prop :=
  (y.1 = x.1 ∧ y.2.mat = x.2.mat ∧ y.2.beta = x.2.beta) ∧ (z.1 = x.1 ∧ z.2.mat = x.2.mat ∧ z.2.beta = x.2.beta) ∧
    T3Combo a b x.2.J y.2.J z.2.J
def DrudeCombo (a b : ℝ) (x y z : String × DrudePol ℝ) : Prop :=
  (y.1 = x.1 ∧ y.2.mat = x.2.mat ∧ y.2.beta = x.2.beta) ∧ (z.1 = x.1 ∧ z.2.mat = x.2.mat ∧ z.2.beta = x.2.beta) ∧
    T3Combo a b x.2.J y.2.J z.2.J
def LorentzCombo (a b : ℝ) (x y z : String × LorentzPol ℝ) : Prop :=
  (y.1 = x.1 ∧ y.2.mat = x.2.mat ∧ y.2.delta = x.2.delta) ∧ (z.1 = x.1 ∧ z.2.mat = x.2.mat ∧ z.2.delta = x.2.delta) ∧
    T3Combo a b x.2.J y.2.J z.2.J ∧ T3Combo a b x.2.prevJ y.2.prevJ z.2.prevJ

/-- Total-field regions of the same place and clock. -/
structure SameRegion (x y : Tfsf ℝ) : Prop where
  ia : y.ia = x.ia
  ib : y.ib = x.ib
  ja : y.ja = x.ja
  jb : y.jb = x.jb
  Nx : y.Nx = x.Nx
  dt : y.dt = x.dt
  t : y.t = x.t
  ca : y.ca = x.ca
  cb : y.cb = x.cb

/-- The incident waves are combined: signals and the auxiliary line. -/
structure TfsfCombo (a b : ℝ) (x y z : Tfsf ℝ) : Prop where
  sy : SameRegion x y
  sz : SameRegion x z
  sig : ∀ t, z.tp.resp t = a * x.tp.resp t + b * y.tp.resp t
  Ez : ACombo a b x.Ez y.Ez z.Ez
  Dz : ACombo a b x.Dz y.Dz z.Dz
  Hx : ACombo a b x.Hx y.Hx z.Hx
  Iz : ACombo a b x.Iz y.Iz z.Iz
  left0 : SCombo a b x.left0 y.left0 z.left0
  left1 : SCombo a b x.left1 y.left1 z.left1
  right0 : SCombo a b x.right0 y.right0 z.right0
  right1 : SCombo a b x.right1 y.right1 z.right1

/-- Sources at the same place whose signals are combined. -/
def SrcCombo (a b : ℝ) (x y z : Source ℝ) : Prop :=
  y.kind = x.kind ∧ z.kind = x.kind ∧ ∀ t, z.tp.resp t = a * x.tp.resp t + b * y.tp.resp t

structure Combo (a b : ℝ) (x y z : Core ℝ) : Prop where
  g : y.g = x.g ∧ z.g = x.g
  t : y.t = x.t ∧ z.t = x.t
  sc : y.sc = x.sc ∧ z.sc = x.sc
  f : FldsCombo a b x.f y.f z.f
  pml : PmlCombo a b x.pml y.pml z.pml
  prevE : Opt3 (TCombo a b) x.prevE y.prevE z.prevE
  prev2E : Opt3 (TCombo a b) x.prev2E y.prev2E z.prev2E
  debye : Forall3 (DebyeCombo a b) x.debye y.debye z.debye
  drude : Forall3 (DrudeCombo a b) x.drude y.drude z.drude
  lorentz : Forall3 (LorentzCombo a b) x.lorentz y.lorentz z.lorentz
  tfsf : Opt3 (TfsfCombo a b) x.tfsf y.tfsf z.tfsf

def TZero (x : Tensor ℝ) : Prop := ∀ i j, x.val i j = 0
def T3Zero (x : Tensor3 ℝ) : Prop := ∀ i j k, x.val i j k = 0

/-- Every field and every memory is zero; there is no total-field region. -/
structure Silent (c : Core ℝ) : Prop where
  Ez : TZero c.f.Ez
  Hx : TZero c.f.Hx
  Hy : TZero c.f.Hy
  Ezx1 : TZero c.pml.psi.Ezx1
  Ezx2 : TZero c.pml.psi.Ezx2
  Hyx1 : TZero c.pml.psi.Hyx1
  Hyx2 : TZero c.pml.psi.Hyx2
  Ezy1 : TZero c.pml.psi.Ezy1
  Ezy2 : TZero c.pml.psi.Ezy2
  Hxy1 : TZero c.pml.psi.Hxy1
  Hxy2 : TZero c.pml.psi.Hxy2
  prevE : ∀ x, c.prevE = some x → TZero x
  prev2E : ∀ x, c.prev2E = some x → TZero x
  debye : ∀ q ∈ c.debye, T3Zero q.2.J
  drude : ∀ q ∈ c.drude, T3Zero q.2.J
  lorentz : ∀ q ∈ c.lorentz, T3Zero q.2.J ∧ T3Zero q.2.prevJ
  tfsf : c.tfsf = none

end Qbox.Spec
