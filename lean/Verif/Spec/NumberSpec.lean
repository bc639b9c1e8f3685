import Verif.Model.Core
import Mathlib.Tactic.Linarith

/-!
# Numbers, infinities and NaN

The theorems about exact arithmetic use the division of `ℝ`, where `x / 0 = 0`. A `double` divided by zero is an infinity or NaN, and NaN
stays: one division by zero spoils the whole simulation. Here is an arithmetic that is exact as long as the results are numbers and follows
IEEE 754 where they are not. It is a second instance of `Scalar`, so the program of the model runs in it unchanged.
-/

namespace Qbox.Spec

/-- Exact arithmetic with infinities and NaN. There is one zero, which divides as `+0`. Overflow and rounding are not represented. -/
inductive Xr
  | fin (r : ℝ)
  | pinf
  | ninf
  | nan

namespace Xr

/-- The value is a number. -/
def IsNum : Xr → Prop
  | fin _ => True
  | _ => False

/-- An infinity with the sign of `r`, NaN for zero. -/
noncomputable def infSign (r : ℝ) : Xr := if 0 < r then pinf else if r < 0 then ninf else nan

def neg : Xr → Xr
  | fin a => fin (-a)
  | pinf => ninf
  | ninf => pinf
  | nan => nan

noncomputable def add : Xr → Xr → Xr
  | fin a, fin b => fin (a + b)
  | nan, _ => nan
  | _, nan => nan
  | pinf, ninf => nan
  | ninf, pinf => nan
  | pinf, _ => pinf
  | _, pinf => pinf
  | ninf, _ => ninf
  | _, ninf => ninf

noncomputable def mul : Xr → Xr → Xr
  | fin a, fin b => fin (a * b)
  | nan, _ => nan
  | _, nan => nan
  | fin a, pinf => infSign a
  | fin a, ninf => infSign (-a)
  | pinf, fin b => infSign b
  | ninf, fin b => infSign (-b)
  | pinf, pinf => pinf
  | pinf, ninf => ninf
  | ninf, pinf => ninf
  | ninf, ninf => pinf

/-- `a / 0` is an infinity, or NaN if `a` is zero. -/
noncomputable def div : Xr → Xr → Xr
  | fin a, fin b => if b = 0 then infSign a else fin (a / b)
  | nan, _ => nan
  | _, nan => nan
  | fin _, pinf => fin 0
  | fin _, ninf => fin 0
  | pinf, fin b => if 0 ≤ b then pinf else ninf
  | ninf, fin b => if 0 ≤ b then ninf else pinf
  | _, _ => nan

noncomputable def exp' : Xr → Xr
  | fin a => fin (Real.exp a)
  | pinf => pinf
  | ninf => fin 0
  | nan => nan

/-- The conversions of values that are not numbers to `int` are undefined behaviour in C++; here they give zero. `Props/NumberProps.lean`
shows that they do not happen. -/
noncomputable instance : Scalar Xr where
  zero := fin 0
  one := fin 1
  add := add
  sub a b := add a (neg b)
  mul := mul
  div := div
  neg := neg
  ofInt n := fin n
  ltb
    | fin a, fin b => decide (a < b)
    | nan, _ => false
    | _, nan => false
    | ninf, ninf => false
    | ninf, _ => true
    | _, ninf => false
    | pinf, _ => false
    | _, pinf => true
  leb
    | fin a, fin b => decide (a ≤ b)
    | nan, _ => false
    | _, nan => false
    | ninf, _ => true
    | _, pinf => true
    | pinf, _ => false
    | _, ninf => false
  eqb
    | fin a, fin b => decide (a = b)
    | pinf, pinf => true
    | ninf, ninf => true
    | _, _ => false
  sin | fin a => fin (Real.sin a) | _ => nan
  cos | fin a => fin (Real.cos a) | _ => nan
  exp := exp'
  sqrt
    | fin a => if 0 ≤ a then fin (Real.sqrt a) else nan
    | pinf => pinf
    | _ => nan
  pi := fin Real.pi
  floorI | fin a => ⌊a⌋ | _ => 0
  ceilI | fin a => ⌈a⌉ | _ => 0
  roundI | fin a => roundAway a | _ => 0
  npow x n := Nat.rec (fin 1) (fun _ r => mul r x) n
  absS
    | fin a => fin |a|
    | nan => nan
    | _ => pinf

/-! ### A program whose inputs are numbers

`Q.fin` is the quantity `Q` of exact arithmetic in this arithmetic. -/

end Xr

open Xr

def finV (p : V2 ℝ) : V2 Xr := ⟨fin p.x, fin p.y⟩
def finSimple (m : Simple ℝ) : Simple Xr := ⟨fin m.eps, fin m.mu, fin m.conduc⟩
def finDebye (m : Debye ℝ) : Debye Xr := ⟨fin m.epsInf, m.poles.map fun p => ⟨fin p.dEps, fin p.tau⟩⟩
def finDrude (m : Drude ℝ) : Drude Xr := ⟨fin m.epsInf, m.poles.map fun p => ⟨fin p.omega, fin p.gamma⟩⟩
def finLorentz (m : Lorentz ℝ) : Lorentz Xr := ⟨fin m.epsInf, m.poles.map fun p => ⟨fin p.omega, fin p.dEps, fin p.gamma⟩⟩

/-- A medium. -/
def finKind : MatKind ℝ → MatKind Xr
  | .simple m => .simple (finSimple m)
  | .debye m => .debye (finDebye m)
  | .drude m => .drude (finDrude m)
  | .lorentz m => .lorentz (finLorentz m)

/-- An object: the same medium, the same answer for every place. -/
structure FinObj (o' : Object Xr) (o : Object ℝ) : Prop where
  name : o'.mat.name = o.mat.name
  kind : o'.mat.kind = finKind o.mat.kind
  inside : ∀ p, o'.inside (finV p) = o.inside p
  bbox : Option.Rel (fun b' b => b'.a = finV b.a ∧ b'.b = finV b.b) o'.bbox o.bbox

/-- A signal: a number at every time that is a number. A profile that records its spectrum has numbers for frequencies. -/
structure FinSignal (p' : TimeProfile Xr) (p : TimeProfile ℝ) : Prop where
  resp : ∀ t, p'.resp (fin t) = fin (p.resp t)
  dft : ∃ fr : Option (List ℝ), p.dft = fr.map (fun l => (Dft.make l).add "dft" [()]) ∧
    p'.dft = fr.map (fun l => (Dft.make (l.map fin)).add "dft" [()])

/-- A source: the same component and place, the same signal. -/
structure FinSource (s' : Source Xr) (s : Source ℝ) : Prop where
  kind : match s.kind, s'.kind with
    | .point C p, .point C' p' => C' = C ∧ p' = finV p
    | .line C k, .line C' k' => C' = C ∧ k'.a = finV k.a ∧ k'.b = finV k.b ∧ k'.sg = k.sg
    | _, _ => False
  signal : FinSignal s'.tp s.tp

/-- An incident wave. -/
structure FinWave (w' : Vol Xr × TimeProfile Xr) (w : Vol ℝ × TimeProfile ℝ) : Prop where
  a : w'.1.a = finV w.1.a
  b : w'.1.b = finV w.1.b
  signal : FinSignal w'.2 w.2

/-- A medium with parameters in the physical range: positive permittivity and relaxation times, no gain. -/
def SoundKind : MatKind ℝ → Prop
  | .simple m => 0 < m.eps ∧ 0 ≤ m.conduc
  | .debye m => 0 < m.epsInf ∧ ∀ p ∈ m.poles, 0 ≤ p.dEps ∧ 0 < p.tau
  | .drude m => 0 < m.epsInf ∧ ∀ p ∈ m.poles, 0 ≤ p.gamma
  | .lorentz m => 0 < m.epsInf ∧ ∀ p ∈ m.poles, 0 ≤ p.dEps ∧ 0 ≤ p.gamma

/-- The program: construct the fields, add the objects, set the incident wave, step `n` times. -/
def program {K : Type} [Scalar K] (g : Grid K) (objs : List (Object K)) (wave : Option (Vol K × TimeProfile K)) (srcs : List (Source K))
    (n : ℕ) : M (Core K) := do
  let c ← Core.make g
  let c ← forList objs c (fun o c => c.insertObject o)
  let c := match wave with
    | none => c
    | some w => c.setTfsf w.1 w.2
  let r ← c.run n srcs
  pure r.1

/-- A tensor of numbers, with these values. -/
def FinTensor (a' : Tensor Xr) (a : Tensor ℝ) : Prop := a'.nx = a.nx ∧ a'.ny = a.ny ∧ ∀ i j, a'.val i j = fin (a.val i j)

end Qbox.Spec
