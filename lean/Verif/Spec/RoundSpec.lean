import Verif.Spec.EnergySpec
import Mathlib.Data.Int.Log

/-!
# Arithmetic with rounding

The code computes with `double`. `CMakeLists.txt:9-16` asks neither for `-ffast-math` nor, on x86-64, for an instruction set with fused
multiplication, so every operator of the source is one IEEE operation, rounded once. Here an operation is the exact operation followed by a rounding
`r : ℝ → ℝ`, of which only a few laws are known. Numbers are real numbers that rounding leaves alone. There is no largest number and no NaN: what the code
does after an overflow is not represented. `sin`, `cos`, `exp` and `pow` are any functions at all.
-/

namespace Qbox.Spec
open Qbox

/-- A rounding with relative error `u` and absolute error `tiny`, and library functions. -/
structure Arith where
  r : ℝ → ℝ
  u : ℝ
  tiny : ℝ
  u_nonneg : 0 ≤ u
  u_le : u ≤ 1 / 1000
  tiny_nonneg : 0 ≤ tiny
  tiny_le : tiny ≤ u
  near : ∀ x, |r x - x| ≤ u * |x| + tiny
  idem : ∀ x, r (r x) = r x
  odd : ∀ x, r (-x) = - r x
  one : r 1 = 1
  two : r 2 = 2
  sin : ℝ → ℝ
  cos : ℝ → ℝ
  exp : ℝ → ℝ
  pow : ℝ → ℕ → ℝ
  pi : ℝ

/-- The numbers of such an arithmetic. -/
structure Rnd (A : Arith) where
  val : ℝ
  fix : A.r val = val

/-- The number nearest to a real number. -/
def Arith.fl (A : Arith) (x : ℝ) : Rnd A := ⟨A.r x, A.idem x⟩

/-- The operations: exact, then rounded. Changing the sign, comparing and converting to an integer are exact. -/
noncomputable instance (A : Arith) : Scalar (Rnd A) where
  zero := ⟨0, by have := A.odd 0; rw [neg_zero] at this; linarith⟩
  one := ⟨1, A.one⟩
  add x y := A.fl (x.val + y.val)
  sub x y := A.fl (x.val - y.val)
  mul x y := A.fl (x.val * y.val)
  div x y := A.fl (x.val / y.val)
  neg x := ⟨-x.val, by rw [A.odd, x.fix]⟩
  ofInt n := A.fl n
  ltb x y := decide (x.val < y.val)
  leb x y := decide (x.val ≤ y.val)
  eqb x y := decide (x.val = y.val)
  sin x := A.fl (A.sin x.val)
  cos x := A.fl (A.cos x.val)
  exp x := A.fl (A.exp x.val)
  sqrt x := A.fl (Real.sqrt x.val)
  pi := A.fl A.pi
  floorI x := ⌊x.val⌋
  ceilI x := ⌈x.val⌉
  roundI x := roundAway x.val
  npow x n := A.fl (A.pow x.val n)
  absS x := ⟨|x.val|, by rcases abs_choice x.val with h | h <;> rw [h]; exacts [x.fix, by rw [A.odd, x.fix]]⟩

/-- The grid with the same cell size and number of nodes in exact arithmetic. -/
noncomputable def exactGrid {A : Arith} (g : Grid (Rnd A)) : Grid ℝ :=
  { Lx := g.dx.val * ((g.Nx - 1 : ℤ) : ℝ), Ly := g.dx.val * ((g.Ny - 1 : ℤ) : ℝ), Nx := g.Nx, Ny := g.Ny, dx := g.dx.val, dt := g.dx.val / 2,
    res := 1 / g.dx.val, T := g.T }

/-- The medium with the same parameters in exact arithmetic. -/
def exactMed {A : Arith} (m : Simple (Rnd A)) : Simple ℝ := ⟨m.eps.val, m.mu.val, m.conduc.val⟩

/-- The square of the difference between the fields of two simulations, one with rounding and one without, integrated over the rectangle. -/
noncomputable def roundGap {A : Arith} (dx : ℝ) (f : Flds (Rnd A)) (f' : Flds ℝ) (R : Box) : ℝ :=
  dx ^ 2 * R.sum fun i j => (f'.Ez.val i j - (f.Ez.val i j).val) ^ 2 + (f'.Hx.val i j - (f.Hx.val i j).val) ^ 2 + (f'.Hy.val i j - (f.Hy.val i j).val) ^ 2

/-- The sum of squares of all field values of a simulation with rounding. -/
noncomputable def roundSize {A : Arith} (dx : ℝ) (f : Flds (Rnd A)) (R : Box) : ℝ :=
  dx ^ 2 * R.sum fun i j => (f.Ez.val i j).val ^ 2 + (f.Hx.val i j).val ^ 2 + (f.Hy.val i j).val ^ 2

/-- A simple medium without gain, with a permittivity up to `epsMax`, whose update coefficient is not among the smallest numbers. -/
structure RoundPassive {A : Arith} (dx epsMax : ℝ) (m : Simple (Rnd A)) : Prop where
  eps : 1 ≤ m.eps.val
  top : m.eps.val ≤ epsMax
  conduc : 0 ≤ m.conduc.val
  normal : A.tiny ≤ A.u * (exactMed m).Cb (dx / 2)

/-- By which factor, relative to `u`, rounding can change the field in one step. -/
noncomputable def roundGrowth (epsMax : ℝ) : ℝ := 332 * Real.sqrt (epsMax + 1)

/-- What the smallest numbers of the arithmetic can add to the field in one step. -/
noncomputable def roundFloor {A : Arith} (g : Grid (Rnd A)) : ℝ :=
  3 * ((8 + 5 * g.dx.val + 3 / g.dx.val) * A.tiny) * Real.sqrt (g.dx.val ^ 2 * (Box.mk 1 (g.Nx - 2) 1 (g.Ny - 2)).sum fun _ _ => 1)

/-- The simulation with other field values. -/
def setFields {K : Type} (c : Core K) (e x y : ℤ → ℤ → K) : Core K :=
  { c with f := { c.f with Ez := c.f.Ez.setv e, Hx := c.f.Hx.setv x, Hy := c.f.Hy.setv y } }

/-- The object `o'` of the exact simulation is the object `o`: it has the same simple medium and contains the same nodes. -/
structure SameObject {A : Arith} (g : Grid (Rnd A)) (o : Object (Rnd A)) (o' : Object ℝ) : Prop where
  medium : ∃ m, o.mat.kind = .simple m ∧ o'.mat.kind = .simple (exactMed m)
  nodes : ∀ i j, 0 ≤ i → i < g.Nx → 0 ≤ j → j < g.Ny → o'.inside ((exactGrid g).toReal ⟨i, j⟩) = o.inside (g.toReal ⟨i, j⟩)

/-! ## IEEE double precision -/

/-- Round to the nearest integer, halfway cases to the even one. -/
noncomputable def nearestEven (x : ℝ) : ℤ :=
  if x - ⌊x⌋ < 1 / 2 then ⌊x⌋ else if 1 / 2 < x - ⌊x⌋ then ⌊x⌋ + 1 else if Even ⌊x⌋ then ⌊x⌋ else ⌊x⌋ + 1

/-- Exponent of the last bit of a double near `x`. -/
noncomputable def lastBit (x : ℝ) : ℤ := max (Int.log 2 |x| - 52) (-1074)

/-- Rounding to double precision, halfway cases to even, without overflow. -/
noncomputable def toDouble (x : ℝ) : ℝ := nearestEven (x / 2 ^ lastBit x) * 2 ^ lastBit x

end Qbox.Spec
