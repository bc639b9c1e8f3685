import Mathlib.Analysis.SpecialFunctions.Trigonometric.Basic
import Mathlib.Analysis.SpecialFunctions.Pow.Real

/-!
# Scalars

Every numeric quantity of the C++ code is a `double`.  The model is written over an abstract type
`K` that only offers the *operations* the code uses, without any law.  A theorem proved for every
`Scalar K` holds for IEEE doubles whatever their rounding does; theorems that need algebra are
stated at the instance `Scalar ℝ` (exact arithmetic).
-/

namespace Qbox

/-- The operations on `double` used by the code (no laws). -/
class Scalar (K : Type) extends Zero K, One K, Add K, Sub K, Mul K, Div K, Neg K where
  /-- conversion of an `int` (implicit conversions, and literals such as `2`, `2.0`) -/
  ofInt : ℤ → K
  /-- `<` -/
  ltb : K → K → Bool
  /-- `<=` -/
  leb : K → K → Bool
  /-- `==` -/
  eqb : K → K → Bool
  sin : K → K
  cos : K → K
  exp : K → K
  sqrt : K → K
  /-- `M_PI` -/
  pi : K
  /-- `int(floor(x))` -/
  floorI : K → ℤ
  /-- `int(ceil(x))` -/
  ceilI : K → ℤ
  /-- `int(round(x))`, C `round`: halfway cases away from zero -/
  roundI : K → ℤ
  /-- `pow(x, n)` with a non-negative integer exponent -/
  npow : K → ℕ → K
  /-- `std::abs` / Eigen `cwiseAbs` on doubles -/
  absS : K → K

/-- C `round` on the reals: nearest integer, halfway cases away from zero. -/
noncomputable def roundAway (x : ℝ) : ℤ :=
  if 0 ≤ x then ⌊x + 1/2⌋ else ⌈x - 1/2⌉

/-- Exact arithmetic. -/
noncomputable instance instScalarReal : Scalar ℝ where
  ofInt n := (n : ℝ)
  ltb x y := decide (x < y)
  leb x y := decide (x ≤ y)
  eqb x y := decide (x = y)
  sin := Real.sin
  cos := Real.cos
  exp := Real.exp
  sqrt := Real.sqrt
  pi := Real.pi
  floorI x := ⌊x⌋
  ceilI x := ⌈x⌉
  roundI := roundAway
  npow x n := x ^ n
  absS x := |x|

/-- IEEE doubles (the type the C++ code really uses); `npow` is iterated multiplication here.
Only given to show that the structural theorems instantiate at `Float`. -/
instance instScalarFloat : Scalar Float where
  zero := 0.0
  one := 1.0
  ofInt n := Float.ofInt n
  ltb x y := x < y
  leb x y := x ≤ y
  eqb x y := x == y
  sin := Float.sin
  cos := Float.cos
  exp := Float.exp
  sqrt := Float.sqrt
  pi := 3.14159265358979323846
  floorI x := (Float.floor x).toInt64.toInt
  ceilI x := (Float.ceil x).toInt64.toInt
  roundI x := (Float.round x).toInt64.toInt
  npow x n := Nat.rec 1.0 (fun _ r => r * x) n
  absS := Float.abs

open Scalar

section
variable {K : Type} [Scalar K]

/-- literal `0.5` -/
def half : K := 1 / ofInt 2
/-- literal `0.8` -/
def lit0_8 : K := ofInt 4 / ofInt 5
/-- literal `0.2` -/
def lit0_2 : K := ofInt 1 / ofInt 5
/-- literal `1e-20` -/
def lit1e20 : K := 1 / ofInt (10 ^ 20)

end

@[simp] theorem ofInt_real (n : ℤ) : (ofInt n : ℝ) = (n : ℝ) := rfl
@[simp] theorem ltb_real (x y : ℝ) : ltb x y = decide (x < y) := rfl
@[simp] theorem leb_real (x y : ℝ) : leb x y = decide (x ≤ y) := rfl
@[simp] theorem eqb_real (x y : ℝ) : eqb x y = decide (x = y) := rfl
@[simp] theorem sin_real (x : ℝ) : Scalar.sin x = Real.sin x := rfl
@[simp] theorem cos_real (x : ℝ) : Scalar.cos x = Real.cos x := rfl
@[simp] theorem exp_real (x : ℝ) : Scalar.exp x = Real.exp x := rfl
@[simp] theorem sqrt_real (x : ℝ) : Scalar.sqrt x = Real.sqrt x := rfl
@[simp] theorem pi_real : (Scalar.pi : ℝ) = Real.pi := rfl
@[simp] theorem floorI_real (x : ℝ) : Scalar.floorI x = ⌊x⌋ := rfl
@[simp] theorem ceilI_real (x : ℝ) : Scalar.ceilI x = ⌈x⌉ := rfl
@[simp] theorem roundI_real (x : ℝ) : Scalar.roundI x = roundAway x := rfl
@[simp] theorem npow_real (x : ℝ) (n : ℕ) : Scalar.npow x n = x ^ n := rfl
@[simp] theorem absS_real (x : ℝ) : Scalar.absS x = |x| := rfl
@[simp] theorem half_real : (half : ℝ) = 1 / 2 := by simp [half]
@[simp] theorem lit0_8_real : (lit0_8 : ℝ) = 4 / 5 := by simp [lit0_8]
@[simp] theorem lit0_2_real : (lit0_2 : ℝ) = 1 / 5 := by simp [lit0_2]
@[simp] theorem lit1e20_real : (lit1e20 : ℝ) = 1 / 10 ^ 20 := by norm_num [lit1e20]

end Qbox
