import Verif.Model.Dft
import Verif.Model.Yee

/-!
# `src/sources/*.cpp`, `include/sources/*.h`
-/

namespace Qbox
open Scalar

/-- `class time_profile`, `include/sources/time_profile.h:11-24`: the optional spectrum and the signal `resp` that
`response(t)` returns.  A user-defined profile is represented when its signal is a function of `t`.  `params` is what the
virtual function `write` writes, by name. -/
structure TimeProfile (K : Type) where
  resp : K → K
  dft : Option (Dft K Unit)
  params : List (String × K) := []

/-- Which field nodes a source drives: `point_source` or `line_source`. -/
inductive SrcKind (K : Type)
  | point (C : Fields) (p : V2 K)
  | line (C : Fields) (surf : Surf K)

/-- `class source`, `include/sources/source.h:26-48`. -/
structure Source (K : Type) where
  name : String
  kind : SrcKind K
  tp : TimeProfile K

section
variable {K : Type} [Scalar K]

/-- Signal of `gaussian_time`, `src/sources/time_profile.cpp:18`. -/
def gaussianResp (f sig T0 : K) (t : K) : K :=
  Scalar.sin (ofInt 2 * Scalar.pi * f * t)
    * Scalar.exp (ofInt (-1) * npow ((t - T0) * sig * ofInt 2 * Scalar.pi) 2)

/-- `gaussian_time(f, sig, T0)`, `src/sources/time_profile.cpp:15`, `:23-27`. -/
def TimeProfile.gaussian (f sig T0 : K) : TimeProfile K :=
  ⟨gaussianResp f sig T0, none, [("frequency", f), ("T0", T0), ("sig", sig)]⟩

/-- `continuous_time(f)`, `src/sources/time_profile.cpp:33-37`, `:41-43`. -/
def TimeProfile.continuous (f : K) : TimeProfile K :=
  ⟨fun t => Scalar.sin (ofInt 2 * Scalar.pi * f * t), none, [("frequency", f)]⟩

/-- `freq(array)`, `include/sources/time_profile.h:29-32`. -/
def TimeProfile.freq (tp : TimeProfile K) (fr : List K) : TimeProfile K :=
  { tp with dft := some ((Dft.make fr).add "dft" [()]) }

/-- `response(t)`, `src/sources/time_profile.cpp:17-21`, `:35-39`, including `time_profile::update`, `:7-13`: the value
is added to the spectrum before it is returned. -/
def TimeProfile.response (tp : TimeProfile K) (t : K) : M (K × TimeProfile K) :=
  let val := tp.resp t
  match tp.dft with
  | none => .ok (val, tp)
  | some d => do
    let (d', _) ← d.update (fun _ _ (m : Unit) => .ok (val, m)) t ()
    pure (val, { tp with dft := some d' })

/-- message of `src/field2.cpp:311` -/
def fieldMsg : String := "not a valid field component"

/-- `get_field_ref(C)` used for reading, `src/field2.cpp:306-313`. -/
def Flds.get (f : Flds K) : Fields → M (Tensor K)
  | .Ez => .ok f.Ez
  | .Hx => .ok f.Hx
  | .Hy => .ok f.Hy
  | _ => .error (.exn fieldMsg)

/-- `get_field_ref(C)(i,j) += v`, `src/field2.cpp:306-313`. -/
def Flds.addAt (f : Flds K) (C : Fields) (i j : ℤ) (v : K) : M (Flds K) :=
  match C with
  | .Ez => do let a ← f.Ez.wr i j ((← f.Ez.rd i j) + v); pure { f with Ez := a }
  | .Hx => do let a ← f.Hx.wr i j ((← f.Hx.rd i j) + v); pure { f with Hx := a }
  | .Hy => do let a ← f.Hy.wr i j ((← f.Hy.rd i j) + v); pure { f with Hy := a }
  | _ => .error (.exn fieldMsg)

/-- `for (ivec p = a; p != b; p += tangent) F->get_field_ref(C)(p) += amp`, `src/sources/line_source.cpp:19-20`. The
fuel is only there to make the recursion structural: running out of it means the loop did not reach `b`. -/
def lineLoop (C : Fields) (b tangent : V2 ℤ) (amp : K) : ℕ → V2 ℤ → Flds K → M (Flds K)
  | 0, _, _ => .error (.ub .diverge)
  | n + 1, p, f =>
    if p = b then .ok f
    else do
      let f ← f.addAt C p.x p.y amp
      lineLoop C b tangent amp n (p + tangent) f

/-- `pulse()`, `src/sources/point_source.cpp:15-18` and `src/sources/line_source.cpp:15-21`: the source with its updated
profile and the outcome for the fields.  In `a += b` the right operand is evaluated first (C++17), so the profile is
updated even when the component is invalid; `to_grid(surf)` runs before `response`. -/
def Source.pulse (g : Grid K) (t : K) (s : Source K) (f : Flds K) : Source K × M (Flds K) :=
  match s.kind with
  | .point C p =>
    match s.tp.response t with
    | .error e => (s, .error e)
    | .ok (v, tp) => ({ s with tp := tp }, f.addAt C (g.toGrid p).x (g.toGrid p).y v)
  | .line C surf =>
    match g.toGridS surf with
    | .error e => (s, .error e)
    | .ok is =>
      match s.tp.response t with
      | .error e => (s, .error e)
      | .ok (v, tp) =>
        ({ s with tp := tp }, lineLoop C is.b is.tangent v (is.dim.x + is.dim.y + 1).toNat is.a f)

end

end Qbox
