import Verif.Model.Profiles

/-!
# Time profiles as values

What a program does with time profiles, when every source has a profile of its own: no addresses.
-/

namespace Qbox.Spec
open Qbox Scalar

/-- The profiles of the user, and those of the sources. -/
structure Profiles (K : Type) where
  mine : List (TimeProfile K)
  src : List (TimeProfile K)

variable {K : Type} [Scalar K]

/-- Replace one profile by what it is after `response(t)`. -/
def respondAt (l : List (TimeProfile K)) (i : ℕ) (t : K) : M (List (TimeProfile K)) :=
  match l[i]? with
  | none => .error (.ub .oob)
  | some tp => do
    let (_, tp') ← tp.response t
    pure (l.set i tp')

/-- One operation: a pulse of source `k` concerns the `k`-th source only; a new source starts with the user's profile as it is. -/
def Profiles.step (v : Profiles K) : HOp K → M (Profiles K)
  | .construct tp => .ok { v with mine := v.mine ++ [tp] }
  | .freq i fr =>
    match v.mine[i]? with
    | none => .error (.ub .oob)
    | some tp => .ok { v with mine := v.mine.set i (tp.freq fr) }
  | .respond i t => do let l ← respondAt v.mine i t; pure { v with mine := l }
  | .source i =>
    match v.mine[i]? with
    | none => .error (.ub .oob)
    | some tp => .ok { v with src := v.src ++ [tp] }
  | .pulse k t => do let l ← respondAt v.src k t; pure { v with src := l }

/-- A sequence of operations. -/
def Profiles.run (v : Profiles K) : List (HOp K) → M (Profiles K)
  | [] => .ok v
  | o :: l => do (← v.step o).run l

end Qbox.Spec
