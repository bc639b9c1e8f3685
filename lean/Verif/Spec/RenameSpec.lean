import Verif.Spec.CoverSpec
import Verif.Model.Sim

/-!
# Programs that differ in the names of materials only
-/

namespace Qbox.Spec
open Qbox

variable {K : Type} [Scalar K]

/-- A correspondence between names that keeps their alphabetical order. -/
def KeepsOrder (R : String → String → Prop) : Prop := ∀ a a' b b', R a a' → R b b' → (a < b ↔ a' < b')

/-- Different names stay different and equal names stay equal. -/
def OneToOne (R : String → String → Prop) : Prop := ∀ a a' b b', R a a' → R b b' → (a = b ↔ a' = b')

/-- Two objects that differ at most in the name of their material; for dispersive materials the names correspond. -/
structure Renamed (R : String → String → Prop) (o o' : Object K) : Prop where
  same : o' = { o with mat := { o.mat with name := o'.mat.name } }
  corr : Plain o ∨ R o.mat.name o'.mat.name

/-- All Lorentz media have one name. -/
def OneLorentz (l : List (Object K)) : Prop :=
  ∀ o ∈ l, ∀ o' ∈ l, (∃ m, o.mat.kind = .lorentz m) → (∃ m, o'.mat.kind = .lorentz m) → o.mat.name = o'.mat.name

/-- The same call, but for the names of materials. -/
inductive RenamedOp (R : String → String → Prop) : Op K → Op K → Prop
  | object {o o'} : Renamed R o o' → RenamedOp R (.addObject o) (.addObject o')
  | same {op} : (∀ o, op ≠ .addObject o) → RenamedOp R op op

end Qbox.Spec
