import Verif.Model.Sources

/-!
# Ownership of time profiles

`Verif/Model/Sources.lean` gives every source its own value of type `TimeProfile`. Here the profiles are objects at addresses, as in
the C++ program, where a source could share one with its creator or with another source.
-/

namespace Qbox
open Scalar

/-- The time profiles of a program. `mine` are the addresses of the objects of the user, `src` those behind the `unique_ptr` of each
source (`include/sources/source.h:43`), in the order of their creation. -/
structure Heap (K : Type) where
  cells : List (TimeProfile K)
  mine : List ℕ
  src : List ℕ

/-- What a program can do with time profiles. Sources and user objects are named by their position in `src` and `mine`. -/
inductive HOp (K : Type)
  /-- The user constructs a profile. -/
  | construct (tp : TimeProfile K)
  /-- `freq(array)` on a profile of the user. -/
  | freq (i : ℕ) (fr : List K)
  /-- `response(t)` called by the user on a profile of the user. -/
  | respond (i : ℕ) (t : K)
  /-- A source is constructed from a profile of the user. -/
  | source (i : ℕ)
  /-- A source pulses at time `t`. -/
  | pulse (k : ℕ) (t : K)

section
variable {K : Type} [Scalar K]

/-- Access through a pointer. -/
def Heap.at (h : Heap K) (a : ℕ) : M (TimeProfile K) :=
  match h.cells[a]? with
  | some tp => .ok tp
  | none => .error (.ub .dangling)

/-- The address held by the `i`-th object of a list. -/
def addr (l : List ℕ) (i : ℕ) : M ℕ :=
  match l[i]? with
  | some a => .ok a
  | none => .error (.ub .oob)

/-- `response(t)` on the object at an address, `src/sources/time_profile.cpp:17-21`, `:35-39`. -/
def Heap.respond (h : Heap K) (a : ℕ) (t : K) : M (Heap K) := do
  let tp ← h.at a
  let (_, tp') ← tp.response t
  pure { h with cells := h.cells.set a tp' }

/-- One operation. Construction of a source: `tp(_tp.clone())`, `src/sources/source.cpp:16`, where `clone` makes a new object,
`src/sources/time_profile.cpp:29-31`, `:45-47`. A pulse calls `tp->response(*t)`, `src/sources/point_source.cpp:17`,
`src/sources/line_source.cpp:17`. -/
def Heap.step (h : Heap K) : HOp K → M (Heap K)
  | .construct tp => .ok { h with cells := h.cells ++ [tp], mine := h.mine ++ [h.cells.length] }
  | .freq i fr => do
    let a ← addr h.mine i
    let tp ← h.at a
    pure { h with cells := h.cells.set a (tp.freq fr) }
  | .respond i t => do
    let a ← addr h.mine i
    h.respond a t
  | .source i => do
    let a ← addr h.mine i
    let tp ← h.at a
    pure { h with cells := h.cells ++ [tp], src := h.src ++ [h.cells.length] }
  | .pulse k t => do
    let a ← addr h.src k
    h.respond a t

/-- A sequence of operations. -/
def Heap.run (h : Heap K) : List (HOp K) → M (Heap K)
  | [] => .ok h
  | o :: l => do (← h.step o).run l

end

end Qbox
