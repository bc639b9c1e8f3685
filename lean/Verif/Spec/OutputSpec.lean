import Verif.Model.Sim

/-! # What the output file is meant to hold -/

namespace Qbox.Spec
open Qbox Scalar

variable {K : Type} [Scalar K]

/-- The row is the field on the `nx` by `ny` nodes, in row-major order. -/
structure Full (nx ny : ℤ) (T : Tensor K) (r : Row K) : Prop where
  dims : r.dims = [nx, ny]
  length : (r.data.length : ℤ) = nx * ny
  entry : ∀ i j, 0 ≤ i → i < nx → 0 ≤ j → j < ny → r.data[(i * ny + j).toNat]? = some (T.val i j)

/-- The row is the field at the nodes of the shape: the node of a point; the nodes of a surface from its first end up to the one before its last
end, `n` of them in the direction `u`; the nodes of a box, lowest first, in row-major order. -/
inductive Shows (g : Grid K) (T : Tensor K) : TShape K → Row K → Prop
  | point (p : V2 K) : Shows g T (.point p) ⟨[], [T.val (g.toGrid p).x (g.toGrid p).y]⟩
  | surface (s : Surf K) (n : ℕ) (u : V2 ℤ) (hu : |u.x| + |u.y| = 1)
      (hx : (g.toGrid s.b).x = (g.toGrid s.a).x + n * u.x) (hy : (g.toGrid s.b).y = (g.toGrid s.a).y + n * u.y) :
      Shows g T (.surface s) ⟨[n], (List.range n).map fun i : ℕ => T.val ((g.toGrid s.a).x + i * u.x) ((g.toGrid s.a).y + i * u.y)⟩
  | volume (v : Vol K) : Shows g T (.volume v)
      ⟨[|(g.toGrid v.b).x - (g.toGrid v.a).x| + 1, |(g.toGrid v.b).y - (g.toGrid v.a).y| + 1],
        (intRange (min (g.toGrid v.a).x (g.toGrid v.b).x) (max (g.toGrid v.a).x (g.toGrid v.b).x + 1)).flatMap fun x =>
          (intRange (min (g.toGrid v.a).y (g.toGrid v.b).y) (max (g.toGrid v.a).y (g.toGrid v.b).y + 1)).map fun y => T.val x y⟩

/-- A box is given lower corner first. -/
def Ordered (g : Grid K) : TShape K → Prop
  | .volume v => (g.toGrid v.a).x ≤ (g.toGrid v.b).x ∧ (g.toGrid v.a).y ≤ (g.toGrid v.b).y
  | _ => True

/-- The components meant by a selection. -/
def expand : Fields → List Fields
  | .E => [.Ez]
  | .H => [.Hx, .Hy]
  | .all => [.Ez, .Hx, .Hy]
  | A => [A]

/-- The component of the fields. -/
def component (f : Flds K) : Fields → Tensor K
  | .Ez => f.Ez
  | .Hx => f.Hx
  | _ => f.Hy

/-- The fields at the moments at which the time monitor number `i`, which writes every `r` updates (never, for `r = 0`) and has been there for `c`
updates, writes during a program. -/
def moments (now : ℕ → ℝ) (i r : ℕ) : ℕ → Sim K → List (Op K) → List (Flds K)
  | _, _, [] => []
  | c, s, op :: l =>
    match s.step now op with
    | .ok s1 =>
      match op with
      | .update => (if r ≠ 0 ∧ (c + 1) % r = 0 then [s1.core.f] else []) ++ moments now i r (c + 1) s1 l
      | .writeTimeMonitor k => (if k = i then [s.core.f] else []) ++ moments now i r c s1 l
      | _ => moments now i r c s1 l
    | _ => []

/-- The field `C` at the moments at which a program writes it with `write_field`, `writeE` or `writeH`. -/
def writes (now : ℕ → ℝ) (C : Fields) : Sim K → List (Op K) → List (Tensor K)
  | _, [] => []
  | s, op :: l =>
    match s.step now op with
    | .ok s1 =>
      (match op with
      | .writeField D => if D = C then [component s.core.f C] else []
      | .writeE => if C = .Ez then [s.core.f.Ez] else []
      | .writeH => if C = .Hx then [s.core.f.Hx] else if C = .Hy then [s.core.f.Hy] else []
      | _ => []) ++ writes now C s1 l
    | _ => []

/-- The components of the fields. -/
def comps : List Fields := [.Ez, .Hx, .Hy]

/-- Calls with names of their own: each time monitor is fresh and its name has not been used; single components are written; no monitors are subtracted. -/
def Proper {K : Type} (used : List String) : List (Op K) → Prop
  | [] => True
  | .addTimeMonitor m :: l => m.name ∉ used ∧ m.dsets = [] ∧ Proper (m.name :: used) l
  | .writeField C :: l => C ∈ comps ∧ Proper used l
  | .subtract _ _ :: _ => False
  | _ :: l => Proper used l

end Qbox.Spec
