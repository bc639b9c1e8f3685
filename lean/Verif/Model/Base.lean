import Mathlib.Data.Finset.Basic
import Mathlib.Data.Int.Init
import Mathlib.Data.List.Perm.Basic
import Mathlib.Data.Finset.Insert
import Mathlib.Data.Finset.Lattice.Lemmas
import Mathlib.Data.Nat.Cast.Order.Basic
import Mathlib.Tactic.Linarith

/-!
# Faults, loops, arrays

* `Fault.ub _`   : undefined behaviour of the C++ program (a distinct outcome, never totalised away);
* `Fault.exn _`  : a C++ exception.
* `forRange`     : `for (int i = lo; i < hi; i++)` as a monadic fold over the indices in program order.
* `Arr`, `Tensor`, `Tensor3` : Eigen arrays (`include/vec.h:19-26`) with checked accesses.  Release builds of
  Eigen do not check indices, an index out of range is undefined behaviour: here `Fault.ub .oob`.
-/

namespace Qbox

/-- Kinds of undefined behaviour that the modelled code can run into. -/
inductive UB
  /-- array index out of range -/
  | oob
  /-- integer division by zero -/
  | divZero
  /-- dereference of a null `unique_ptr` -/
  | null
  /-- use of a dangling reference -/
  | dangling
  /-- falling off the end of a non-void function -/
  | noReturn
  /-- a loop that never terminates (no side effect) -/
  | diverge
  /-- dereference of an empty `std::optional` -/
  | emptyOptional
  /-- signed integer overflow -/
  | overflow
  deriving DecidableEq, Repr

/-- Abnormal outcomes. -/
inductive Fault
  | ub (u : UB)
  | exn (what : String)
  deriving DecidableEq, Repr

/-- Computations that may fault. -/
abbrev M := Except Fault

/-- The integers `lo, lo+1, …, hi-1` in increasing order. -/
def intRange (lo hi : ℤ) : List ℤ := (List.range (hi - lo).toNat).map (fun (k : ℕ) => lo + (k : ℤ))

/-- `for (int i = lo; i < hi; i++) body(i)` acting on the state `s`. -/
def forRange {σ : Type} (lo hi : ℤ) (s : σ) (body : ℤ → σ → M σ) : M σ :=
  (intRange lo hi).foldlM (fun s i => body i s) s

/-- Run `body` over an explicit list of loop indices, in that order (used to state that the order of the
iterations does not matter). -/
def forList {σ ι : Type} (l : List ι) (s : σ) (body : ι → σ → M σ) : M σ :=
  l.foldlM (fun s i => body i s) s

/-- 1D array (`Eigen::ArrayXd`, `include/vec.h:19`). `val` outside `[0,n)` is meaningless. -/
structure Arr (K : Type) where
  n : ℤ
  val : ℤ → K

/-- 2D row-major tensor (`include/vec.h:24`). -/
structure Tensor (K : Type) where
  nx : ℤ
  ny : ℤ
  val : ℤ → ℤ → K

/-- 3D row-major tensor (`include/vec.h:25`). -/
structure Tensor3 (K : Type) where
  nx : ℤ
  ny : ℤ
  nz : ℤ
  val : ℤ → ℤ → ℤ → K

variable {K : Type}

/-- `a(i)` as a value; out of range is undefined behaviour. -/
def Arr.rd (a : Arr K) (i : ℤ) : M K :=
  if 0 ≤ i ∧ i < a.n then .ok (a.val i) else .error (.ub .oob)

/-- `a(i) = v`. -/
def Arr.wr (a : Arr K) (i : ℤ) (v : K) : M (Arr K) :=
  if 0 ≤ i ∧ i < a.n then .ok { a with val := fun k => if k = i then v else a.val k }
  else .error (.ub .oob)

/-- `Array::Zero(n)` and friends: constant array. -/
def Arr.const (n : ℤ) (v : K) : Arr K := ⟨n, fun _ => v⟩

/-- `(i,j)` is a valid index. -/
def Tensor.In (a : Tensor K) (i j : ℤ) : Prop := 0 ≤ i ∧ i < a.nx ∧ 0 ≤ j ∧ j < a.ny

instance (a : Tensor K) (i j : ℤ) : Decidable (a.In i j) := by unfold Tensor.In; infer_instance

/-- `a(i,j)` as a value. -/
def Tensor.rd (a : Tensor K) (i j : ℤ) : M K :=
  if a.In i j then .ok (a.val i j) else .error (.ub .oob)

/-- `a(i,j) = v`. -/
def Tensor.wr (a : Tensor K) (i j : ℤ) (v : K) : M (Tensor K) :=
  if a.In i j then .ok { a with val := fun x y => if x = i ∧ y = j then v else a.val x y }
  else .error (.ub .oob)

/-- `tensor(nx,ny)` followed by `setZero()` / `setConstant`. -/
def Tensor.const (nx ny : ℤ) (v : K) : Tensor K := ⟨nx, ny, fun _ _ => v⟩

/-- `a.setConstant(v)`: keeps the shape. -/
def Tensor.fill (a : Tensor K) (v : K) : Tensor K := ⟨a.nx, a.ny, fun _ _ => v⟩

def Tensor3.In (a : Tensor3 K) (i j k : ℤ) : Prop :=
  0 ≤ i ∧ i < a.nx ∧ 0 ≤ j ∧ j < a.ny ∧ 0 ≤ k ∧ k < a.nz

instance (a : Tensor3 K) (i j k : ℤ) : Decidable (a.In i j k) := by unfold Tensor3.In; infer_instance

def Tensor3.rd (a : Tensor3 K) (i j k : ℤ) : M K :=
  if a.In i j k then .ok (a.val i j k) else .error (.ub .oob)

def Tensor3.wr (a : Tensor3 K) (i j k : ℤ) (v : K) : M (Tensor3 K) :=
  if a.In i j k then
    .ok { a with val := fun x y z => if x = i ∧ y = j ∧ z = k then v else a.val x y z }
  else .error (.ub .oob)

def Tensor3.const (nx ny nz : ℤ) (v : K) : Tensor3 K := ⟨nx, ny, nz, fun _ _ _ => v⟩

def Tensor3.fill (a : Tensor3 K) (v : K) : Tensor3 K := ⟨a.nx, a.ny, a.nz, fun _ _ _ => v⟩

/-! ### Basic facts about the checked accesses -/

@[simp] theorem Except.ok_bind {α β ε : Type} (a : α) (f : α → Except ε β) :
    (Except.ok a >>= f) = f a := rfl

@[simp] theorem Except.error_bind {α β ε : Type} (e : ε) (f : α → Except ε β) :
    (Except.error e >>= f) = Except.error e := rfl

@[simp] theorem Except.pure_eq {α ε : Type} (a : α) : (pure a : Except ε α) = Except.ok a := rfl

theorem Arr.rd_ok {a : Arr K} {i : ℤ} (h : 0 ≤ i ∧ i < a.n) : a.rd i = .ok (a.val i) := by
  simp [Arr.rd, h]

theorem Arr.wr_ok {a : Arr K} {i : ℤ} {v : K} (h : 0 ≤ i ∧ i < a.n) :
    a.wr i v = .ok { a with val := fun k => if k = i then v else a.val k } := by
  simp [Arr.wr, h]

theorem Tensor.rd_ok {a : Tensor K} {i j : ℤ} (h : a.In i j) : a.rd i j = .ok (a.val i j) := by
  simp [Tensor.rd, h]

theorem Tensor.wr_ok {a : Tensor K} {i j : ℤ} {v : K} (h : a.In i j) :
    a.wr i j v = .ok { a with val := fun x y => if x = i ∧ y = j then v else a.val x y } := by
  simp [Tensor.wr, h]

theorem Tensor3.rd_ok {a : Tensor3 K} {i j k : ℤ} (h : a.In i j k) :
    a.rd i j k = .ok (a.val i j k) := by
  simp [Tensor3.rd, h]

theorem Tensor3.wr_ok {a : Tensor3 K} {i j k : ℤ} {v : K} (h : a.In i j k) :
    a.wr i j k v =
      .ok { a with val := fun x y z => if x = i ∧ y = j ∧ z = k then v else a.val x y z } := by
  simp [Tensor3.wr, h]

/-! ### Loops -/

theorem mem_intRange {lo hi i : ℤ} : i ∈ intRange lo hi ↔ lo ≤ i ∧ i < hi := by
  unfold intRange
  simp only [List.mem_map, List.mem_range]
  constructor
  · rintro ⟨k, hk, rfl⟩; omega
  · intro h
    exact ⟨(i - lo).toNat, by omega, by omega⟩

theorem nodup_intRange (lo hi : ℤ) : (intRange lo hi).Nodup := by
  unfold intRange
  refine List.Nodup.map ?_ List.nodup_range
  intro a b h
  have h' : lo + (a : ℤ) = lo + (b : ℤ) := h
  omega

theorem intRange_empty {lo hi : ℤ} (h : hi ≤ lo) : intRange lo hi = [] := by
  unfold intRange
  have : (hi - lo).toNat = 0 := by omega
  simp [this]

theorem intRange_succ {lo hi : ℤ} (h : lo ≤ hi) : intRange lo (hi + 1) = intRange lo hi ++ [hi] := by
  unfold intRange
  have : (hi + 1 - lo).toNat = (hi - lo).toNat + 1 := by omega
  rw [this, List.range_succ, List.map_append]
  simp
  omega

theorem intRange_cons {lo hi : ℤ} (h : lo < hi) : intRange lo hi = lo :: intRange (lo + 1) hi := by
  unfold intRange
  have : (hi - lo).toNat = (hi - (lo + 1)).toNat + 1 := by omega
  rw [this, List.range_succ_eq_map, List.map_cons]
  simp [List.map_map, Function.comp_def]
  intro a _
  omega

theorem length_intRange (lo hi : ℤ) : (intRange lo hi).length = (hi - lo).toNat := by
  simp [intRange]

/-- Total-correctness rule: an invariant kept by every iteration. -/
theorem forList_inv {σ ι : Type} (Inv : σ → Prop) (l : List ι) (body : ι → σ → M σ)
    (hstep : ∀ i ∈ l, ∀ s, Inv s → ∃ s', body i s = .ok s' ∧ Inv s') :
    ∀ s, Inv s → ∃ s', forList l s body = .ok s' ∧ Inv s' := by
  induction l with
  | nil => intro s hs; exact ⟨s, rfl, hs⟩
  | cons a l ih =>
    intro s hs
    obtain ⟨s1, h1, hi1⟩ := hstep a (by simp) s hs
    obtain ⟨s2, h2, hi2⟩ := ih (fun i hi => hstep i (by simp [hi])) s1 hi1
    refine ⟨s2, ?_, hi2⟩
    unfold forList at *
    rw [List.foldlM_cons, h1]
    exact h2

theorem forRange_eq_forList {σ : Type} (lo hi : ℤ) (s : σ) (body : ℤ → σ → M σ) :
    forRange lo hi s body = forList (intRange lo hi) s body := rfl

theorem forRange_inv {σ : Type} (Inv : σ → Prop) (lo hi : ℤ) (body : ℤ → σ → M σ)
    (hstep : ∀ i, lo ≤ i → i < hi → ∀ s, Inv s → ∃ s', body i s = .ok s' ∧ Inv s')
    (s : σ) (hs : Inv s) : ∃ s', forRange lo hi s body = .ok s' ∧ Inv s' := by
  rw [forRange_eq_forList]
  refine forList_inv Inv _ body ?_ s hs
  intro i hi
  rw [mem_intRange] at hi
  exact hstep i hi.1 hi.2

/-- Closed form: `st D` is the state after the iterations in `D`, whatever their order. -/
theorem forList_closed {σ ι : Type} [DecidableEq ι] (st : Finset ι → σ) (l : List ι)
    (body : ι → σ → M σ) (S : Finset ι) (hS : ∀ i ∈ l, i ∈ S)
    (hstep : ∀ i ∈ S, ∀ D : Finset ι, D ⊆ S → i ∉ D → body i (st D) = .ok (st (insert i D)))
    (hl : l.Nodup) (D0 : Finset ι) (hD0S : D0 ⊆ S) (hD0 : ∀ i ∈ l, i ∉ D0) :
    forList l (st D0) body = .ok (st (D0 ∪ l.toFinset)) := by
  induction l generalizing D0 with
  | nil => simp [forList]
  | cons a l ih =>
    have ha : a ∉ D0 := hD0 a (by simp)
    have haS : a ∈ S := hS a (by simp)
    have h1 := hstep a haS D0 hD0S ha
    have hnd := List.nodup_cons.mp hl
    have h2 := ih (fun i hi => hS i (by simp [hi])) hnd.2 (insert a D0)
      (by intro x hx; rcases Finset.mem_insert.mp hx with rfl | hx
          · exact haS
          · exact hD0S hx)
      (by intro i hi hm
          rcases Finset.mem_insert.mp hm with rfl | hm
          · exact hnd.1 hi
          · exact hD0 i (by simp [hi]) hm)
    unfold forList at *
    rw [List.foldlM_cons, h1]
    show List.foldlM _ (st (insert a D0)) l = _
    rw [h2]
    congr 2
    ext x
    simp only [Finset.mem_union, Finset.mem_insert, List.mem_toFinset, List.mem_cons]
    tauto

/-- Nested loops over an explicit order of the iterations. -/
def nestedList (li : List ℤ) (lj : ℤ → List ℤ) : List (ℤ × ℤ) :=
  li.flatMap (fun i => (lj i).map (fun j => (i, j)))

theorem forList_append {σ ι : Type} (l₁ l₂ : List ι) (s : σ) (body : ι → σ → M σ) :
    forList (l₁ ++ l₂) s body = (forList l₁ s body >>= fun s => forList l₂ s body) := by
  unfold forList
  rw [List.foldlM_append]

theorem forList_map {σ ι κ : Type} (l : List ι) (g : ι → κ) (s : σ) (body : κ → σ → M σ) :
    forList (l.map g) s body = forList l s (fun i => body (g i)) := by
  unfold forList
  rw [List.foldlM_map]

theorem forList_nested {σ : Type} (li : List ℤ) (lj : ℤ → List ℤ) (s : σ)
    (body : ℤ → ℤ → σ → M σ) :
    forList li s (fun i s => forList (lj i) s (fun j => body i j)) =
      forList (nestedList li lj) s (fun p => body p.1 p.2) := by
  induction li generalizing s with
  | nil => rfl
  | cons a l ih =>
    unfold nestedList at *
    rw [List.flatMap_cons, forList_append, forList_map]
    show List.foldlM _ s (a :: l) = _
    rw [List.foldlM_cons]
    show (forList (lj a) s (fun j => body a j) >>= _) = _
    congr 1
    funext s'
    exact ih s'

theorem mem_nestedList {li : List ℤ} {lj : ℤ → List ℤ} {p : ℤ × ℤ} :
    p ∈ nestedList li lj ↔ p.1 ∈ li ∧ p.2 ∈ lj p.1 := by
  unfold nestedList
  simp only [List.mem_flatMap, List.mem_map]
  constructor
  · rintro ⟨a, ha, b, hb, rfl⟩; exact ⟨ha, hb⟩
  · rintro ⟨h1, h2⟩; exact ⟨p.1, h1, p.2, h2, rfl⟩

theorem nodup_nestedList {li : List ℤ} {lj : ℤ → List ℤ} (h1 : li.Nodup)
    (h2 : ∀ i ∈ li, (lj i).Nodup) : (nestedList li lj).Nodup := by
  unfold nestedList
  induction li with
  | nil => simp
  | cons a l ih =>
    have h1' := List.nodup_cons.mp h1
    rw [List.flatMap_cons, List.nodup_append]
    refine ⟨?_, ih h1'.2 (fun i hi => h2 i (by simp [hi])), ?_⟩
    · refine List.Nodup.map ?_ (h2 a (by simp))
      intro x y h; exact (Prod.mk.inj h).2
    · intro x hx y hy hxy
      subst hxy
      simp only [List.mem_map, List.mem_flatMap] at hx hy
      obtain ⟨b, hb, rfl⟩ := hx
      obtain ⟨c, hc, d, hd, h⟩ := hy
      have : c = a := (Prod.mk.inj h).1
      subst this
      exact h1'.1 hc

/-- The index rectangle of a nested loop. -/
def rectList (a b c d : ℤ) : List (ℤ × ℤ) := nestedList (intRange a b) (fun _ => intRange c d)

theorem mem_rectList {a b c d : ℤ} {p : ℤ × ℤ} :
    p ∈ rectList a b c d ↔ (a ≤ p.1 ∧ p.1 < b) ∧ (c ≤ p.2 ∧ p.2 < d) := by
  simp [rectList, mem_nestedList, mem_intRange]

theorem nodup_rectList (a b c d : ℤ) : (rectList a b c d).Nodup :=
  nodup_nestedList (nodup_intRange _ _) (fun _ _ => nodup_intRange _ _)

/-- Rectangle as a finite set. -/
def rect (a b c d : ℤ) : Finset (ℤ × ℤ) := (rectList a b c d).toFinset

theorem mem_rect {a b c d : ℤ} {p : ℤ × ℤ} :
    p ∈ rect a b c d ↔ (a ≤ p.1 ∧ p.1 < b) ∧ (c ≤ p.2 ∧ p.2 < d) := by
  simp [rect, mem_rectList]

theorem forRange_nested {σ : Type} (a b c d : ℤ) (s : σ) (body : ℤ → ℤ → σ → M σ) :
    forRange a b s (fun i s => forRange c d s (fun j => body i j)) =
      forList (rectList a b c d) s (fun p => body p.1 p.2) :=
  forList_nested (intRange a b) (fun _ => intRange c d) s body

/-- Closed form of a nested loop. -/
theorem forRange2_closed {σ : Type} (st : Finset (ℤ × ℤ) → σ) (a b c d : ℤ)
    (body : ℤ → ℤ → σ → M σ)
    (hstep : ∀ i j, a ≤ i → i < b → c ≤ j → j < d → ∀ D : Finset (ℤ × ℤ), D ⊆ rect a b c d →
      (i, j) ∉ D → body i j (st D) = .ok (st (insert (i, j) D))) :
    forRange a b (st ∅) (fun i s => forRange c d s (fun j => body i j)) =
      .ok (st (rect a b c d)) := by
  rw [forRange_nested]
  have := forList_closed st (rectList a b c d) (fun p => body p.1 p.2) (rect a b c d)
    (fun i hi => by simpa [rect] using hi)
    (fun p hp D hD hn => by
      rw [mem_rect] at hp
      exact hstep p.1 p.2 hp.1.1 hp.1.2 hp.2.1 hp.2.2 D hD hn)
    (nodup_rectList _ _ _ _) ∅ (by simp) (by simp)
  rw [this]
  simp [rect]

/-- The same closed form is reached when the inner iterations are executed in any order. -/
theorem forList2_closed {σ : Type} (st : Finset (ℤ × ℤ) → σ) (a b c d : ℤ)
    (body : ℤ → ℤ → σ → M σ)
    (hstep : ∀ i j, a ≤ i → i < b → c ≤ j → j < d → ∀ D : Finset (ℤ × ℤ), D ⊆ rect a b c d →
      (i, j) ∉ D → body i j (st D) = .ok (st (insert (i, j) D)))
    (li : List ℤ) (lj : ℤ → List ℤ) (hi : li.Perm (intRange a b))
    (hj : ∀ i, (lj i).Perm (intRange c d)) :
    forList li (st ∅) (fun i s => forList (lj i) s (fun j => body i j)) =
      .ok (st (rect a b c d)) := by
  rw [forList_nested]
  have hmem : ∀ p, p ∈ nestedList li lj ↔ p ∈ rect a b c d := by
    intro p
    rw [mem_nestedList, mem_rect, hi.mem_iff, (hj _).mem_iff, mem_intRange, mem_intRange]
  have := forList_closed st (nestedList li lj) (fun p => body p.1 p.2) (rect a b c d)
    (fun i hi => (hmem i).mp hi)
    (fun p hp D hD hn => by
      rw [mem_rect] at hp
      exact hstep p.1 p.2 hp.1.1 hp.1.2 hp.2.1 hp.2.2 D hD hn)
    (nodup_nestedList (hi.nodup_iff.mpr (nodup_intRange _ _))
      (fun i _ => (hj i).nodup_iff.mpr (nodup_intRange _ _))) ∅ (by simp) (by simp)
  rw [this]
  congr 2
  ext p
  simp [hmem]

/-- Invariant rule for nested loops. -/
theorem forRange2_inv {σ : Type} (Inv : σ → Prop) (a b c d : ℤ) (body : ℤ → ℤ → σ → M σ)
    (hstep : ∀ i j, a ≤ i → i < b → c ≤ j → j < d → ∀ s, Inv s →
      ∃ s', body i j s = .ok s' ∧ Inv s')
    (s : σ) (hs : Inv s) :
    ∃ s', forRange a b s (fun i s => forRange c d s (fun j => body i j)) = .ok s' ∧ Inv s' := by
  refine forRange_inv Inv a b _ ?_ s hs
  intro i h1 h2 s hs
  exact forRange_inv Inv c d _ (fun j h3 h4 s hs => hstep i j h1 h2 h3 h4 s hs) s hs

/-- Closed form of a single loop. -/
theorem forRange_closed {σ : Type} (st : Finset ℤ → σ) (a b : ℤ) (body : ℤ → σ → M σ)
    (hstep : ∀ i, a ≤ i → i < b → ∀ D : Finset ℤ, D ⊆ (intRange a b).toFinset → i ∉ D →
      body i (st D) = .ok (st (insert i D))) :
    forRange a b (st ∅) body = .ok (st (intRange a b).toFinset) := by
  rw [forRange_eq_forList]
  have := forList_closed st (intRange a b) body (intRange a b).toFinset
    (fun i hi => by simpa using hi)
    (fun i hi D hD hn => by
      rw [List.mem_toFinset, mem_intRange] at hi
      exact hstep i hi.1 hi.2 D hD hn)
    (nodup_intRange _ _) ∅ (by simp) (by simp)
  rw [this]
  simp

/-- Sequential closed form: `st i` is the state before iteration `i`. -/
theorem forRange_seq {σ : Type} (st : ℤ → σ) (a b : ℤ) (hab : a ≤ b) (body : ℤ → σ → M σ)
    (hstep : ∀ i, a ≤ i → i < b → body i (st i) = .ok (st (i + 1))) :
    forRange a b (st a) body = .ok (st b) := by
  obtain ⟨n, hn⟩ : ∃ n : ℕ, b = a + n := ⟨(b - a).toNat, by omega⟩
  subst hn
  clear hab
  induction n with
  | zero => simp [forRange, intRange_empty]
  | succ n ih =>
    have h1 := ih (fun i h1 h2 => hstep i h1 (by push_cast; omega))
    rw [forRange_eq_forList] at *
    have : a + ((n + 1 : ℕ) : ℤ) = (a + n) + 1 := by push_cast; omega
    rw [this, intRange_succ (by omega), forList_append, h1]
    have h2 := hstep (a + n) (by omega) (by push_cast; omega)
    simp [forList, h2]

end Qbox
