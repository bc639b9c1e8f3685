import Verif.Lemmas.Upd

/-!
# Further loop rules: relational rules, failing loops, three-fold loops
-/

namespace Qbox

/-- Relational rule: two loops over the same indices keep a relation between their states. -/
theorem forList_rel {σ τ ι : Type} (R : σ → τ → Prop) (l : List ι) (b1 : ι → σ → M σ) (b2 : ι → τ → M τ)
    (hstep : ∀ i ∈ l, ∀ s t, R s t → ∃ s' t', b1 i s = .ok s' ∧ b2 i t = .ok t' ∧ R s' t') :
    ∀ s t, R s t → ∃ s' t', forList l s b1 = .ok s' ∧ forList l t b2 = .ok t' ∧ R s' t' := by
  induction l with
  | nil => intro s t h; exact ⟨s, t, rfl, rfl, h⟩
  | cons a l ih =>
    intro s t h
    obtain ⟨s1, t1, h1, h2, h3⟩ := hstep a (by simp) s t h
    obtain ⟨s2, t2, h4, h5, h6⟩ := ih (fun i hi => hstep i (by simp [hi])) s1 t1 h3
    refine ⟨s2, t2, ?_, ?_, h6⟩
    · unfold forList at *; rw [List.foldlM_cons, h1]; exact h4
    · unfold forList at *; rw [List.foldlM_cons, h2]; exact h5

theorem forRange_rel {σ τ : Type} (R : σ → τ → Prop) (lo hi : ℤ) (b1 : ℤ → σ → M σ) (b2 : ℤ → τ → M τ)
    (hstep : ∀ i, lo ≤ i → i < hi → ∀ s t, R s t → ∃ s' t', b1 i s = .ok s' ∧ b2 i t = .ok t' ∧ R s' t')
    (s : σ) (t : τ) (h : R s t) :
    ∃ s' t', forRange lo hi s b1 = .ok s' ∧ forRange lo hi t b2 = .ok t' ∧ R s' t' :=
  forList_rel R _ b1 b2 (fun i hi => hstep i (mem_intRange.mp hi).1 (mem_intRange.mp hi).2) s t h

theorem forRange2_rel {σ τ : Type} (R : σ → τ → Prop) (a b c d : ℤ) (b1 : ℤ → ℤ → σ → M σ)
    (b2 : ℤ → ℤ → τ → M τ)
    (hstep : ∀ i j, a ≤ i → i < b → c ≤ j → j < d → ∀ s t, R s t →
      ∃ s' t', b1 i j s = .ok s' ∧ b2 i j t = .ok t' ∧ R s' t') (s : σ) (t : τ) (h : R s t) :
    ∃ s' t', forRange a b s (fun i s => forRange c d s (fun j => b1 i j)) = .ok s' ∧
      forRange a b t (fun i s => forRange c d s (fun j => b2 i j)) = .ok t' ∧ R s' t' := by
  refine forRange_rel R a b _ _ ?_ s t h
  intro i h1 h2 s t h
  exact forRange_rel R c d _ _ (fun j h3 h4 => hstep i j h1 h2 h3 h4) s t h

theorem forRange3_rel {σ τ : Type} (R : σ → τ → Prop) (a b c d e f : ℤ) (b1 : ℤ → ℤ → ℤ → σ → M σ)
    (b2 : ℤ → ℤ → ℤ → τ → M τ)
    (hstep : ∀ i j k, a ≤ i → i < b → c ≤ j → j < d → e ≤ k → k < f → ∀ s t, R s t →
      ∃ s' t', b1 i j k s = .ok s' ∧ b2 i j k t = .ok t' ∧ R s' t') (s : σ) (t : τ) (h : R s t) :
    ∃ s' t', forRange a b s (fun i s => forRange c d s (fun j s => forRange e f s (fun k => b1 i j k))) = .ok s' ∧
      forRange a b t (fun i s => forRange c d s (fun j s => forRange e f s (fun k => b2 i j k))) = .ok t' ∧
      R s' t' := by
  refine forRange2_rel R a b c d _ _ ?_ s t h
  intro i j h1 h2 h3 h4 s t h
  exact forRange_rel R e f _ _ (fun k h5 h6 => hstep i j k h1 h2 h3 h4 h5 h6) s t h

/-- Ternary relational rule (superposition). -/
theorem forList_rel3 {σ ι : Type} (R : σ → σ → σ → Prop) (l : List ι) (b1 b2 b3 : ι → σ → M σ)
    (hstep : ∀ i ∈ l, ∀ s t u, R s t u →
      ∃ s' t' u', b1 i s = .ok s' ∧ b2 i t = .ok t' ∧ b3 i u = .ok u' ∧ R s' t' u') :
    ∀ s t u, R s t u → ∃ s' t' u', forList l s b1 = .ok s' ∧ forList l t b2 = .ok t' ∧
      forList l u b3 = .ok u' ∧ R s' t' u' := by
  induction l with
  | nil => intro s t u h; exact ⟨s, t, u, rfl, rfl, rfl, h⟩
  | cons a l ih =>
    intro s t u h
    obtain ⟨s1, t1, u1, h1, h2, h2', h3⟩ := hstep a (by simp) s t u h
    obtain ⟨s2, t2, u2, h4, h5, h5', h6⟩ := ih (fun i hi => hstep i (by simp [hi])) s1 t1 u1 h3
    refine ⟨s2, t2, u2, ?_, ?_, ?_, h6⟩
    · unfold forList at *; rw [List.foldlM_cons, h1]; exact h4
    · unfold forList at *; rw [List.foldlM_cons, h2]; exact h5
    · unfold forList at *; rw [List.foldlM_cons, h2']; exact h5'

theorem forRange_rel3 {σ : Type} (R : σ → σ → σ → Prop) (lo hi : ℤ) (b1 b2 b3 : ℤ → σ → M σ)
    (hstep : ∀ i, lo ≤ i → i < hi → ∀ s t u, R s t u →
      ∃ s' t' u', b1 i s = .ok s' ∧ b2 i t = .ok t' ∧ b3 i u = .ok u' ∧ R s' t' u')
    (s t u : σ) (h : R s t u) :
    ∃ s' t' u', forRange lo hi s b1 = .ok s' ∧ forRange lo hi t b2 = .ok t' ∧
      forRange lo hi u b3 = .ok u' ∧ R s' t' u' :=
  forList_rel3 R _ b1 b2 b3 (fun i hi => hstep i (mem_intRange.mp hi).1 (mem_intRange.mp hi).2) s t u h

theorem forRange2_rel3 {σ : Type} (R : σ → σ → σ → Prop) (a b c d : ℤ) (b1 b2 b3 : ℤ → ℤ → σ → M σ)
    (hstep : ∀ i j, a ≤ i → i < b → c ≤ j → j < d → ∀ s t u, R s t u →
      ∃ s' t' u', b1 i j s = .ok s' ∧ b2 i j t = .ok t' ∧ b3 i j u = .ok u' ∧ R s' t' u')
    (s t u : σ) (h : R s t u) :
    ∃ s' t' u', forRange a b s (fun i s => forRange c d s (fun j => b1 i j)) = .ok s' ∧
      forRange a b t (fun i s => forRange c d s (fun j => b2 i j)) = .ok t' ∧
      forRange a b u (fun i s => forRange c d s (fun j => b3 i j)) = .ok u' ∧ R s' t' u' := by
  refine forRange_rel3 R a b _ _ _ ?_ s t u h
  intro i h1 h2 s t u h
  exact forRange_rel3 R c d _ _ _ (fun j h3 h4 => hstep i j h1 h2 h3 h4) s t u h

theorem forRange3_rel3 {σ : Type} (R : σ → σ → σ → Prop) (a b c d e f : ℤ) (b1 b2 b3 : ℤ → ℤ → ℤ → σ → M σ)
    (hstep : ∀ i j k, a ≤ i → i < b → c ≤ j → j < d → e ≤ k → k < f → ∀ s t u, R s t u →
      ∃ s' t' u', b1 i j k s = .ok s' ∧ b2 i j k t = .ok t' ∧ b3 i j k u = .ok u' ∧ R s' t' u')
    (s t u : σ) (h : R s t u) :
    ∃ s' t' u', forRange a b s (fun i s => forRange c d s (fun j s => forRange e f s (fun k => b1 i j k))) = .ok s' ∧
      forRange a b t (fun i s => forRange c d s (fun j s => forRange e f s (fun k => b2 i j k))) = .ok t' ∧
      forRange a b u (fun i s => forRange c d s (fun j s => forRange e f s (fun k => b3 i j k))) = .ok u' ∧
      R s' t' u' := by
  refine forRange2_rel3 R a b c d _ _ _ ?_ s t u h
  intro i j h1 h2 h3 h4 s t u h
  exact forRange_rel3 R e f _ _ _ (fun k h5 h6 => hstep i j k h1 h2 h3 h4 h5 h6) s t u h

/-- Invariant rule for three nested loops. -/
theorem forRange3_inv {σ : Type} (Inv : σ → Prop) (a b c d e f : ℤ) (body : ℤ → ℤ → ℤ → σ → M σ)
    (hstep : ∀ i j k, a ≤ i → i < b → c ≤ j → j < d → e ≤ k → k < f → ∀ s, Inv s →
      ∃ s', body i j k s = .ok s' ∧ Inv s') (s : σ) (hs : Inv s) :
    ∃ s', forRange a b s (fun i s => forRange c d s (fun j s => forRange e f s (fun k => body i j k))) = .ok s' ∧
      Inv s' := by
  refine forRange2_inv Inv a b c d _ ?_ s hs
  intro i j h1 h2 h3 h4 s hs
  exact forRange_inv Inv e f _ (fun k h5 h6 => hstep i j k h1 h2 h3 h4 h5 h6) s hs

/-- A loop in which every iteration either keeps the invariant or fails with `e`, and some iteration always fails,
fails with `e`. -/
theorem forList_fail {σ ι : Type} (Inv : σ → Prop) (e : Fault) (l : List ι) (body : ι → σ → M σ)
    (hstep : ∀ i ∈ l, ∀ s, Inv s → (∃ s', body i s = .ok s' ∧ Inv s') ∨ body i s = .error e)
    (i0 : ι) (hi0 : i0 ∈ l) (hbad : ∀ s, Inv s → body i0 s = .error e) :
    ∀ s, Inv s → forList l s body = .error e := by
  induction l with
  | nil => simp at hi0
  | cons a l ih =>
    intro s hs
    unfold forList at *
    rw [List.foldlM_cons]
    rcases hstep a (by simp) s hs with ⟨s', h1, h2⟩ | h1
    · rw [h1]
      rcases List.mem_cons.mp hi0 with rfl | hm
      · rw [hbad s hs] at h1; cases h1
      · exact ih (fun i hi => hstep i (by simp [hi])) hm s' h2
    · rw [h1]; rfl

theorem forRange_fail {σ : Type} (Inv : σ → Prop) (e : Fault) (lo hi : ℤ) (body : ℤ → σ → M σ)
    (hstep : ∀ i, lo ≤ i → i < hi → ∀ s, Inv s → (∃ s', body i s = .ok s' ∧ Inv s') ∨ body i s = .error e)
    (i0 : ℤ) (h1 : lo ≤ i0) (h2 : i0 < hi) (hbad : ∀ s, Inv s → body i0 s = .error e) (s : σ) (hs : Inv s) :
    forRange lo hi s body = .error e :=
  forList_fail Inv e _ body (fun i hi => hstep i (mem_intRange.mp hi).1 (mem_intRange.mp hi).2) i0
    (mem_intRange.mpr ⟨h1, h2⟩) hbad s hs

/-- A loop in which every iteration keeps the invariant or fails with `e` does the same as a whole. -/
theorem forRange_inv_or {σ : Type} (Inv : σ → Prop) (e : Fault) (lo hi : ℤ) (body : ℤ → σ → M σ)
    (hstep : ∀ i, lo ≤ i → i < hi → ∀ s, Inv s → (∃ s', body i s = .ok s' ∧ Inv s') ∨ body i s = .error e)
    (s : σ) (hs : Inv s) : (∃ s', forRange lo hi s body = .ok s' ∧ Inv s') ∨ forRange lo hi s body = .error e := by
  rw [forRange_eq_forList]
  have hm : ∀ i ∈ intRange lo hi, ∀ s, Inv s → (∃ s', body i s = .ok s' ∧ Inv s') ∨ body i s = .error e :=
    fun i hi => hstep i (mem_intRange.mp hi).1 (mem_intRange.mp hi).2
  clear hstep
  generalize intRange lo hi = l at hm ⊢
  induction l generalizing s with
  | nil => exact Or.inl ⟨s, rfl, hs⟩
  | cons a l ih =>
    unfold forList at *
    rw [List.foldlM_cons]
    rcases hm a (by simp) s hs with ⟨s', h1, h2⟩ | h1
    · rw [h1]; exact ih s' h2 (fun i hi => hm i (by simp [hi]))
    · rw [h1]; exact Or.inr rfl

theorem Except.bind_ok {α β ε : Type} {x : Except ε α} {f : α → Except ε β} {b : β} :
    (x >>= f) = .ok b ↔ ∃ a, x = .ok a ∧ f a = .ok b := by
  cases x with
  | error e => simp
  | ok a => simp

variable {K : Type}

theorem Tensor3.rd_in {a : Tensor3 K} {i j k : ℤ} (h1 : 0 ≤ i) (h2 : i < a.nx) (h3 : 0 ≤ j) (h4 : j < a.ny)
    (h5 : 0 ≤ k) (h6 : k < a.nz) : a.rd i j k = .ok (a.val i j k) := Tensor3.rd_ok ⟨h1, h2, h3, h4, h5, h6⟩

/-- `a` with new values, same shape. -/
def Tensor3.setv (a : Tensor3 K) (f : ℤ → ℤ → ℤ → K) : Tensor3 K := ⟨a.nx, a.ny, a.nz, f⟩
@[simp] theorem Tensor3.setv_nx (a : Tensor3 K) (f) : (a.setv f).nx = a.nx := rfl
@[simp] theorem Tensor3.setv_ny (a : Tensor3 K) (f) : (a.setv f).ny = a.ny := rfl
@[simp] theorem Tensor3.setv_nz (a : Tensor3 K) (f) : (a.setv f).nz = a.nz := rfl
@[simp] theorem Tensor3.setv_val (a : Tensor3 K) (f) : (a.setv f).val = f := rfl

theorem Tensor3.wr_in {a : Tensor3 K} {i j k : ℤ} {v : K} (h1 : 0 ≤ i) (h2 : i < a.nx) (h3 : 0 ≤ j) (h4 : j < a.ny)
    (h5 : 0 ≤ k) (h6 : k < a.nz) :
    a.wr i j k v = .ok (a.setv fun x y z => if x = i ∧ y = j ∧ z = k then v else a.val x y z) :=
  Tensor3.wr_ok ⟨h1, h2, h3, h4, h5, h6⟩

theorem Tensor3.ext' {a b : Tensor3 K} (h1 : a.nx = b.nx) (h2 : a.ny = b.ny) (h2' : a.nz = b.nz)
    (h3 : ∀ i j k, a.val i j k = b.val i j k) : a = b := by
  cases a; cases b; simp only [Tensor3.mk.injEq] at *
  exact ⟨h1, h2, h2', funext fun i => funext fun j => funext fun k => h3 i j k⟩

/-- `a` with new values, same length. -/
def Arr.setv (a : Arr K) (f : ℤ → K) : Arr K := ⟨a.n, f⟩
@[simp] theorem Arr.setv_n (a : Arr K) (f) : (a.setv f).n = a.n := rfl
@[simp] theorem Arr.setv_val (a : Arr K) (f) : (a.setv f).val = f := rfl

theorem Arr.wr_in {a : Arr K} {i : ℤ} {v : K} (h1 : 0 ≤ i) (h2 : i < a.n) :
    a.wr i v = .ok (a.setv fun x => if x = i then v else a.val x) := Arr.wr_ok ⟨h1, h2⟩

theorem Arr.ext' {a b : Arr K} (h1 : a.n = b.n) (h2 : ∀ i, a.val i = b.val i) : a = b := by
  cases a; cases b; simp only [Arr.mk.injEq] at *
  exact ⟨h1, funext h2⟩

theorem Tensor.rd_out {a : Tensor K} {i j : ℤ} (h : ¬ a.In i j) : a.rd i j = .error (.ub .oob) := by
  simp [Tensor.rd, h]
theorem Tensor.wr_out {a : Tensor K} {i j : ℤ} {v : K} (h : ¬ a.In i j) : a.wr i j v = .error (.ub .oob) := by
  simp [Tensor.wr, h]
theorem Arr.rd_out {a : Arr K} {i : ℤ} (h : ¬ (0 ≤ i ∧ i < a.n)) : a.rd i = .error (.ub .oob) := by
  simp [Arr.rd, h]
theorem Arr.wr_out {a : Arr K} {i : ℤ} {v : K} (h : ¬ (0 ≤ i ∧ i < a.n)) : a.wr i v = .error (.ub .oob) := by
  simp [Arr.wr, h]

end Qbox
