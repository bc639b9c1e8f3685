import Verif.Spec.FileSpec
import Verif.Lemmas.FileLog
import Verif.Lemmas.SimUpdate

/-! # The file as a finite map, and the calls that write to it -/

namespace Qbox
open Scalar Spec

set_option linter.unusedSectionVars false

variable {K : Type} [Scalar K]

theorem Tree.at_nil (q : Path) : Tree.at ([] : Tree K) q = none := rfl

theorem Tree.at_snoc (t : Tree K) (p q : Path) (n : H5Obj K) :
    Tree.at (t ++ [(p, n)]) q = (t.at q).or (if p = q then some n else none) := by
  unfold Tree.at
  rw [List.find?_append]
  cases h : List.find? (fun e => e.1 == q) t with
  | some e => simp
  | none =>
    by_cases hp : p = q
    · subst hp; simp
    · have : (p == q) = false := by simpa using hp
      simp [this, hp]

/-- What a successful `put` does. -/
theorem Tree.put_ok {t t' : Tree K} {p : Path} {n : H5Obj K} (h : t.put p n = some t') :
    (t' = t ∧ t.at p = some .group ∧ n = .group) ∨
    (t.at p = none ∧ t' = t ++ [(p, n)] ∧ ∀ q, n = .ref q → (t.at q).isSome) := by
  unfold Tree.put at h
  split at h
  · next hp => left; cases h; exact ⟨rfl, hp, rfl⟩
  · cases h
  · next q hp =>
    right
    split at h
    · next hs => cases h; exact ⟨hp, rfl, fun q' e => by cases e; exact hs⟩
    · cases h
  · next hp hn =>
    right
    cases h
    exact ⟨hp, rfl, fun q e => absurd e (hn q)⟩

theorem Tree.put_self {t t' : Tree K} {p : Path} {n : H5Obj K} (h : t.put p n = some t') : t'.at p = some n := by
  rcases Tree.put_ok h with ⟨e, hp, rfl⟩ | ⟨hp, rfl, -⟩
  · rw [e, hp]
  · rw [Tree.at_snoc, hp]; simp

theorem Tree.put_ne {t t' : Tree K} {p q : Path} {n : H5Obj K} (h : t.put p n = some t') (hq : p ≠ q) : t'.at q = t.at q := by
  rcases Tree.put_ok h with ⟨e, hp, rfl⟩ | ⟨hp, rfl, -⟩
  · rw [e]
  · rw [Tree.at_snoc]; simp [hq]

theorem Tree.put_keep {t t' : Tree K} {p q : Path} {n x : H5Obj K} (h : t.put p n = some t') (hx : t.at q = some x) :
    t'.at q = some x := by
  rcases Tree.put_ok h with ⟨e, hp, rfl⟩ | ⟨hp, rfl, -⟩
  · rw [e, hx]
  · rw [Tree.at_snoc, hx]; rfl

theorem Tree.puts_keep : ∀ (es : List (Path × H5Obj K)) {t : Tree K} {q : Path} {x : H5Obj K}, t.at q = some x →
    (t.puts es).1.at q = some x
  | [], _, _, _, h => h
  | (p, n) :: l, t, q, x, h => by
    unfold Tree.puts
    split
    · next t' ht => exact Tree.puts_keep l (Tree.put_keep ht h)
    · exact h

theorem Tree.puts_ne : ∀ (es : List (Path × H5Obj K)) {t : Tree K} {q : Path}, (∀ e ∈ es, e.1 ≠ q) →
    (t.puts es).1.at q = t.at q
  | [], _, _, _ => rfl
  | (p, n) :: l, t, q, h => by
    unfold Tree.puts
    split
    · next t' ht =>
      rw [Tree.puts_ne l (fun e he => h e (List.mem_cons_of_mem _ he)), Tree.put_ne ht (h (p, n) (List.mem_cons_self ..))]
    · rfl

theorem Tree.puts_mem : ∀ (es : List (Path × H5Obj K)) {t : Tree K}, (t.puts es).2 = true → ∀ e ∈ es,
    (t.puts es).1.at e.1 = some e.2
  | [], _, _ => by simp
  | (p, n) :: l, t, h => by
    unfold Tree.puts at h ⊢
    split at h
    · next t' ht =>
      intro e he
      rcases List.mem_cons.mp he with rfl | he
      · exact Tree.puts_keep l (Tree.put_self ht)
      · exact Tree.puts_mem l h e he
    · cases h

/-- A data set that is new after writing is one of those written. -/
theorem Tree.puts_new : ∀ (es : List (Path × H5Obj K)) {t : Tree K} {q : Path} {x : H5Obj K}, (t.puts es).1.at q = some x →
    t.at q = some x ∨ (t.at q = none ∧ (q, x) ∈ es)
  | [], _, _, _, h => .inl h
  | (p, n) :: l, t, q, x, h => by
    unfold Tree.puts at h
    split at h
    · next t' ht =>
      rcases Tree.puts_new l h with h1 | ⟨h1, h2⟩
      · by_cases hq : p = q
        · subst hq
          rcases Tree.put_ok ht with ⟨rfl, hp, rfl⟩ | ⟨hp, rfl, -⟩
          · exact .inl h1
          · rw [Tree.put_self ht] at h1
            cases h1
            exact .inr ⟨hp, List.mem_cons_self ..⟩
        · rw [Tree.put_ne ht hq] at h1
          exact .inl h1
      · right
        refine ⟨?_, List.mem_cons_of_mem _ h2⟩
        cases ha : t.at q with
        | none => rfl
        | some y => rw [Tree.put_keep ht ha] at h1; cases h1
    · exact .inl h

/-- Writing fails at a data set that exists. -/
theorem Tree.puts_taken : ∀ (es : List (Path × H5Obj K)) {t : Tree K} {q : Path} {n : H5Obj K}, (t.at q).isSome → (q, n) ∈ es →
    n ≠ .group → (t.puts es).2 = false
  | [], _, _, _, _, h, _ => by simp at h
  | (p, m) :: l, t, q, n, hs, h, hn => by
    unfold Tree.puts
    split
    · next t' ht =>
      obtain ⟨x, hx⟩ := Option.isSome_iff_exists.mp hs
      rcases List.mem_cons.mp h with e | h
      · cases e
        rcases Tree.put_ok ht with ⟨-, -, rfl⟩ | ⟨hp, -, -⟩
        · exact absurd rfl hn
        · rw [hp] at hx; cases hx
      · exact Tree.puts_taken l (by rw [Tree.put_keep ht hx]; rfl) h hn
    · rfl

/-- What an `append` does. -/
theorem Tree.append_ok {t t' : Tree K} {p : Path} {row : List K} (h : t.append p row = some t') :
    (∃ rows, t.at p = some (.series rows) ∧ t'.at p = some (.series (rows ++ [row]))) ∧ ∀ q, q ≠ p → t'.at q = t.at q := by
  unfold Tree.append at h
  split at h
  · next rows hp =>
    cases h
    constructor
    · refine ⟨rows, hp, ?_⟩
      clear * - hp
      unfold Tree.at at hp ⊢
      induction t with
      | nil => simp at hp
      | cons e l ih =>
        by_cases he : e.1 = p
        · have hb : (e.1 == p) = true := by simpa using he
          simp only [List.find?_cons, hb, Option.map_some, Option.some.injEq, List.map_cons, if_true] at hp ⊢
          rw [hp]
        · have hb : (e.1 == p) = false := by simpa using he
          simp only [List.find?_cons, hb, List.map_cons, Bool.false_eq_true, if_false] at hp ⊢
          exact ih hp
    · intro q hq
      clear * - hq
      unfold Tree.at
      induction t with
      | nil => rfl
      | cons e l ih =>
        by_cases he : e.1 = p
        · have hb : (e.1 == p) = true := by simpa using he
          have hb2 : (e.1 == q) = false := by simpa [he] using fun h => hq h.symm
          simp only [List.find?_cons, hb, List.map_cons, if_true, hb2]
          exact ih
        · have hb : (e.1 == p) = false := by simpa using he
          simp only [List.find?_cons, hb, List.map_cons, Bool.false_eq_true, if_false]
          cases hb2 : (e.1 == q)
          · exact ih
          · rfl
  · cases h

theorem Tree.append_some {t : Tree K} {p : Path} {rows : List (List K)} (h : t.at p = some (.series rows)) (row : List K) :
    ∃ t', t.append p row = some t' := by
  unfold Tree.append
  rw [h]
  exact ⟨_, rfl⟩

/-! ### Outcomes -/

/-- The state is `P` whether the call ends normally or throws. -/
def Res.Each {σ : Type} (P : σ → Prop) : Res σ → Prop
  | .ok s => P s
  | .threw _ s => P s
  | .ub _ => True

theorem Res.Each.mono {σ : Type} {P Q : σ → Prop} (h : ∀ s, P s → Q s) : ∀ {r : Res σ}, r.Each P → r.Each Q
  | .ok _, hr => h _ hr
  | .threw _ _, hr => h _ hr
  | .ub _, _ => trivial

theorem World.write_each {P : World K → Prop} {w : World K} {es : List (Path × H5Obj K)} {k : World K → Res (World K)}
    (h0 : (w.tree.puts es).2 = false → P { w with tree := (w.tree.puts es).1 })
    (h : (w.tree.puts es).2 = true → (k { w with tree := (w.tree.puts es).1 }).Each P) : (w.write es k).Each P := by
  unfold World.write
  dsimp only
  split
  · next e => exact h e
  · next e => exact h0 (by simpa using e)

theorem tryM_each {σ β : Type} {P : σ → Prop} {x : M β} {s : σ} {k : β → Res σ} (h0 : P s) (h : ∀ b, x = .ok b → (k b).Each P) :
    (tryM x s k).Each P := by
  unfold tryM
  split
  · exact h _ rfl
  · exact h0
  · trivial

theorem World.append_each {P : World K → Prop} {w : World K} {p : Path} {row : List K} {k : World K → Res (World K)}
    (h0 : w.tree.append p row = none → P w) (h : ∀ t, w.tree.append p row = some t → (k { w with tree := t }).Each P) : (w.append p row k).Each P := by
  unfold World.append
  split
  · next t ht => exact h t ht
  · next e => exact h0 e

theorem World.write_ok {w w' : World K} {es : List (Path × H5Obj K)} {k : World K → Res (World K)} (h : w.write es k = .ok w') :
    (w.tree.puts es).2 = true ∧ k { w with tree := (w.tree.puts es).1 } = .ok w' := by
  unfold World.write at h
  dsimp only at h
  split at h
  · next e => exact ⟨e, h⟩
  · cases h

theorem World.append_ok {w w' : World K} {p : Path} {row : List K} {k : World K → Res (World K)} (h : w.append p row k = .ok w') :
    ∃ t, w.tree.append p row = some t ∧ k { w with tree := t } = .ok w' := by
  unfold World.append at h
  split at h
  · next t ht => exact ⟨t, ht, h⟩
  · cases h

end Qbox
