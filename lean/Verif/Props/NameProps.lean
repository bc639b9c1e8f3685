import Verif.Model.Names
import Verif.Lemmas.Loops

/-!
# C47: generated names never collide
-/

namespace Qbox.Props
open Qbox

/-- A generated name: the number, and for the face of a box which one. -/
structure Tag where
  kind : Kind
  num : ℕ
  face : Option Char

/-- The characters of a generated name. -/
def Tag.chars (t : Tag) : List Char := t.kind.prefix.toList ++ (Nat.toDigits 10 t.num ++ (match t.face with | none => [] | some c => ['_', c]))

/-- One is a DFT monitor and the other a time monitor. -/
def Mixed (a b : Kind) : Prop := (a = .monitor ∧ b = .timeMonitor) ∨ (a = .timeMonitor ∧ b = .monitor)

theorem digits_split : ∀ {a b s u : List Char}, (∀ c ∈ a, c.isDigit) → (∀ c ∈ b, c.isDigit) → (∀ c ∈ s.head?, c.isDigit = false) →
    (∀ c ∈ u.head?, c.isDigit = false) → a ++ s = b ++ u → a = b ∧ s = u
  | [], [], _, _, _, _, _, _, e => ⟨rfl, e⟩
  | [], c :: b, s, u, _, hb, hs, _, e => by
    simp only [List.nil_append, List.cons_append] at e
    have h1 := hs c (by rw [e]; simp)
    have h2 := hb c (by simp)
    rw [h1] at h2; cases h2
  | c :: a, [], s, u, ha, _, _, hu, e => by
    simp only [List.nil_append, List.cons_append] at e
    have h1 := hu c (by rw [← e]; simp)
    have h2 := ha c (by simp)
    rw [h1] at h2; cases h2
  | c :: a, d :: b, s, u, ha, hb, hs, hu, e => by
    simp only [List.cons_append, List.cons.injEq] at e
    obtain ⟨h1, h2⟩ := digits_split (fun x hx => ha x (by simp [hx])) (fun x hx => hb x (by simp [hx])) hs hu e.2
    exact ⟨by rw [e.1, h1], h2⟩

theorem toDigits_inj {m n : ℕ} (h : Nat.toDigits 10 m = Nat.toDigits 10 n) : m = n := by
  have := congrArg (fun l => Nat.ofDigitChars 10 l 0) h
  simpa only [Nat.ofDigitChars_ten_toDigits] using this

theorem tail_inj {m n : ℕ} {f g : Option Char}
    (h : Nat.toDigits 10 m ++ (match f with | none => [] | some c => ['_', c]) = Nat.toDigits 10 n ++ (match g with | none => [] | some c => ['_', c])) :
    m = n ∧ f = g := by
  have hd : ∀ k, ∀ c ∈ Nat.toDigits 10 k, c.isDigit := fun k c hc => Nat.isDigit_of_mem_toDigits (by norm_num) (by norm_num) hc
  have hs : ∀ f : Option Char, ∀ c ∈ (match f with | none => [] | some c => ['_', c] : List Char).head?, c.isDigit = false := by
    intro f c hc
    cases f with
    | none => simp at hc
    | some d => simp only [List.head?_cons, Option.mem_def, Option.some.injEq] at hc; subst hc; decide
  obtain ⟨h1, h2⟩ := digits_split (hd m) (hd n) (hs f) (hs g) h
  refine ⟨toDigits_inj h1, ?_⟩
  clear h h1 hs hd
  cases f <;> cases g <;> simp at h2 ⊢
  exact h2

/-- Generated names are equal only if everything about them is. -/
theorem chars_inj {t u : Tag} (hm : ¬ Mixed t.kind u.kind) (h : t.chars = u.chars) : t = u := by
  obtain ⟨k, n, f⟩ := t
  obtain ⟨k', n', f'⟩ := u
  simp only [Tag.chars] at h
  cases k <;> cases k' <;> simp [Kind.prefix, Mixed] at h hm ⊢ <;> exact tail_inj h

/-- The name of an item is that of a tag. -/
def Bears (x : Item) (t : Tag) : Prop := x.kind = t.kind ∧ x.name.toList = t.chars

theorem bears_plain (c : Counters) (k : Kind) (a : Bool) : Bears ⟨k, c.name k, a⟩ ⟨k, c k, none⟩ := by
  refine ⟨rfl, ?_⟩
  simp [Counters.name, Tag.chars]

theorem bears_face (c : Counters) (a : Bool) (x : Item) (h : x ∈ faceItems (c.name .monitor) a) :
    ∃ d ∈ ['1', '2', '3', '4'], Bears x ⟨.monitor, c .monitor, some d⟩ := by
  simp only [faceItems, List.mem_cons, List.not_mem_nil, or_false] at h
  rcases h with rfl | rfl | rfl | rfl
  · exact ⟨'1', by simp, rfl, by simp [Counters.name, Tag.chars]⟩
  · exact ⟨'2', by simp, rfl, by simp [Counters.name, Tag.chars]⟩
  · exact ⟨'3', by simp, rfl, by simp [Counters.name, Tag.chars]⟩
  · exact ⟨'4', by simp, rfl, by simp [Counters.name, Tag.chars]⟩

theorem bump_ok {c c' : Counters} {k : Kind} (h : c.bump k = .ok c') : c' k = c k + 1 ∧ ∀ x, c x ≤ c' x := by
  unfold Counters.bump at h
  split_ifs at h with e
  cases h
  refine ⟨by simp, fun x => ?_⟩
  simp only
  split_ifs with e'
  · subst e'; omega
  · exact le_rfl

/-- Every generated name carries a number that the counter of its class had during the call. -/
theorem construct_tags {c c' : Counters} {m : Make} {l : List Item} (h : construct c m = .ok (c', l)) :
    (∀ x, c x ≤ c' x) ∧ (∀ x ∈ l, x.auto = true → ∃ t, Bears x t ∧ t.num = c t.kind ∧ t.num < c' t.kind) ∧
      (l.filter (·.auto)).Pairwise (fun x y => x.name ≠ y.name) := by
  cases m with
  | plain k =>
    simp only [construct, Except.bind_ok, Except.pure_eq, Except.ok.injEq, Prod.mk.injEq] at h
    obtain ⟨d, hd, rfl, rfl⟩ := h
    obtain ⟨b1, b2⟩ := bump_ok hd
    refine ⟨b2, fun x hx _ => ?_, by simp⟩
    simp only [List.mem_singleton] at hx
    subst hx
    exact ⟨_, bears_plain c k true, rfl, by simp only; omega⟩
  | box =>
    simp only [construct, Except.bind_ok, Except.pure_eq, Except.ok.injEq, Prod.mk.injEq] at h
    obtain ⟨d, hd, rfl, rfl⟩ := h
    obtain ⟨b1, b2⟩ := bump_ok hd
    refine ⟨b2, fun x hx _ => ?_, ?_⟩
    · rw [List.mem_cons] at hx
      rcases hx with rfl | hx
      · exact ⟨_, bears_plain c .monitor true, rfl, by simp only; omega⟩
      · obtain ⟨e, -, he⟩ := bears_face c true x hx
        exact ⟨_, he, rfl, by simp only; omega⟩
    · have hf : ∀ x ∈ (Item.mk .monitor (c.name .monitor) true :: faceItems (c.name .monitor) true), x.auto = true := by
        simp [faceItems]
      rw [List.filter_eq_self.mpr hf]
      simp [faceItems, ← String.toList_inj]
  | named k n =>
    simp only [construct, Except.ok.injEq, Prod.mk.injEq] at h
    obtain ⟨rfl, rfl⟩ := h
    exact ⟨fun _ => le_rfl, by simp, by simp⟩
  | namedBox n =>
    simp only [construct, Except.ok.injEq, Prod.mk.injEq] at h
    obtain ⟨rfl, rfl⟩ := h
    exact ⟨fun _ => le_rfl, by simp [faceItems], by simp [faceItems]⟩

theorem bears_ne {x y : Item} {t u : Tag} (hx : Bears x t) (hy : Bears y u) (hn : t.kind = u.kind → t.num ≠ u.num)
    (hm : ¬ Mixed x.kind y.kind) : x.name ≠ y.name := by
  intro e
  have := chars_inj (t := t) (u := u) (by rw [← hx.1, ← hy.1]; exact hm) (by rw [← hx.2, ← hy.2, e])
  subst this
  exact hn rfl rfl

theorem constructAll_tags : ∀ {l : List Make} {c c' : Counters} {items : List Item}, constructAll c l = .ok (c', items) →
    (∀ x ∈ items, x.auto = true → ∃ t, Bears x t ∧ c t.kind ≤ t.num) ∧
      (items.filter (·.auto)).Pairwise (fun x y => ¬ Mixed x.kind y.kind → x.name ≠ y.name)
  | [], c, c', items, h => by
    simp only [constructAll, Except.ok.injEq, Prod.mk.injEq] at h
    obtain ⟨-, rfl⟩ := h
    simp
  | m :: l, c, c', items, h => by
    simp only [constructAll, Except.bind_ok, Except.pure_eq, Except.ok.injEq, Prod.mk.injEq] at h
    obtain ⟨⟨c1, x1⟩, h1, ⟨c2, x2⟩, h2, -, rfl⟩ := h
    obtain ⟨a1, a2, a3⟩ := construct_tags h1
    obtain ⟨b1, b2⟩ := constructAll_tags h2
    refine ⟨fun x hx ha => ?_, ?_⟩
    · rw [List.mem_append] at hx
      rcases hx with hx | hx
      · obtain ⟨t, t1, t2, -⟩ := a2 x hx ha
        exact ⟨t, t1, t2.ge⟩
      · obtain ⟨t, t1, t2⟩ := b1 x hx ha
        exact ⟨t, t1, (a1 _).trans t2⟩
    · rw [List.filter_append, List.pairwise_append]
      refine ⟨List.Pairwise.imp (S := fun x y : Item => ¬ Mixed x.kind y.kind → x.name ≠ y.name) (fun h _ => h) a3, b2, fun x hx y hy hm => ?_⟩
      rw [List.mem_filter] at hx hy
      obtain ⟨t, t1, t2, t3⟩ := a2 x hx.1 hx.2
      obtain ⟨u, u1, u2⟩ := b1 y hy.1 hy.2
      exact bears_ne t1 u1 (fun e => by rw [← e] at u2; simp only at u2; omega) hm

/-- The counters of a program that starts. -/
def noneCreated : Counters := fun _ => 0

/-- **C47**, partial: in every sequence of constructor calls, with or without names, the generated names of DFT monitors (including the
faces of boxes), sources, objects and materials are pairwise distinct, and so are those of time monitors, sources, objects and
materials.  Missing: a DFT monitor and a time monitor, which can get the same name (`C47_time_monitor_false`). -/
theorem C47_names_distinct_partial (l : List Make) (c : Counters) (items : List Item) (h : constructAll noneCreated l = .ok (c, items)) :
    (items.filter (·.auto)).Pairwise (fun x y => ¬ Mixed x.kind y.kind → x.name ≠ y.name) :=
  (constructAll_tags h).2

/-- Names are generated without undefined behaviour as long as no class has `2^31 - 1` objects without a name. -/
theorem C47_defined (l : List Make) (h : l.length < 2 ^ 31) : ∃ c items, constructAll noneCreated l = .ok (c, items) := by
  have key : ∀ (l : List Make) (c : Counters) (b : ℕ), (∀ k, c k ≤ b) → b + l.length < 2 ^ 31 → ∃ c' items, constructAll c l = .ok (c', items) := by
    intro l
    induction l with
    | nil => intro c b _ _; exact ⟨c, [], rfl⟩
    | cons m l ih =>
      intro c b hc hb
      rw [List.length_cons] at hb
      have bump : ∀ k, ∃ c1, c.bump k = .ok c1 ∧ ∀ x, c1 x ≤ b + 1 := by
        intro k
        refine ⟨fun x => if x = k then c k + 1 else c x, ?_, fun x => ?_⟩
        · unfold Counters.bump; rw [if_neg]; have := hc k; omega
        · simp only; split_ifs
          · have := hc k; omega
          · have := hc x; omega
      have one : ∃ c1 x, construct c m = .ok (c1, x) ∧ ∀ k, c1 k ≤ b + 1 := by
        cases m with
        | plain k => obtain ⟨c1, h1, h2⟩ := bump k; exact ⟨c1, _, by simp only [construct, h1, Except.ok_bind, Except.pure_eq]; rfl, h2⟩
        | box => obtain ⟨c1, h1, h2⟩ := bump .monitor; exact ⟨c1, _, by simp only [construct, h1, Except.ok_bind, Except.pure_eq]; rfl, h2⟩
        | named k n => exact ⟨c, _, rfl, fun k => (hc k).trans (by omega)⟩
        | namedBox n => exact ⟨c, _, rfl, fun k => (hc k).trans (by omega)⟩
      obtain ⟨c1, x, h1, h2⟩ := one
      obtain ⟨c2, y, h3⟩ := ih c1 (b + 1) h2 (by omega)
      exact ⟨c2, x ++ y, by simp only [constructAll, h1, h3, Except.ok_bind, Except.pure_eq]⟩
  exact key l noneCreated 0 (fun _ => le_rfl) (by omega)

/-- a history with boxes, named and unnamed things -/
example : ∃ c items, constructAll noneCreated [.box, .plain .monitor, .namedBox "monitor_0", .plain .source, .box, .plain .timeMonitor] = .ok (c, items) :=
  C47_defined _ (by norm_num)

/-- **C47 is false** between DFT monitors and time monitors: the first of either kind is called `monitor_0`. -/
theorem C47_time_monitor_false : ∃ c, constructAll noneCreated [.plain .monitor, .plain .timeMonitor] =
    .ok (c, [⟨.monitor, "monitor_0", true⟩, ⟨.timeMonitor, "monitor_0", true⟩]) := ⟨_, rfl⟩

end Qbox.Props
