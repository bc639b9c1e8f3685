import Verif.Spec.OutputSpec
import Verif.Lemmas.SimUpdate
import Verif.Lemmas.Loops

/-! # What calls do to the output file -/

namespace Qbox
open Scalar Spec

set_option linter.unusedSectionVars false

variable {K : Type} [Scalar K]

/-! ## Data sets -/

theorem File.rows_append_self {F : File K} {k : Option String × Fields} {l : List (Row K)} (h : F.rows k = some l) (r : Row K) :
    (F.append k r).rows k = some (l ++ [r]) := by
  unfold File.rows File.append at *
  simp only [List.find?_map]
  have e : ((fun e : (Option String × Fields) × List (Row K) => e.1 == k) ∘ fun e => if (e.1 == k) = true then (e.1, e.2 ++ [r]) else e) =
      fun e => e.1 == k := by
    funext e
    simp only [Function.comp]
    split_ifs with c <;> rfl
  rw [e]
  cases hf : F.sets.find? (fun e => e.1 == k) with
  | none => rw [hf] at h; cases h
  | some x =>
    rw [hf] at h
    simp only [Option.map_some, Option.some.injEq] at h ⊢
    have := List.find?_some hf
    simp only [this, if_true, h]

theorem File.rows_append_ne {F : File K} {k k' : Option String × Fields} (hk : k' ≠ k) (r : Row K) : (F.append k r).rows k' = F.rows k' := by
  unfold File.rows File.append
  simp only [List.find?_map]
  have e : ((fun e : (Option String × Fields) × List (Row K) => e.1 == k') ∘ fun e => if (e.1 == k) = true then (e.1, e.2 ++ [r]) else e) =
      fun e => e.1 == k' := by
    funext e
    simp only [Function.comp]
    split_ifs with c <;> rfl
  rw [e]
  cases hf : F.sets.find? (fun e => e.1 == k') with
  | none => rfl
  | some x =>
    have h1 := List.find?_some hf
    have h2 : ¬ ((x.1 == k) = true) := by
      intro h
      simp only [beq_iff_eq] at h h1
      exact hk (h1.symm.trans h)
    simp only [Option.map_some, if_neg h2]

theorem File.create_rows {F F' : File K} {k : Option String × Fields} {r : Row K} (h : F.create k r = .ok F') :
    F.rows k = none ∧ F'.groups = F.groups ∧ F'.rows k = some [r] ∧ ∀ k', k' ≠ k → F'.rows k' = F.rows k' := by
  unfold File.create at h
  cases hk : F.rows k with
  | some l => simp only [hk] at h; cases h
  | none =>
    simp only [hk] at h
    split_ifs at h with c
    cases h
    refine ⟨rfl, rfl, ?_, fun k' hk' => ?_⟩
    · unfold File.rows at hk ⊢
      simp only [List.find?_append]
      cases hf : F.sets.find? (fun e => e.1 == k) with
      | some x => rw [hf] at hk; cases hk
      | none => simp
    · unfold File.rows
      simp only [List.find?_append]
      cases hf : F.sets.find? (fun e => e.1 == k') with
      | some x => rfl
      | none => simp [Ne.symm hk']

theorem File.openGroup_rows {F F' : File K} {n : String} (h : F.openGroup n = .ok F') :
    (∀ k, F'.rows k = F.rows k) ∧ (∀ x, x ∈ F'.groups ↔ x ∈ F.groups ∨ x = n) ∧ (n ∈ F.groups → F' = F) := by
  unfold File.openGroup at h
  split_ifs at h with c1 c2
  · cases h
    exact ⟨fun _ => rfl, fun x => ⟨Or.inl, by rintro (h | rfl); exacts [h, c1]⟩, fun _ => rfl⟩
  · cases h
    exact ⟨fun _ => rfl, fun x => by simp, fun hn => absurd hn c1⟩

/-- What `write_field` does to the file. -/
theorem File.writeField_rows {F F' : File K} {f : Flds K} {C : Fields} (h : F.writeField f C = .ok F') :
    f.get C = .ok (component f C) ∧ F'.groups = F.groups ∧ F'.rows (none, C) = some ((F.rows (none, C)).getD [] ++ [(component f C).row]) ∧
      ∀ k, k ≠ (none, C) → F'.rows k = F.rows k := by
  unfold File.writeField at h
  obtain ⟨a, e, h⟩ := (Except.bind_ok ..).mp h
  have ea : a = component f C := by cases C <;> first | (cases e; rfl) | cases e
  subst ea
  refine ⟨e, ?_⟩
  cases hr : F.rows (none, C) with
  | some l =>
    simp only [hr] at h
    cases h
    exact ⟨rfl, File.rows_append_self hr _, fun k hk => File.rows_append_ne hk _⟩
  | none =>
    simp only [hr] at h
    obtain ⟨-, h2, h3, h4⟩ := File.create_rows h
    exact ⟨h2, h3, h4⟩

/-! ## Time monitors -/

/-- The monitor knows its data sets. -/
structure TMon.Sync (F : File K) (m : TMon K) : Prop where
  group : m.name ∈ F.groups
  sets : ∀ A, A ∈ m.dsets ↔ F.rows (some m.name, A) ≠ none

/-- The effect of writing the components `L`. -/
structure Wrote (g : Grid K) (f : Flds K) (L : List Fields) (m m' : TMon K) (F F' : File K) : Prop where
  name : m'.name = m.name
  shape : m'.shape = m.shape
  what : m'.what = m.what
  outFreq : m'.outFreq = m.outFreq
  groups : F'.groups = F.groups
  hit : ∀ A ∈ L, ∃ r, f.get A = .ok (component f A) ∧ m.shape.snapshot g (component f A) = .ok r ∧
    F'.rows (some m.name, A) = some ((F.rows (some m.name, A)).getD [] ++ [r])
  miss : ∀ k, (∀ A ∈ L, k ≠ (some m.name, A)) → F'.rows k = F.rows k
  sync : m'.Sync F'

theorem TMon.writeImpl_wrote {g : Grid K} {f : Flds K} {A : Fields} {m m' : TMon K} {F F' : File K} (hs : m.Sync F)
    (h : m.writeImpl g f A F = .ok (m', F')) : Wrote g f [A] m m' F F' := by
  unfold TMon.writeImpl at h
  obtain ⟨a, e, h⟩ := (Except.bind_ok ..).mp h
  have ea : a = component f A := by cases A <;> first | (cases e; rfl) | cases e
  rw [ea] at e h
  obtain ⟨r, e2, h⟩ := (Except.bind_ok ..).mp h
  by_cases c : A ∈ m.dsets
  · rw [if_pos c] at h
    cases h
    obtain ⟨l, hl⟩ := Option.ne_none_iff_exists'.mp ((hs.sets A).mp c)
    have hself := File.rows_append_self hl r
    refine ⟨rfl, rfl, rfl, rfl, rfl, ?_, ?_, ⟨hs.group, fun B => ?_⟩⟩
    · intro B hB
      rw [List.mem_singleton.mp hB]
      exact ⟨r, e, e2, by rw [hself, hl]; rfl⟩
    · intro k hk
      exact File.rows_append_ne (hk A (by simp)) r
    · rw [hs.sets B]
      by_cases hB : B = A
      · subst hB; rw [hself, hl]; simp
      · rw [File.rows_append_ne (by simpa using hB)]
  · rw [if_neg c] at h
    obtain ⟨F1, h1, h⟩ := (Except.bind_ok ..).mp h
    rw [(File.openGroup_rows h1).2.2 hs.group] at h
    obtain ⟨F2, h2, h⟩ := (Except.bind_ok ..).mp h
    cases h
    obtain ⟨k1, k2, k3, k4⟩ := File.create_rows h2
    refine ⟨rfl, rfl, rfl, rfl, k2, ?_, ?_, ⟨by rw [k2]; exact hs.group, fun B => ?_⟩⟩
    · intro B hB
      rw [List.mem_singleton.mp hB]
      exact ⟨r, e, e2, by rw [k3, k1]; rfl⟩
    · intro k hk
      exact k4 k (hk A (by simp))
    · rw [List.mem_append, List.mem_singleton, hs.sets B]
      by_cases hB : B = A
      · subst hB; simp [k3]
      · rw [show ({ m with dsets := m.dsets ++ [A] } : TMon K).name = m.name from rfl, k4 _ (by simpa using hB)]
        simp [hB]

theorem Wrote.trans {g : Grid K} {f : Flds K} {L L' : List Fields} {m m1 m2 : TMon K} {F F1 F2 : File K} (h : Wrote g f L m m1 F F1)
    (h' : Wrote g f L' m1 m2 F1 F2) (hd : ∀ A ∈ L, A ∉ L') : Wrote g f (L ++ L') m m2 F F2 := by
  refine ⟨h'.name.trans h.name, h'.shape.trans h.shape, h'.what.trans h.what, h'.outFreq.trans h.outFreq, h'.groups.trans h.groups, ?_, ?_, h'.sync⟩
  · intro A hA
    rcases List.mem_append.mp hA with hA | hA
    · obtain ⟨r, e1, e2, e3⟩ := h.hit A hA
      refine ⟨r, e1, e2, ?_⟩
      rw [h'.miss _ (fun B hB hne => hd A hA ?_), e3]
      rw [h.name] at hne
      simp only [Prod.mk.injEq, true_and] at hne
      rw [hne]; exact hB
    · obtain ⟨r, e1, e2, e3⟩ := h'.hit A hA
      rw [h.shape] at e2
      rw [h.name] at e3
      refine ⟨r, e1, e2, ?_⟩
      rw [e3, h.miss _ (fun B hB hne => hd B hB ?_)]
      simp only [Prod.mk.injEq, true_and] at hne
      rw [← hne]; exact hA
  · intro k hk
    rw [h'.miss k (fun A hA => by rw [h.name]; exact hk A (by simp [hA])), h.miss k (fun A hA => hk A (by simp [hA]))]

theorem TMon.writeH_wrote {g : Grid K} {f : Flds K} {m m' : TMon K} {F F' : File K} (hs : m.Sync F) (h : m.writeH g f F = .ok (m', F')) :
    Wrote g f [.Hx, .Hy] m m' F F' := by
  unfold TMon.writeH at h
  obtain ⟨⟨m1, F1⟩, e, h⟩ := (Except.bind_ok ..).mp h
  have w := TMon.writeImpl_wrote hs e
  exact w.trans (TMon.writeImpl_wrote w.sync h) (by simp)

/-- `write()` writes the selected components. -/
theorem TMon.write_wrote {g : Grid K} {f : Flds K} {m m' : TMon K} {F F' : File K} (hs : m.Sync F) (h : m.write g f F = .ok (m', F')) :
    Wrote g f (expand m.what) m m' F F' := by
  unfold TMon.write TMon.writeA at h
  cases hw : m.what with
  | E => simp only [hw] at h; exact TMon.writeImpl_wrote hs h
  | H => simp only [hw] at h; exact TMon.writeH_wrote hs h
  | all =>
    simp only [hw] at h
    obtain ⟨⟨m1, F1⟩, e, h⟩ := (Except.bind_ok ..).mp h
    have w := TMon.writeImpl_wrote hs e
    exact w.trans (TMon.writeH_wrote w.sync h) (by simp)
  | _ => simp only [hw] at h; exact TMon.writeImpl_wrote hs h

theorem Wrote.none {g : Grid K} {f : Flds K} {m : TMon K} {F : File K} (hs : m.Sync F) : Wrote g f [] m m F F :=
  ⟨rfl, rfl, rfl, rfl, rfl, by simp, fun _ _ => rfl, hs⟩

theorem TMon.Sync.congr {F F' : File K} {m : TMon K} (hs : m.Sync F) (hg : ∀ x ∈ F.groups, x ∈ F'.groups)
    (hr : ∀ A, F'.rows (some m.name, A) = F.rows (some m.name, A)) : m.Sync F' :=
  ⟨hg _ hs.group, fun A => by rw [hr]; exact hs.sets A⟩

/-- Monitors with names of their own that know their data sets; nothing is stored under other names. -/
structure Tidy (l : List (TMon K)) (F : File K) : Prop where
  sync : ∀ m ∈ l, m.Sync F
  names : (l.map (·.name)).Nodup
  rest : ∀ n A, n ∉ F.groups → F.rows (some n, A) = none

theorem writeReady_wrote {g : Grid K} {f : Flds K} : ∀ (l : List (TMon K)) (F : File K) (l' : List (TMon K)) (F' : File K),
    (∀ m ∈ l, m.Sync F) → (l.map (·.name)).Nodup → writeReady g f l F = .ok (l', F') →
    l'.map (·.name) = l.map (·.name) ∧ F'.groups = F.groups ∧ (∀ m ∈ l', m.Sync F') ∧
    (∀ k : Option String × Fields, (∀ m ∈ l, k.1 ≠ some m.name) → F'.rows k = F.rows k) ∧
    ∀ (i : ℕ) (m : TMon K), l[i]? = some m → ∃ (m' : TMon K) (b : Bool), l'[i]? = some m' ∧ m'.name = m.name ∧ m'.shape = m.shape ∧ m'.what = m.what ∧
      m.outFreq.check = .ok (b, m'.outFreq) ∧
      (∀ A ∈ expand m.what, if b = true then ∃ r, m.shape.snapshot g (component f A) = .ok r ∧
          F'.rows (some m.name, A) = some ((F.rows (some m.name, A)).getD [] ++ [r])
        else F'.rows (some m.name, A) = F.rows (some m.name, A)) ∧
      ∀ A ∉ expand m.what, F'.rows (some m.name, A) = F.rows (some m.name, A)
  | [], F, l', F', _, _, h => by
    cases h
    exact ⟨rfl, rfl, by simp, fun _ _ => rfl, fun i m h => by simp at h⟩
  | m :: l, F, l', F', hs, hn, h => by
    unfold writeReady at h
    obtain ⟨⟨m1, F1⟩, e1, h⟩ := (Except.bind_ok ..).mp h
    obtain ⟨⟨l1, F2⟩, e2, h⟩ := (Except.bind_ok ..).mp h
    cases h
    rw [List.map_cons, List.nodup_cons] at hn
    unfold TMon.writeIfReady at e1
    obtain ⟨⟨b, e⟩, hb, e1⟩ := (Except.bind_ok ..).mp e1
    have hsm := hs m (by simp)
    have key : ∃ L, Wrote g f L { m with outFreq := e } m1 F F1 ∧ L = if b = true then expand m.what else [] := by
      cases b with
      | true =>
        simp only [if_true] at e1
        exact ⟨_, TMon.write_wrote (m := { m with outFreq := e }) ⟨hsm.group, hsm.sets⟩ e1, rfl⟩
      | false =>
        simp only [Bool.false_eq_true, if_false] at e1
        cases e1
        exact ⟨_, Wrote.none ⟨hsm.group, hsm.sets⟩, rfl⟩
    obtain ⟨L, w, hL⟩ := key
    have wn : m1.name = m.name := w.name
    have hne : ∀ x ∈ l, x.name ≠ m.name := fun x hx hc => hn.1 (by rw [← hc]; exact List.mem_map_of_mem hx)
    have hs1 : ∀ x ∈ l, x.Sync F1 := fun x hx => (hs x (by simp [hx])).congr (fun y hy => by rw [w.groups]; exact hy)
      (fun A => w.miss _ (fun B _ hc => hne x hx (by simpa using congrArg Prod.fst hc)))
    obtain ⟨r1, r2, r3, r4, r5⟩ := writeReady_wrote l F1 l1 F' hs1 hn.2 e2
    have hself : ∀ A, F'.rows (some m.name, A) = F1.rows (some m.name, A) := fun A => r4 _ (fun x hx hc => hne x hx (by simpa using hc.symm))
    refine ⟨by rw [List.map_cons, List.map_cons, r1, wn], r2.trans w.groups, ?_, ?_, ?_⟩
    · intro x hx
      rcases List.mem_cons.mp hx with rfl | hx
      · exact w.sync.congr (fun y hy => by rw [r2]; exact hy) (fun A => by rw [wn]; exact hself A)
      · exact r3 x hx
    · intro k hk
      rw [r4 k (fun x hx => hk x (by simp [hx])), w.miss k (fun A _ hc => hk m (by simp) (by rw [hc]))]
    · intro i x hx
      cases i with
      | zero =>
        simp only [List.getElem?_cons_zero, Option.some.injEq] at hx
        subst hx
        refine ⟨m1, b, rfl, wn, w.shape, w.what, by rw [hb, w.outFreq], ?_, ?_⟩
        · intro A hA
          split_ifs with c
          · obtain ⟨r, -, q2, q3⟩ := w.hit A (by rw [hL, if_pos c]; exact hA)
            exact ⟨r, q2, by rw [hself]; exact q3⟩
          · rw [hself]; exact w.miss _ (by rw [hL, if_neg c]; simp)
        · intro A hA
          rw [hself]
          refine w.miss _ (fun B hB hc => hA ?_)
          simp only [Prod.mk.injEq, true_and] at hc
          rw [hL] at hB
          split_ifs at hB with c
          · rw [hc]; exact hB
          · simp at hB
      | succ i =>
        rw [List.getElem?_cons_succ] at hx
        obtain ⟨m', b', q1, q2, q3, q4, q5, q6, q7⟩ := r5 i x hx
        have hF : ∀ A, F1.rows (some x.name, A) = F.rows (some x.name, A) := fun A =>
          w.miss _ (fun B _ hc => hne x (List.mem_of_getElem? hx) (by simpa using congrArg Prod.fst hc))
        refine ⟨m', b', by rw [List.getElem?_cons_succ]; exact q1, q2, q3, q4, q5, ?_, ?_⟩
        · intro A hA; rw [← hF A]; exact q6 A hA
        · intro A hA; rw [← hF A]; exact q7 A hA

end Qbox
