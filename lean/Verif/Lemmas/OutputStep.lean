import Verif.Lemmas.FileLog
import Verif.Lemmas.WatchRun

/-! # The output file along a program -/

namespace Qbox
open Scalar Spec Props

set_option linter.unusedSectionVars false

variable {K : Type} [Scalar K]

/-- `fo` is what the monitor wrote, if anything. -/
def Eff (g : Grid K) (fo : Option (Flds K)) (m : TMon K) (F F' : File K) : Prop :=
  (∀ A ∈ expand m.what, match fo with
    | some f => ∃ r, m.shape.snapshot g (component f A) = .ok r ∧ F'.rows (some m.name, A) = some ((F.rows (some m.name, A)).getD [] ++ [r])
    | none => F'.rows (some m.name, A) = F.rows (some m.name, A)) ∧
  ∀ A ∉ expand m.what, F'.rows (some m.name, A) = F.rows (some m.name, A)

theorem Eff.same {g : Grid K} {m : TMon K} {F F' : File K} (h : ∀ A, F'.rows (some m.name, A) = F.rows (some m.name, A)) : Eff g none m F F' :=
  ⟨fun A _ => h A, fun A _ => h A⟩

theorem Tidy.field {l : List (TMon K)} {F F' : File K} (h : Tidy l F) (hg : F'.groups = F.groups) (hr : ∀ n A, F'.rows (some n, A) = F.rows (some n, A)) :
    Tidy l F' :=
  ⟨fun m hm => (h.sync m hm).congr (fun x hx => by rw [hg]; exact hx) (fun A => hr _ A), h.names, fun n A hn => by rw [hr]; exact h.rest n A (by rw [← hg]; exact hn)⟩

theorem Sim.writeField_parts {now : ℕ → ℝ} {C : Fields} {s s1 : Sim K} (h : s.writeField now C = .ok s1) :
    s.file.writeField s.core.f C = .ok s1.file ∧ s1.core = s.core ∧ s1.tmons = s.tmons ∧ s1.mons = s.mons ∧ s1.objs = s.objs ∧ s1.srcs = s.srcs ∧
      s1.mats = s.mats := by
  unfold Sim.writeField at h
  obtain ⟨ck, -, h⟩ := tryM_ok h
  obtain ⟨F, e, h⟩ := tryM_ok h
  obtain ⟨ck2, -, h⟩ := tryM_ok h
  cases h
  exact ⟨e, rfl, rfl, rfl, rfl, rfl, rfl⟩

theorem Sim.writeH_parts {now : ℕ → ℝ} {s s1 : Sim K} (h : s.step now .writeH = .ok s1) :
    ∃ s2, s.writeField now .Hx = .ok s2 ∧ s2.writeField now .Hy = .ok s1 := by
  change (s.writeField now .Hx).andThen _ = _ at h
  cases e : s.writeField now .Hx with
  | ok s2 => rw [e] at h; exact ⟨s2, rfl, h⟩
  | threw m s2 => rw [e] at h; cases h
  | ub u => rw [e] at h; cases h

/-- Time monitors are added as their constructors make them. -/
def Fresh : Op K → Prop
  | .addTimeMonitor m => m.dsets = []
  | _ => True

/-- What a call does to the file and to the time monitors. -/
theorem step_output (now : ℕ → ℝ) (op : Op K) {s s1 : Sim K} (h : s.step now op = .ok s1) (ht : Tidy s.tmons s.file) (hfr : Fresh op) :
    Tidy s1.tmons s1.file ∧ (∀ (i : ℕ) (m : TMon K), s.tmons[i]? = some m → ∃ m' : TMon K, s1.tmons[i]? = some m' ∧ m'.name = m.name ∧ m'.shape = m.shape ∧ m'.what = m.what ∧
      match op with
      | .update => ∃ b, m.outFreq.check = .ok (b, m'.outFreq) ∧ Eff s.core.g (if b = true then some s1.core.f else none) m s.file s1.file
      | .writeTimeMonitor k => m'.outFreq = m.outFreq ∧ Eff s.core.g (if k = i then some s.core.f else none) m s.file s1.file
      | _ => m'.outFreq = m.outFreq ∧ Eff s.core.g none m s.file s1.file) ∧
    ∀ C, match op with
      | .writeField D => s1.file.rows (none, C) = if D = C then some ((s.file.rows (none, C)).getD [] ++ [(component s.core.f C).row]) else s.file.rows (none, C)
      | .writeE => s1.file.rows (none, C) = if C = .Ez then some ((s.file.rows (none, C)).getD [] ++ [s.core.f.Ez.row]) else s.file.rows (none, C)
      | .writeH => s1.file.rows (none, C) = if C = .Hx then some ((s.file.rows (none, C)).getD [] ++ [s.core.f.Hx.row])
          else if C = .Hy then some ((s.file.rows (none, C)).getD [] ++ [s.core.f.Hy.row]) else s.file.rows (none, C)
      | _ => s1.file.rows (none, C) = s.file.rows (none, C) := by
  have same : ∀ s1 : Sim K, s1.tmons = s.tmons → s1.file = s.file → Tidy s1.tmons s1.file ∧
      (∀ (i : ℕ) (m : TMon K), s.tmons[i]? = some m → ∃ m' : TMon K, s1.tmons[i]? = some m' ∧ m'.name = m.name ∧ m'.shape = m.shape ∧ m'.what = m.what ∧
        m'.outFreq = m.outFreq ∧ Eff s.core.g none m s.file s1.file) ∧ ∀ C : Fields, s1.file.rows (none, C) = s.file.rows (none, C) := by
    intro s1 h1 h2
    rw [h1, h2]
    exact ⟨ht, fun i m hm => ⟨m, hm, rfl, rfl, rfl, rfl, Eff.same fun _ => rfl⟩, fun C => rfl⟩
  have fld : ∀ {C : Fields} {s s1 : Sim K}, Tidy s.tmons s.file → s.writeField now C = .ok s1 → Tidy s1.tmons s1.file ∧
      (∀ (i : ℕ) (m : TMon K), s.tmons[i]? = some m → ∃ m' : TMon K, s1.tmons[i]? = some m' ∧ m'.name = m.name ∧ m'.shape = m.shape ∧ m'.what = m.what ∧
        m'.outFreq = m.outFreq ∧ Eff s.core.g none m s.file s1.file) ∧ s1.core = s.core ∧
      ∀ D : Fields, s1.file.rows (none, D) = if C = D then some ((s.file.rows (none, D)).getD [] ++ [(component s.core.f D).row]) else s.file.rows (none, D) := by
    intro C s s1 ht h
    obtain ⟨e, e1, e2, -⟩ := Sim.writeField_parts h
    obtain ⟨-, r1, r2, r3⟩ := File.writeField_rows e
    rw [e2]
    refine ⟨ht.field r1 (fun n A => r3 _ (by simp)), fun i m hm => ⟨m, hm, rfl, rfl, rfl, rfl, Eff.same fun A => r3 _ (by simp)⟩, e1, fun D => ?_⟩
    split_ifs with c
    · subst c; exact r2
    · exact r3 _ (by simpa using Ne.symm c)
  cases op with
  | update =>
    obtain ⟨c, r, U⟩ := Sim.update_parts h
    have hg : s1.core.g = s.core.g := by
      obtain ⟨k1, -⟩ := Core.stageE_keep U.stageE
      obtain ⟨k2, -⟩ := Core.stageH_keep U.stageH
      exact k2.trans k1
    obtain ⟨r1, r2, r3, r4, r5⟩ := writeReady_wrote _ _ _ _ ht.sync ht.names U.files
    refine ⟨⟨r3, by rw [r1]; exact ht.names, fun n A hn => ?_⟩, fun i m hm => ?_, fun C => r4 _ (by simp)⟩
    · rw [r2] at hn
      rw [r4 _ (fun m hm hc => hn ?_)]
      · exact ht.rest n A hn
      · rw [Option.some.inj hc]; exact (ht.sync m hm).group
    · obtain ⟨m', b, q1, q2, q3, q4, q5, q6, q7⟩ := r5 i m hm
      refine ⟨m', q1, q2, q3, q4, b, q5, ?_, q7⟩
      intro A hA
      have := q6 A hA
      rw [hg] at this
      cases b with
      | true => simpa using this
      | false => simpa using this
  | addObject o =>
    unfold Sim.step at h
    obtain ⟨c, -, h⟩ := tryM_ok h
    cases h
    refine same _ ?_ ?_ <;> simp only <;> split_ifs <;> rfl
  | addSource x => cases h; exact same _ rfl rfl
  | addMonitor m => unfold Sim.step at h; obtain ⟨c, -, h⟩ := tryM_ok h; cases h; exact same _ rfl rfl
  | addTimeMonitor m =>
    unfold Sim.step at h; obtain ⟨F, e, h⟩ := tryM_ok h; cases h
    unfold TMon.setF at e
    split_ifs at e with c
    obtain ⟨r1, r2, -⟩ := File.openGroup_rows e
    have hd : m.dsets = [] := hfr
    refine ⟨⟨?_, ?_, ?_⟩, fun i x hx => ⟨x, ?_, rfl, rfl, rfl, rfl, Eff.same fun A => r1 _⟩, fun C => r1 _⟩
    · intro x hx
      rcases List.mem_append.mp hx with hx | hx
      · exact (ht.sync x hx).congr (fun y hy => (r2 y).mpr (Or.inl hy)) (fun A => r1 _)
      · rw [List.mem_singleton.mp hx]
        refine ⟨(r2 _).mpr (Or.inr rfl), fun A => ?_⟩
        simp only [hd, r1, ht.rest _ A c, List.not_mem_nil, ne_eq, not_true_eq_false]
    · rw [List.map_append, List.nodup_append]
      refine ⟨ht.names, by simp, ?_⟩
      intro y hy z hz
      simp only [List.map_cons, List.map_nil, List.mem_singleton] at hz
      rintro rfl
      rw [List.mem_map] at hy
      obtain ⟨w, hw, rfl⟩ := hy
      exact c (by rw [← hz]; exact (ht.sync w hw).group)
    · intro n A hn
      rw [r1]
      exact ht.rest n A fun hc => hn ((r2 n).mpr (Or.inl hc))
    · obtain ⟨hlt, -⟩ := List.getElem?_eq_some_iff.mp hx
      simp only
      rw [List.getElem?_append_left hlt]; exact hx
  | clearFields => cases h; exact same _ rfl rfl
  | clearMaterials => unfold Sim.step at h; obtain ⟨c, -, h⟩ := tryM_ok h; cases h; exact same _ rfl rfl
  | updateMaterialGrid => unfold Sim.step at h; obtain ⟨c, -, h⟩ := tryM_ok h; cases h; exact same _ rfl rfl
  | removeMonitors => cases h; exact same _ rfl rfl
  | setTfsf vol tp => cases h; exact same _ rfl rfl
  | writeField C =>
    obtain ⟨h1, h2, -, h4⟩ := fld ht h
    exact ⟨h1, h2, h4⟩
  | writeE =>
    obtain ⟨h1, h2, -, h4⟩ := fld ht (C := .Ez) h
    refine ⟨h1, h2, fun C => ?_⟩
    have := h4 C
    by_cases c : C = .Ez
    · subst c; simpa [component] using this
    · simpa [c, Ne.symm c] using this
  | writeH =>
    obtain ⟨s2, e1, e2⟩ := Sim.writeH_parts h
    obtain ⟨h1, h2, h3, h4⟩ := fld ht e1
    obtain ⟨k1, k2, k3, k4⟩ := fld h1 e2
    refine ⟨k1, fun i m hm => ?_, fun C => ?_⟩
    · obtain ⟨m1, p1, p2, p3, p4, p5, p6⟩ := h2 i m hm
      obtain ⟨m2, q1, q2, q3, q4, q5, q6⟩ := k2 i m1 p1
      refine ⟨m2, q1, q2.trans p2, q3.trans p3, q4.trans p4, q5.trans p5, Eff.same fun A => ?_⟩
      have u : s1.file.rows (some m.name, A) = s2.file.rows (some m.name, A) := by
        rw [← p2]
        by_cases hA : A ∈ expand m1.what
        · exact q6.1 A hA
        · exact q6.2 A hA
      have v : s2.file.rows (some m.name, A) = s.file.rows (some m.name, A) := by
        by_cases hA : A ∈ expand m.what
        · exact p6.1 A hA
        · exact p6.2 A hA
      exact u.trans v
    · have u := k4 C
      have v := h4 C
      rw [h3] at u
      by_cases c1 : C = .Hx
      · subst c1
        simp only [reduceCtorEq, if_false] at u
        simp only [if_true] at v ⊢
        rw [u, v]; rfl
      · by_cases c2 : C = .Hy
        · subst c2
          simp only [reduceCtorEq, if_false, if_true] at u v ⊢
          rw [u, v]; rfl
        · simp only [Ne.symm c1, Ne.symm c2, if_false] at u v
          simp only [c1, c2, if_false]
          rw [u, v]
  | writeMonitor => unfold Sim.step at h; obtain ⟨c, -, h⟩ := tryM_ok h; obtain ⟨c, -, h⟩ := tryM_ok h; cases h; exact same _ rfl rfl
  | pose i p => cases h; exact same _ rfl rfl
  | writeTimeMonitor k =>
    unfold Sim.step at h
    cases hi : s.tmons[k]? with
    | none =>
      simp only [hi] at h
      cases h
      refine ⟨ht, fun i m hm => ⟨m, hm, rfl, rfl, rfl, rfl, ?_⟩, fun C => rfl⟩
      have : k ≠ i := by rintro rfl; rw [hi] at hm; cases hm
      rw [if_neg this]
      exact Eff.same fun _ => rfl
    | some m =>
      simp only [hi] at h
      obtain ⟨⟨m', F⟩, e, h⟩ := tryM_ok h
      cases h
      have w := TMon.write_wrote (ht.sync m (List.mem_of_getElem? hi)) e
      obtain ⟨hlt, hget⟩ := List.getElem?_eq_some_iff.mp hi
      have hne : ∀ i x, s.tmons[i]? = some x → i ≠ k → x.name ≠ m.name := by
        intro i x hx hik hc
        obtain ⟨hlt', hget'⟩ := List.getElem?_eq_some_iff.mp hx
        have := List.nodup_iff_injective_getElem.mp ht.names
        have := @this ⟨i, by simpa using hlt'⟩ ⟨k, by simpa using hlt⟩ (by simp [hget, hget', hc])
        exact hik (by simpa using this)
      refine ⟨⟨?_, ?_, ?_⟩, fun i x hx => ?_, fun C => w.miss _ (by simp)⟩
      · intro x hx
        obtain ⟨i, hi'⟩ := List.mem_iff_getElem?.mp hx
        simp only at hi'
        by_cases c : k = i
        · subst c
          rw [List.getElem?_set_self hlt] at hi'
          cases hi'
          exact w.sync
        · rw [List.getElem?_set_ne c] at hi'
          refine (ht.sync x (List.mem_of_getElem? hi')).congr (fun y hy => by simp only [w.groups]; exact hy) (fun A => w.miss _ (fun B _ hc => ?_))
          exact hne i x hi' (Ne.symm c) (by simpa using congrArg Prod.fst hc)
      · rw [List.map_set, w.name]
        have : (s.tmons.map (·.name)).set k m.name = s.tmons.map (·.name) := by
          apply List.ext_getElem? 
          intro i
          by_cases c : k = i
          · subst c
            rw [List.getElem?_set_self (by simpa using hlt), List.getElem?_map, hi]; rfl
          · rw [List.getElem?_set_ne c]
        rw [this]; exact ht.names
      · intro n A hn
        simp only [w.groups] at hn
        rw [w.miss _ (fun B _ hc => hn ?_)]
        · exact ht.rest n A hn
        · have : n = m.name := by simpa using congrArg Prod.fst hc
          rw [this]; exact (ht.sync m (List.mem_of_getElem? hi)).group
      · by_cases c : k = i
        · subst c
          rw [hi] at hx
          cases hx
          refine ⟨m', by simp only; rw [List.getElem?_set_self hlt], w.name, w.shape, w.what, w.outFreq, ?_, ?_⟩
          · intro A hA
            simp only [if_true]
            obtain ⟨r, -, q2, q3⟩ := w.hit A hA
            exact ⟨r, q2, q3⟩
          · intro A hA
            refine w.miss _ (fun B hB hc => hA ?_)
            simp only [Prod.mk.injEq, true_and] at hc
            rw [hc]; exact hB
        · refine ⟨x, by simp only; rw [List.getElem?_set_ne c]; exact hx, rfl, rfl, rfl, rfl, ?_⟩
          rw [if_neg c]
          exact Eff.same fun A => w.miss _ (fun B _ hc => hne i x hx (Ne.symm c) (by simpa using congrArg Prod.fst hc))
  | subtract i o =>
    unfold Sim.step at h
    cases hi : s.mons[i]? with
    | none => simp only [hi] at h; cases h; exact same _ rfl rfl
    | some m => simp only [hi] at h; obtain ⟨c, -, h⟩ := tryM_ok h; cases h; exact same _ rfl rfl

end Qbox
