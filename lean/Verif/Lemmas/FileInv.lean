import Verif.Lemmas.FileFrame

/-! # What the file holds about materials and moving objects, at every moment of a program -/

namespace Qbox
open Scalar Spec

set_option linter.unusedSectionVars false

variable {K : Type} [Scalar K]

/-! ## When writing succeeds -/

/-- Groups may exist, data sets may not, and no two of them have one path; references are to what exists. -/
theorem Tree.puts_fresh : ∀ (es : List (Path × H5Obj K)) {t : Tree K},
    (∀ e ∈ es, t.at e.1 = none ∨ (e.2 = .group ∧ t.at e.1 = some .group)) →
    es.Pairwise (fun e e' => e.1 ≠ e'.1 ∨ (e.2 = .group ∧ e'.2 = .group)) → (∀ e ∈ es, ∀ q, e.2 = .ref q → (t.at q).isSome) →
    (t.puts es).2 = true
  | [], _, _, _, _ => rfl
  | (p, n) :: l, t, h, hp, hr => by
    obtain ⟨h1, h2⟩ := List.pairwise_cons.mp hp
    have hput : ∃ t', t.put p n = some t' := by
      unfold Tree.put
      rcases h (p, n) (List.mem_cons_self ..) with h0 | ⟨rfl, h0⟩
      · simp only at h0
        rw [h0]
        cases n with
        | ref q => exact ⟨_, if_pos (hr (p, .ref q) (List.mem_cons_self ..) q rfl)⟩
        | _ => exact ⟨_, rfl⟩
      · simp only at h0
        rw [h0]; exact ⟨_, rfl⟩
    obtain ⟨t', ht⟩ := hput
    unfold Tree.puts
    rw [ht]
    refine Tree.puts_fresh l (fun e he => ?_) h2 (fun e he q hq => ?_)
    · rcases h1 e he with hne | ⟨hn, he2⟩
      · rw [Tree.put_ne ht hne]; exact h e (List.mem_cons_of_mem _ he)
      · by_cases hpe : p = e.1
        · right
          refine ⟨he2, ?_⟩
          rw [← hpe, Tree.put_self ht]
          exact congrArg _ hn
        · rw [Tree.put_ne ht hpe]; exact h e (List.mem_cons_of_mem _ he)
    · obtain ⟨x, hx⟩ := Option.isSome_iff_exists.mp (hr e (List.mem_cons_of_mem _ he) q hq)
      rw [Tree.put_keep ht hx]; rfl

/-- Opening groups that exist succeeds and changes nothing. -/
theorem Tree.puts_open : ∀ (es : List (Path × H5Obj K)) {t : Tree K}, (∀ e ∈ es, e.2 = .group ∧ t.at e.1 = some .group) →
    t.puts es = (t, true)
  | [], _, _ => rfl
  | (p, n) :: l, t, h => by
    obtain ⟨h1, h2⟩ := h (p, n) (List.mem_cons_self ..)
    have : t.put p n = some t := by
      simp only at h1 h2
      rw [h1]
      unfold Tree.put
      rw [h2]
    unfold Tree.puts
    rw [this]
    exact Tree.puts_open l fun e he => h e (List.mem_cons_of_mem _ he)

theorem MatKind.params_nodup (k : MatKind K) : (k.params.map (·.1)).Nodup := by
  cases k <;> (simp only [MatKind.params, List.map_cons, List.map_nil]; decide)

theorem MatKind.params_data (k : MatKind K) : ∀ e ∈ k.params, e.2 ≠ .group ∧ ∀ q, e.2 ≠ .ref q := by
  cases k <;>
    (intro e he
     simp only [MatKind.params, List.mem_cons, List.not_mem_nil, or_false] at he
     rcases he with rfl | he
     · exact ⟨by simp, by simp⟩
     · rcases he with rfl | he
       · exact ⟨by simp, by simp⟩
       · rcases he with rfl | he
         · exact ⟨by simp, by simp⟩
         · first
           | (rcases he with rfl | rfl <;> exact ⟨by simp, by simp⟩)
           | (subst he; exact ⟨by simp, by simp⟩))

/-! ## Materials -/

/-- The first of the materials with a name. -/
def firstNamed (ms : List (Material K)) (n : String) : Option (Material K) := ms.find? (fun m => m.name == n)

/-- The file has the first material of each name that has been used, and nothing under the other names. -/
structure MatInv (t : Tree K) (mats : List String) (ms : List (Material K)) : Prop where
  top : t.at ["materials"] = none ∨ t.at ["materials"] = some .group
  free : ∀ n, n ∉ mats → ∀ l, t.at ("materials" :: n :: l) = none
  used : ∀ n, n ∈ mats ↔ ∃ m ∈ ms, m.name = n
  has : ∀ n m, firstNamed ms n = some m → ∀ e ∈ m.entries, t.at e.1 = some e.2

theorem firstNamed_some {ms : List (Material K)} {n : String} : (∃ m ∈ ms, m.name = n) ↔ ∃ m, firstNamed ms n = some m := by
  unfold firstNamed
  constructor
  · rintro ⟨m, hm, e⟩
    have : (ms.find? (fun m => m.name == n)).isSome := List.find?_isSome.mpr ⟨m, hm, by simpa using e⟩
    exact Option.isSome_iff_exists.mp this
  · rintro ⟨m, h⟩
    exact ⟨m, List.mem_of_find?_eq_some h, by simpa using List.find?_some h⟩

theorem MatInv.mono {t t' : Tree K} {mats : List String} {ms : List (Material K)} (h : MatInv t mats ms)
    (ht : ∀ l, t'.at ("materials" :: l) = t.at ("materials" :: l)) : MatInv t' mats ms where
  top := by rw [ht []]; exact h.top
  free n hn l := by rw [ht]; exact h.free n hn l
  used := h.used
  has n m hm e he := by
    obtain ⟨l, hl⟩ := m.entries_rooted e he
    rw [← h.has n m hm e he, hl]
    exact ht l

theorem Material.entries_fresh {t : Tree K} {mats : List String} {ms : List (Material K)} (h : MatInv t mats ms) (m : Material K)
    (hn : m.name ∉ mats) : (t.puts m.entries).2 = true := by
  apply Tree.puts_fresh
  · intro e he
    rcases Material.entries_path he with rfl | rfl | ⟨x, hx, rfl⟩
    · exact h.top.imp id fun h => ⟨rfl, h⟩
    · exact .inl (h.free _ hn [])
    · exact .inl (h.free _ hn [x.1])
  · unfold Material.entries Material.path
    refine List.pairwise_cons.mpr ⟨fun e he => .inl ?_, List.pairwise_cons.mpr ⟨fun e he => .inl ?_, ?_⟩⟩
    · rcases List.mem_cons.mp he with rfl | he
      · simp
      · obtain ⟨x, -, rfl⟩ := List.mem_map.mp he
        simp
    · obtain ⟨x, -, rfl⟩ := List.mem_map.mp he
      simp
    · rw [List.pairwise_map]
      have := m.kind.params_nodup
      unfold List.Nodup at this
      rw [List.pairwise_map] at this
      exact this.imp fun h => .inl (by simpa using h)
  · intro e he q hq
    rcases Material.entries_path he with rfl | rfl | ⟨x, hx, rfl⟩
    · cases hq
    · cases hq
    · exact absurd hq ((m.kind.params_data x hx).2 q)

/-- Writing a material whose name is new. -/
theorem MatInv.new {t : Tree K} {mats : List String} {ms : List (Material K)} (h : MatInv t mats ms) (m : Material K)
    (hn : m.name ∉ mats) : MatInv (t.puts m.entries).1 (mats ++ [m.name]) (ms ++ [m]) where
  top := by
    rcases h.top with h0 | h0
    · have := Tree.puts_mem m.entries (Material.entries_fresh h m hn) (["materials"], .group) (List.mem_cons_self ..)
      exact .inr this
    · exact .inr (Tree.puts_keep _ h0)
  free n hn' l := by
    simp only [List.mem_append, List.mem_singleton, not_or] at hn'
    rw [Tree.puts_ne, h.free n hn'.1 l]
    intro e he
    rcases Material.entries_path he with rfl | rfl | ⟨x, hx, rfl⟩ <;> simp <;> exact fun e => absurd e.symm hn'.2
  used n := by
    simp only [List.mem_append, List.mem_singleton, h.used n]
    constructor
    · rintro (⟨m', h1, h2⟩ | rfl)
      · exact ⟨m', .inl h1, h2⟩
      · exact ⟨m, .inr rfl, rfl⟩
    · rintro ⟨m', h1 | rfl, h2⟩
      · exact .inl ⟨m', h1, h2⟩
      · exact .inr h2.symm
  has n m' hm e he := by
    unfold firstNamed at hm
    rw [List.find?_append] at hm
    cases hf : ms.find? (fun m => m.name == n) with
    | some m1 =>
      rw [hf] at hm
      cases hm
      exact Tree.puts_keep _ (h.has n m' hf e he)
    | none =>
      rw [hf, Option.none_or] at hm
      have := List.mem_of_find?_eq_some hm
      rw [List.mem_singleton] at this
      subst this
      exact Tree.puts_mem _ (Material.entries_fresh h m' hn) e he

/-- A further object of a material whose name has been used. -/
theorem MatInv.again {t : Tree K} {mats : List String} {ms : List (Material K)} (h : MatInv t mats ms) (m : Material K)
    (hn : m.name ∈ mats) : MatInv t mats (ms ++ [m]) where
  top := h.top
  free := h.free
  used n := by
    rw [h.used n]
    constructor
    · rintro ⟨m', h1, h2⟩
      exact ⟨m', List.mem_append_left _ h1, h2⟩
    · rintro ⟨m', h1, h2⟩
      rcases List.mem_append.mp h1 with h1 | h1
      · exact ⟨m', h1, h2⟩
      · rw [List.mem_singleton] at h1
        subst h1
        rw [h2] at hn
        exact (h.used n).mp hn
  has n m' hm e he := by
    unfold firstNamed at hm
    rw [List.find?_append] at hm
    cases hf : ms.find? (fun m => m.name == n) with
    | some m1 =>
      rw [hf] at hm
      cases hm
      exact h.has n m' hf e he
    | none =>
      rw [hf, Option.none_or] at hm
      have h1 := List.mem_of_find?_eq_some hm
      rw [List.mem_singleton] at h1
      have h2 := List.find?_some hm
      simp only [beq_iff_eq] at h2
      rw [← h1, h2] at hn
      obtain ⟨m2, h3⟩ := firstNamed_some.mp ((h.used n).mp hn)
      unfold firstNamed at h3
      rw [h3] at hf
      cases hf

/-! ## Moving objects -/

/-- Each object that can move has its groups and its two series, and no two have the same group. -/
structure DynInv (t : Tree K) (objs : List (Object K)) (dyn : List Bool) : Prop where
  len : dyn.length = objs.length
  groups : ∀ (i : ℕ) (o : Object K), objs[i]? = some o → dyn[i]? = some true → ∀ e ∈ o.groups true, t.at e.1 = some .group
  pos : ∀ (i : ℕ) (o : Object K), objs[i]? = some o → dyn[i]? = some true → ∃ rows, t.at (o.path true ++ ["position"]) = some (.series rows)
  theta : ∀ (i : ℕ) (o : Object K), objs[i]? = some o → dyn[i]? = some true → ∃ rows, t.at (o.path true ++ ["theta"]) = some (.series rows)
  dist : ∀ (i j : ℕ) (o o' : Object K), objs[i]? = some o → objs[j]? = some o' → dyn[i]? = some true → dyn[j]? = some true → i ≠ j →
    o.path true ≠ o'.path true

theorem DynInv.mono {t t' : Tree K} {objs : List (Object K)} {dyn : List Bool} (h : DynInv t objs dyn)
    (ht : ∀ p n, t.at p = some n → ∃ n', t'.at p = some n' ∧ Extends n n') : DynInv t' objs dyn where
  len := h.len
  groups i o h1 h2 e he := by
    obtain ⟨n', h3, h4⟩ := ht _ _ (h.groups i o h1 h2 e he)
    cases h4; exact h3
  pos i o h1 h2 := by
    obtain ⟨rows, h3⟩ := h.pos i o h1 h2
    obtain ⟨n', h4, h5⟩ := ht _ _ h3
    cases h5 with
    | same => exact ⟨_, h4⟩
    | more _ new => exact ⟨_, h4⟩
  theta i o h1 h2 := by
    obtain ⟨rows, h3⟩ := h.theta i o h1 h2
    obtain ⟨n', h4, h5⟩ := ht _ _ h3
    cases h5 with
    | same => exact ⟨_, h4⟩
    | more _ new => exact ⟨_, h4⟩
  dist := h.dist

theorem Object.pose_path (o : Object K) (p : PoseOp K) (dyn : Bool) : (o.pose p).path dyn = o.path dyn := by cases p <;> rfl
theorem Object.pose_groups (o : Object K) (p : PoseOp K) (dyn : Bool) : (o.pose p).groups dyn = o.groups dyn := by cases p <;> rfl

theorem modify_pose {objs : List (Object K)} {k i : ℕ} {p : PoseOp K} {o : Object K}
    (h : (objs.modify k (fun o => o.pose p))[i]? = some o) :
    ∃ o', objs[i]? = some o' ∧ (∀ dyn, o.path dyn = o'.path dyn) ∧ ∀ dyn, o.groups dyn = o'.groups dyn := by
  rw [List.getElem?_modify] at h
  cases ho : objs[i]? with
  | none => rw [ho] at h; simp at h
  | some o' =>
    rw [ho] at h
    simp only [Option.map_eq_map, Option.map_some, Option.some.injEq] at h
    refine ⟨o', rfl, fun dyn => ?_, fun dyn => ?_⟩
    · rw [← h]; split
      · exact Object.pose_path ..
      · rfl
    · rw [← h]; split
      · exact Object.pose_groups ..
      · rfl

theorem DynInv.posed {t : Tree K} {objs : List (Object K)} {dyn : List Bool} (h : DynInv t objs dyn) (k : ℕ) (p : PoseOp K) :
    DynInv t (objs.modify k (fun o => o.pose p)) dyn where
  len := by rw [List.length_modify]; exact h.len
  groups i o h1 h2 := by
    obtain ⟨o', h3, h4, h5⟩ := modify_pose h1
    rw [h5]; exact h.groups i o' h3 h2
  pos i o h1 h2 := by
    obtain ⟨o', h3, h4, h5⟩ := modify_pose h1
    rw [h4]; exact h.pos i o' h3 h2
  theta i o h1 h2 := by
    obtain ⟨o', h3, h4, h5⟩ := modify_pose h1
    rw [h4]; exact h.theta i o' h3 h2
  dist i j o o' h1 h2 h3 h4 hij := by
    obtain ⟨o1, e1, e2, -⟩ := modify_pose h1
    obtain ⟨o2, e3, e4, -⟩ := modify_pose h2
    rw [e2, e4]; exact h.dist i j o1 o2 e1 e3 h3 h4 hij

/-- Writing succeeded, so a data set among the entries was not there. -/
theorem Tree.puts_absent {es : List (Path × H5Obj K)} {t : Tree K} {q : Path} {n : H5Obj K} (h : (t.puts es).2 = true) (hm : (q, n) ∈ es)
    (hn : n ≠ .group) : t.at q = none := by
  cases hq : t.at q with
  | none => rfl
  | some x =>
    have := Tree.puts_taken es (t := t) (by rw [hq]; rfl) hm hn
    rw [this] at h; cases h

theorem Object.entries_position (dyn : Bool) (o : Object K) :
    (o.path dyn ++ ["position"], if dyn then H5Obj.series [o.pos.list] else .nums o.pos.list) ∈ o.entries dyn := by
  unfold Object.entries
  refine List.mem_append_left _ (List.mem_append_left _ (List.mem_append_left _ (List.mem_append_right _ ?_)))
  exact List.mem_cons_self ..

theorem Object.entries_theta (dyn : Bool) (o : Object K) :
    (o.path dyn ++ ["theta"], if dyn then H5Obj.series [[o.theta]] else .nums [o.theta]) ∈ o.entries dyn := by
  unfold Object.entries
  refine List.mem_append_left _ (List.mem_append_left _ (List.mem_append_left _ (List.mem_append_right _ ?_)))
  exact List.mem_cons_of_mem _ (List.mem_cons_self ..)

theorem Object.groups_entries (dyn : Bool) (o : Object K) : ∀ e ∈ o.groups dyn, e ∈ o.entries dyn := fun e he => by
  unfold Object.entries
  exact List.mem_append_left _ (List.mem_append_left _ (List.mem_append_left _ (List.mem_append_left _ he)))

theorem Object.groups_group (dyn : Bool) (o : Object K) : ∀ e ∈ o.groups dyn, e.2 = .group := fun e he => by
  simp only [Object.groups, groups3, List.mem_cons, List.not_mem_nil, or_false] at he
  rcases he with rfl | rfl | rfl <;> rfl

theorem getElem?_snoc {α : Type} {l : List α} {a b : α} {i : ℕ} (h : (l ++ [a])[i]? = some b) :
    l[i]? = some b ∨ (i = l.length ∧ b = a) := by
  by_cases hi : i < l.length
  · rw [List.getElem?_append_left hi] at h; exact .inl h
  · rw [List.getElem?_append_right (by omega)] at h
    by_cases hz : i - l.length = 0
    · rw [hz] at h
      simp only [List.getElem?_cons_zero, Option.some.injEq] at h
      exact .inr ⟨by omega, h.symm⟩
    · obtain ⟨k, hk⟩ := Nat.exists_eq_succ_of_ne_zero hz
      rw [hk] at h; simp at h

/-- Adding an object. -/
theorem DynInv.push {t : Tree K} {objs : List (Object K)} {dyn : List Bool} (h : DynInv t objs dyn) (d : Bool) (o : Object K)
    (hw : (t.puts (o.entries d)).2 = true) : DynInv (t.puts (o.entries d)).1 (objs ++ [o]) (dyn ++ [d]) := by
  have hm := h.mono (t' := (t.puts (o.entries d)).1) (fun p n hp => ⟨n, Tree.puts_keep _ hp, .same n⟩)
  have old : ∀ {i : ℕ} {x : Object K}, (objs ++ [o])[i]? = some x → (dyn ++ [d])[i]? = some true →
      (objs[i]? = some x ∧ dyn[i]? = some true) ∨ (x = o ∧ d = true ∧ i = objs.length) := by
    intro i x h1 h2
    rcases getElem?_snoc h1 with h1 | ⟨rfl, rfl⟩
    · rcases getElem?_snoc h2 with h2 | ⟨rfl, -⟩
      · exact .inl ⟨h1, h2⟩
      · rw [h.len] at h1
        rw [List.getElem?_eq_none (by omega)] at h1; cases h1
    · rcases getElem?_snoc h2 with h2 | ⟨-, h2⟩
      · rw [← h.len, List.getElem?_eq_none (by omega)] at h2; cases h2
      · exact .inr ⟨rfl, h2.symm, rfl⟩
  refine ⟨by simp [h.len], ?_, ?_, ?_, ?_⟩
  · intro i x h1 h2
    rcases old h1 h2 with ⟨a, b⟩ | ⟨rfl, rfl, -⟩
    · exact hm.groups i x a b
    · intro e he
      rw [Tree.puts_mem _ hw e (Object.groups_entries true x e he), Object.groups_group true x e he]
  · intro i x h1 h2
    rcases old h1 h2 with ⟨a, b⟩ | ⟨rfl, rfl, -⟩
    · exact hm.pos i x a b
    · exact ⟨_, Tree.puts_mem _ hw _ (Object.entries_position true x)⟩
  · intro i x h1 h2
    rcases old h1 h2 with ⟨a, b⟩ | ⟨rfl, rfl, -⟩
    · exact hm.theta i x a b
    · exact ⟨_, Tree.puts_mem _ hw _ (Object.entries_theta true x)⟩
  · intro i j x x' h1 h2 h3 h4 hij
    have abs : d = true → t.at (o.path true ++ ["position"]) = none := fun e => by
      subst e; exact Tree.puts_absent hw (Object.entries_position true o) (by simp)
    rcases old h1 h3 with ⟨a, b⟩ | ⟨rfl, e, hi⟩
    · rcases old h2 h4 with ⟨a', b'⟩ | ⟨rfl, e, -⟩
      · exact h.dist i j x x' a a' b b' hij
      · intro hp
        obtain ⟨rows, hr⟩ := h.pos i x a b
        rw [hp, abs e] at hr; cases hr
    · rcases old h2 h4 with ⟨a', b'⟩ | ⟨rfl, -, hj⟩
      · intro hp
        obtain ⟨rows, hr⟩ := h.pos j x' a' b'
        rw [← hp, abs e] at hr; cases hr
      · exact absurd (hi.trans hj.symm) hij

/-! ## Calls -/

/-- The materials of the objects that a program adds, or tries to add. -/
def matsOf (cs : List (Call K)) : List (Material K) := (cs.filterMap added).map (·.mat)

theorem matsOf_append (a b : List (Call K)) : matsOf (a ++ b) = matsOf a ++ matsOf b := by
  unfold matsOf; rw [List.filterMap_append, List.map_append]

/-- Both. -/
structure FileInv (ms : List (Material K)) (w : World K) : Prop where
  mat : MatInv w.tree w.sim.mats ms
  dyn : DynInv w.tree w.sim.objs w.dyn

theorem World.addObject_inv {dyn : Bool} {o : Object K} {w : World K} {ms : List (Material K)} (h : FileInv ms w) :
    (w.addObject dyn o).Each (FileInv (ms ++ [o.mat])) := by
  unfold World.addObject
  dsimp only
  have key : ∀ w1 : World K, FileInv (ms ++ [o.mat]) w1 → (tryM (w1.sim.core.insertObject o) w1 fun c =>
      World.write { sim := { w1.sim with core := c }, dyn := w1.dyn, tree := w1.tree } (o.entries dyn)
        fun w => .ok { sim := { w.sim with objs := w.sim.objs ++ [o] }, dyn := w.dyn ++ [dyn], tree := w.tree }).Each
          (FileInv (ms ++ [o.mat])) := by
    intro w1 h1
    have hm : MatInv (w1.tree.puts (o.entries dyn)).1 w1.sim.mats (ms ++ [o.mat]) := h1.mat.mono fun l => by
      refine Tree.puts_ne _ fun e he hl => ?_
      obtain ⟨l', hl'⟩ := o.entries_rooted dyn e he
      rw [hl'] at hl
      cases dyn <;> exact absurd (List.cons.inj hl).1 (by decide)
    refine tryM_each h1 fun c _ => World.write_each (fun _ => ⟨hm, ?_⟩) (fun hw => ⟨hm, h1.dyn.push dyn o hw⟩)
    exact h1.dyn.mono fun p n hp => ⟨n, Tree.puts_keep _ hp, .same n⟩
  by_cases hn : o.mat.name ∈ w.sim.mats
  · have hc : w.sim.mats.contains o.mat.name = true := by simpa using hn
    simp only [hc, Bool.not_true, Bool.false_eq_true, if_false]
    refine World.write_each (fun e => by cases e) fun _ => key _ ⟨h.mat.again _ hn, h.dyn⟩
  · have hc : w.sim.mats.contains o.mat.name = false := by simpa using hn
    simp only [hc, Bool.not_false, if_true]
    refine World.write_each (fun e => ?_) fun _ => key _ ⟨h.mat.new _ hn, ?_⟩
    · simp only at e
      rw [Material.entries_fresh h.mat _ hn] at e; cases e
    · exact h.dyn.mono fun p n hp => ⟨n, Tree.puts_keep _ hp, .same n⟩

/-- The objects after a call that adds none. -/
def posed (objs : List (Object K)) : Call K → List (Object K)
  | .op (.pose k p) => objs.modify k (fun o => o.pose p)
  | _ => objs

/-- Which calls change the lists. -/
theorem Sim.writeField_lists {now : ℕ → ℝ} {C : Fields} (s : Sim K) :
    (s.writeField now C).Each fun s' => s'.mats = s.mats ∧ s'.objs = s.objs := by
  unfold Sim.writeField
  exact tryM_each ⟨rfl, rfl⟩ fun ck _ => tryM_each ⟨rfl, rfl⟩ fun F h => tryM_each ⟨rfl, rfl⟩ fun _ _ => ⟨rfl, rfl⟩

theorem Sim.step_lists (now : ℕ → ℝ) (s : Sim K) (op : Op K) (h1 : ∀ o, op ≠ .addObject o) :
    (s.step now op).Each fun s' => s'.mats = s.mats ∧ s'.objs = posed s.objs (.op op) := by
  cases op with
  | update =>
    change (s.update now).Each _
    unfold Sim.update
    refine tryM_each ⟨rfl, rfl⟩ fun _ _ => ?_
    refine tryM_each ⟨rfl, rfl⟩ fun _ _ => ?_
    refine tryM_each ⟨rfl, rfl⟩ fun _ _ => ?_
    refine tryM_each ⟨rfl, rfl⟩ fun _ _ => ?_
    refine tryM_each ⟨rfl, rfl⟩ fun _ _ => ?_
    refine tryM_each ⟨rfl, rfl⟩ fun _ _ => ?_
    refine tryM_each ⟨rfl, rfl⟩ fun _ _ => ?_
    refine tryM_each ⟨rfl, rfl⟩ fun _ _ => ?_
    refine tryM_each ⟨rfl, rfl⟩ fun _ _ => ?_
    refine tryM_each ⟨rfl, rfl⟩ fun _ _ => ?_
    exact tryM_each ⟨rfl, rfl⟩ fun q h => ⟨rfl, rfl⟩
  | addObject o => exact absurd rfl (h1 o)
  | addSource => exact ⟨rfl, rfl⟩
  | addMonitor => exact tryM_each ⟨rfl, rfl⟩ fun _ _ => ⟨rfl, rfl⟩
  | addTimeMonitor m => exact tryM_each ⟨rfl, rfl⟩ fun _ _ => ⟨rfl, rfl⟩
  | clearFields => exact ⟨rfl, rfl⟩
  | clearMaterials => exact tryM_each ⟨rfl, rfl⟩ fun _ _ => ⟨rfl, rfl⟩
  | updateMaterialGrid => exact tryM_each ⟨rfl, rfl⟩ fun _ _ => ⟨rfl, rfl⟩
  | removeMonitors => exact ⟨rfl, rfl⟩
  | setTfsf => exact ⟨rfl, rfl⟩
  | writeField C => exact s.writeField_lists
  | writeE => exact s.writeField_lists
  | writeH =>
    have h1 := s.writeField_lists (now := now) (C := .Hx)
    change ((s.writeField now .Hx).andThen _).Each _
    cases hs : s.writeField now .Hx with
    | ok s1 =>
      rw [hs] at h1
      exact Res.Each.mono (fun s' h => ⟨h.1.trans h1.1, h.2.trans h1.2⟩) s1.writeField_lists
    | threw m s1 => rw [hs] at h1; exact h1
    | ub u => trivial
  | writeMonitor => exact tryM_each ⟨rfl, rfl⟩ fun _ _ => tryM_each ⟨rfl, rfl⟩ fun _ _ => ⟨rfl, rfl⟩
  | pose => exact ⟨rfl, rfl⟩
  | writeTimeMonitor i =>
    unfold Sim.step
    dsimp only
    split
    · exact ⟨rfl, rfl⟩
    · exact tryM_each ⟨rfl, rfl⟩ fun q h => ⟨rfl, rfl⟩
  | subtract i o =>
    unfold Sim.step
    dsimp only
    split
    · exact ⟨rfl, rfl⟩
    · exact tryM_each ⟨rfl, rfl⟩ fun _ _ => ⟨rfl, rfl⟩

/-- The lists after a call that adds no object. -/
def Lists (c : Call K) (w w' : World K) : Prop := w'.sim.mats = w.sim.mats ∧ w'.dyn = w.dyn ∧ w'.sim.objs = posed w.sim.objs c

theorem World.lift_lists {now : ℕ → ℝ} (w : World K) (op : Op K) (h1 : ∀ o, op ≠ .addObject o) :
    (w.lift (w.sim.step now op)).Each (Lists (.op op) w) := by
  have h := Sim.step_lists now w.sim op h1
  have key : ∀ s' : Sim K, (s'.mats = w.sim.mats ∧ s'.objs = posed w.sim.objs (.op op)) →
      Lists (.op op) w { w with sim := s' } := by
    rintro s' ⟨h1, h2⟩
    exact ⟨h1, rfl, h2⟩
  cases hs : w.sim.step now op with
  | ok s => rw [hs] at h; exact key s h
  | threw m s => rw [hs] at h; exact key s h
  | ub u => trivial

theorem World.step_lists (now : ℕ → ℝ) (w : World K) (c : Call K) (h1 : added c = none) : (w.step now c).Each (Lists c w) := by
  have wr : ∀ {w1 : World K} {es : List (Path × H5Obj K)} {k : World K → Res (World K)}, Lists c w w1 →
      (∀ w2 : World K, Lists c w w2 → (k w2).Each (Lists c w)) → (w1.write es k).Each (Lists c w) :=
    fun h0 h => World.write_each (fun _ => h0) (fun _ => h _ h0)
  cases c with
  | op o =>
    cases o with
    | addObject o => cases h1
    | addSource x => unfold World.step; exact wr ⟨rfl, rfl, rfl⟩ fun w2 h => h
    | addMonitor m => exact tryM_each ⟨rfl, rfl, rfl⟩ fun m _ => wr ⟨rfl, rfl, rfl⟩ fun w2 h => h
    | setTfsf vol tp => exact wr ⟨rfl, rfl, rfl⟩ fun w2 h => h
    | _ => unfold World.step; exact w.lift_lists _ (by simp)
  | addDynamic o => cases h1
  | writeCurrent i =>
    unfold World.step
    dsimp only
    split
    · exact wr ⟨rfl, rfl, rfl⟩ fun w2 h => World.append_each (fun _ => h) fun t _ => World.append_each (fun _ => h) fun t _ => h
    · exact ⟨rfl, rfl, rfl⟩
  | writeSpectra i =>
    unfold World.step
    dsimp only
    split
    · exact ⟨rfl, rfl, rfl⟩
    · exact wr ⟨rfl, rfl, rfl⟩ fun w2 h => h
  | report i r =>
    unfold World.step
    dsimp only
    split
    · exact ⟨rfl, rfl, rfl⟩
    · split
      · exact ⟨rfl, rfl, rfl⟩
      · exact tryM_each ⟨rfl, rfl, rfl⟩ fun v _ => wr ⟨rfl, rfl, rfl⟩ fun w2 h => h
  | tfsfFlux =>
    unfold World.step
    dsimp only
    split
    · exact ⟨rfl, rfl, rfl⟩
    · exact tryM_each ⟨rfl, rfl, rfl⟩ fun v _ => wr ⟨rfl, rfl, rfl⟩ fun w2 h => h

theorem Res.Each.and {σ : Type} {P Q : σ → Prop} : ∀ {r : Res σ}, r.Each P → r.Each Q → r.Each fun s => P s ∧ Q s
  | .ok _, h, h' => ⟨h, h'⟩
  | .threw _ _, h, h' => ⟨h, h'⟩
  | .ub _, _, _ => trivial

theorem matsOf_none {c : Call K} (h : added c = none) : matsOf [c] = [] := by
  unfold matsOf; simp [h]

theorem materials_off {c : Call K} (h : added c = none) (l : Path) : Off c.roots ("materials" :: l) := by
  intro r hr l' e
  cases e
  cases c with
  | op o => cases o <;> simp [Call.roots, added] at hr h
  | addDynamic => cases h
  | _ => simp [Call.roots] at hr

theorem World.step_inv (now : ℕ → ℝ) (c : Call K) {w : World K} {ms : List (Material K)} (h : FileInv ms w) :
    (w.step now c).Each (FileInv (ms ++ matsOf [c])) := by
  cases hc : added c with
  | some o =>
    have e : matsOf [c] = [o.mat] := by unfold matsOf; simp [hc]
    rw [e]
    cases c with
    | op x =>
      cases x with
      | addObject o' => cases hc; exact World.addObject_inv (dyn := false) h
      | _ => cases hc
    | addDynamic o' => cases hc; exact World.addObject_inv (dyn := true) h
    | _ => cases hc
  | none =>
    rw [matsOf_none hc, List.append_nil]
    refine Res.Each.mono ?_ ((w.step_kept now c).and ((w.step_off now c).and (w.step_lists now c hc)))
    rintro w' ⟨h1, h2, h3, h4, h5⟩
    refine ⟨?_, ?_⟩
    · rw [h3]
      exact h.mat.mono fun l => h2 _ (materials_off hc l)
    · rw [h4, h5]
      have := h.dyn.mono h1.tree
      unfold posed
      split
      · exact this.posed _ _
      · exact this

theorem World.run_inv {now : ℕ → ℝ} : ∀ {cs : List (Call K)} {w w' : World K} {ms : List (Material K)}, FileInv ms w →
    w.run now cs = .ok w' → FileInv (ms ++ matsOf cs) w'
  | [], w, w', ms, h, e => by cases e; simpa [matsOf] using h
  | c :: l, w, w', ms, h, e => by
    have h1 := World.step_inv now c h
    have e1 : ms ++ matsOf (c :: l) = (ms ++ matsOf [c]) ++ matsOf l := by
      rw [List.append_assoc, ← matsOf_append]; rfl
    rw [e1]
    unfold World.run at e
    cases hs : w.step now c with
    | ok w1 => rw [hs] at h1 e; exact World.run_inv h1 e
    | threw m w1 => rw [hs] at h1 e; exact World.run_inv h1 e
    | ub u => rw [hs] at e; cases e

theorem World.make_inv {now : ℕ → ℝ} {g : Grid K} {fn : String} {w : World K} (h : World.make now g fn = .ok w) : FileInv [] w := by
  unfold World.make at h
  obtain ⟨s, hs, h⟩ := (Except.bind_ok ..).mp h
  unfold Sim.make at hs
  obtain ⟨ck, -, hs⟩ := (Except.bind_ok ..).mp hs
  obtain ⟨c, -, hs⟩ := (Except.bind_ok ..).mp hs
  split at hs
  · cases hs
  · cases hs
    dsimp only at h
    split at h
    · cases h
      have hg : Rooted "grid" g.entries := .cons (.cons (.cons (.cons (.cons (.cons (.cons (.cons (.cons .nil))))))))
      have hn : ∀ l, (Tree.puts [] g.entries).1.at ("materials" :: l) = none := fun l => by
        rw [Tree.puts_ne _ fun e he hl => ?_]
        · rfl
        · obtain ⟨l', hl'⟩ := hg e he
          rw [hl'] at hl; exact absurd (List.cons.inj hl).1 (by decide)
      refine ⟨⟨.inl (hn []), fun n _ l => hn _, fun n => by simp, fun n m hm => by cases hm⟩, ⟨rfl, ?_, ?_, ?_, ?_⟩⟩
      · intro i o h1; simp at h1
      · intro i o h1; simp at h1
      · intro i o h1; simp at h1
      · intro i j o o' h1; simp at h1
    · cases h

end Qbox
