import Verif.Lemmas.FileInv

/-! # Programs without two things of one name have no failing HDF5 call -/

namespace Qbox
open Scalar Spec

set_option linter.unusedSectionVars false

variable {K : Type} [Scalar K]

/-- A group made for an object, a source, a monitor or the incident wave. -/
def IsClaim (p : Path) : Prop :=
  (p.length = 3 ∧ p.take 2 ≠ ["sources", "tfsf"] ∧ ∀ l, p ≠ "materials" :: l) ∨ p = ["sources", "tfsf"]

theorem IsClaim.ne {p p' l l' : Path} (h : IsClaim p) (h' : IsClaim p') (hne : p ≠ p') : p ++ l ≠ p' ++ l' := by
  intro e
  rcases h with ⟨h1, h2, -⟩ | rfl
  · rcases h' with ⟨h3, h4, -⟩ | rfl
    · exact hne (List.append_inj_left e (h1.trans h3.symm))
    · apply h2
      have := congrArg (List.take 2) e
      rw [List.take_append_of_le_length (by omega)] at this
      simpa using this
  · rcases h' with ⟨h3, h4, -⟩ | rfl
    · apply h4
      have := congrArg (List.take 2) e
      rw [List.take_append_of_le_length (l₁ := p') (by omega)] at this
      simpa using this.symm
    · exact hne rfl

/-- Nothing is in the groups that will be made, and the groups above them are groups. -/
structure Clean (t : Tree K) (ps : List Path) : Prop where
  top : ∀ q : Path, q.length ≤ 2 → q ≠ ["sources", "tfsf"] → (∀ l, q ≠ "grid" :: l) → t.at q = none ∨ t.at q = some .group
  free : ∀ p ∈ ps, ∀ l, t.at (p ++ l) = none

/-- Entries for the groups `ps`. -/
structure Claimed (t : Tree K) (ps : List Path) (es : List (Path × H5Obj K)) : Prop where
  path : ∀ e ∈ es, (e.2 = .group ∧ e.1.length ≤ 2 ∧ e.1 ≠ ["sources", "tfsf"] ∧ ∀ l, e.1 ≠ "grid" :: l) ∨ ∃ p ∈ ps, ∃ l, e.1 = p ++ l
  pair : es.Pairwise (fun e e' => e.1 ≠ e'.1 ∨ (e.2 = .group ∧ e'.2 = .group))
  refs : ∀ e ∈ es, ∀ q, e.2 = .ref q → (t.at q).isSome

theorem Clean.puts {t : Tree K} {ps rest : List Path} {es : List (Path × H5Obj K)} (h : Clean t (ps ++ rest)) (hn : (ps ++ rest).Nodup)
    (hw : ∀ p ∈ ps ++ rest, IsClaim p) (he : Claimed t ps es) : (t.puts es).2 = true ∧ Clean (t.puts es).1 rest := by
  refine ⟨Tree.puts_fresh es (fun e hm => ?_) he.pair he.refs, ⟨fun q h1 h2 h3 => ?_, fun p' hp' l => ?_⟩⟩
  · rcases he.path e hm with ⟨h1, h2, h3, h4⟩ | ⟨p, hp, l, e'⟩
    · exact (h.top _ h2 h3 h4).imp id fun h => ⟨h1, h⟩
    · left; rw [e']; exact h.free p (List.mem_append_left _ hp) l
  · cases hq : (t.puts es).1.at q with
    | none => exact .inl rfl
    | some x =>
      right
      rcases Tree.puts_new es hq with h0 | ⟨-, h0⟩
      · rcases h.top q h1 h2 h3 with h4 | h4
        · rw [h4] at h0; cases h0
        · rw [h4] at h0; exact h0.symm
      · rcases he.path _ h0 with ⟨h4, -⟩ | ⟨p, hp, l, e'⟩
        · rw [← h4]
        · exfalso
          simp only at e'
          rcases hw p (List.mem_append_left _ hp) with ⟨h5, -⟩ | rfl
          · rw [e', List.length_append] at h1; omega
          · cases l with
            | nil => exact h2 e'
            | cons a l => rw [e'] at h1; simp at h1
  · rw [Tree.puts_ne es fun e hm e' => ?_]
    · exact h.free p' (List.mem_append_right _ hp') l
    · rcases he.path e hm with ⟨-, h2, h3, -⟩ | ⟨p, hp, l0, e2⟩
      · rcases hw p' (List.mem_append_right _ hp') with ⟨h5, -⟩ | rfl
        · rw [e', List.length_append] at h2; omega
        · cases l with
          | nil => exact h3 e'
          | cons a l => rw [e'] at h2; simp at h2
      · rw [e2] at e'
        refine IsClaim.ne (hw p (List.mem_append_left _ hp)) (hw p' (List.mem_append_right _ hp')) ?_ e'
        rintro rfl
        exact (List.disjoint_of_nodup_append hn) hp hp'

theorem Clean.mono {t t' : Tree K} {ps : List Path} (h : Clean t ps) (ht : ∀ q, t.at q = none ∨ t.at q = some .group → t'.at q = t.at q) :
    Clean t' ps where
  top q h1 h2 h3 := by rw [ht q (h.top q h1 h2 h3)]; exact h.top q h1 h2 h3
  free p hp l := by rw [ht _ (.inl (h.free p hp l))]; exact h.free p hp l

/-- Writing a material. -/
theorem Clean.mat {t : Tree K} {ps : List Path} (h : Clean t ps) (hw : ∀ p ∈ ps, IsClaim p) (m : Material K) :
    Clean (t.puts m.entries).1 ps where
  top q h1 h2 h3 := by
    cases hq : (t.puts m.entries).1.at q with
    | none => exact .inl rfl
    | some x =>
      right
      rcases Tree.puts_new _ hq with h0 | ⟨-, h0⟩
      · rcases h.top q h1 h2 h3 with h4 | h4
        · rw [h4] at h0; cases h0
        · rw [h4] at h0; exact h0.symm
      · rcases Material.entries_path h0 with e | e | ⟨y, -, e⟩
        · cases e; rfl
        · cases e; rfl
        · cases e; simp at h1
  free p hp l := by
    rw [Tree.puts_ne _ fun e he e' => ?_]
    · exact h.free p hp l
    · obtain ⟨l', hl⟩ := m.entries_rooted e he
      rw [hl] at e'
      rcases hw p hp with ⟨h1, -, h3⟩ | rfl
      · cases p with
        | nil => simp at h1
        | cons a p => exact h3 p (by rw [(List.cons.inj e').1])
      · exact absurd (List.cons.inj e').1 (by decide)

/-! ### The entries -/

theorem pairwise_groups3 (a b c : String) :
    (groups3 a b c : List (Path × H5Obj K)).Pairwise (fun e e' => e.1 ≠ e'.1 ∨ (e.2 = .group ∧ e'.2 = .group)) := by
  unfold groups3
  simp

/-- The relation in `Claimed.pair`. -/
abbrev Apart (e e' : Path × H5Obj K) : Prop := e.1 ≠ e'.1 ∨ (e.2 = .group ∧ e'.2 = .group)

theorem groups3_short {a b c : String} {e : Path × H5Obj K} (h : e ∈ groups3 a b c) : e.2 = .group ∧ e.1.length ≤ 3 := by
  simp only [groups3, List.mem_cons, List.not_mem_nil, or_false] at h
  rcases h with rfl | rfl | rfl <;> simp

theorem groups3_path {a b c : String} {e : Path × H5Obj K} (h : e ∈ groups3 a b c) (hs : [a, b] ≠ ["sources", "tfsf"]) (hg : a ≠ "grid") :
    (e.2 = .group ∧ e.1.length ≤ 2 ∧ e.1 ≠ ["sources", "tfsf"] ∧ ∀ l, e.1 ≠ "grid" :: l) ∨ ∃ l, e.1 = [a, b, c] ++ l := by
  simp only [groups3, List.mem_cons, List.not_mem_nil, or_false] at h
  rcases h with rfl | rfl | rfl
  · left
    exact ⟨rfl, by simp, by simp, fun l e => hg (List.cons.inj e).1⟩
  · left
    exact ⟨rfl, by simp, hs, fun l e => hg (List.cons.inj e).1⟩
  · right
    exact ⟨[], by simp⟩

/-- Opening the group, then data sets with different names in it, where the group may be opened again in between. -/
theorem pair_named {a b c : String} {es : List (String × H5Obj K)} (hn : (es.map (·.1)).Nodup) :
    (es.map fun e => ([a, b, c, e.1], e.2)).Pairwise Apart := by
  rw [List.pairwise_map]
  unfold List.Nodup at hn
  rw [List.pairwise_map] at hn
  exact hn.imp fun h => .inl (by simpa using h)

theorem groups3_apart {a b c : String} {es : List (String × H5Obj K)} {a' b' c' : String} :
    ∀ e ∈ (groups3 a b c : List (Path × H5Obj K)), ∀ e' ∈ es.map (fun e => ([a', b', c', e.1], e.2)), Apart e e' := by
  intro e he e' he'
  obtain ⟨x, -, rfl⟩ := List.mem_map.mp he'
  left
  intro h
  have := (groups3_short he).2
  rw [h] at this
  simp at this

theorem groups3_groups {a b c a' b' c' : String} :
    ∀ e ∈ (groups3 a b c : List (Path × H5Obj K)), ∀ e' ∈ (groups3 a' b' c' : List (Path × H5Obj K)), Apart e e' :=
  fun _ he _ he' => .inr ⟨(groups3_short he).1, (groups3_short he').1⟩

/-- A group with data sets, opened twice. -/
theorem claimed_twice {t : Tree K} {a b c : String} {x y : List (String × H5Obj K)} (hs : [a, b] ≠ ["sources", "tfsf"]) (hg : a ≠ "grid")
    (hn : ((x ++ y).map (·.1)).Nodup) (hr : ∀ e ∈ x ++ y, ∀ q, e.2 = .ref q → (t.at q).isSome) :
    Claimed t [[a, b, c]] (groups3 a b c ++ x.map (fun e => ([a, b, c, e.1], e.2)) ++ groups3 a b c ++
      y.map (fun e => ([a, b, c, e.1], e.2))) := by
  have hxy : ∀ e ∈ x.map (fun e => ([a, b, c, e.1], e.2)), ∀ e' ∈ y.map (fun e => ([a, b, c, e.1], e.2)), Apart e e' := by
    intro e he e' he'
    obtain ⟨u, hu, rfl⟩ := List.mem_map.mp he
    obtain ⟨v, hv, rfl⟩ := List.mem_map.mp he'
    left
    rw [List.map_append] at hn
    have := (List.disjoint_of_nodup_append hn) (List.mem_map_of_mem (f := (·.1)) hu)
    intro e
    simp only [List.cons.injEq, true_and, and_true] at e
    exact this (e ▸ List.mem_map_of_mem (f := (·.1)) hv)
  refine ⟨fun e he => ?_, ?_, fun e he q hq => ?_⟩
  · simp only [List.mem_append, or_assoc] at he
    have data : ∀ {z : List (String × H5Obj K)}, e ∈ z.map (fun e => ([a, b, c, e.1], e.2)) → ∃ l, e.1 = [a, b, c] ++ l := fun hz => by
      obtain ⟨u, -, rfl⟩ := List.mem_map.mp hz
      exact ⟨[u.1], rfl⟩
    rcases he with he | he | he | he
    · exact (groups3_path he hs hg).imp id fun h => ⟨_, List.mem_singleton.mpr rfl, h⟩
    · exact .inr ⟨_, List.mem_singleton.mpr rfl, data he⟩
    · exact (groups3_path he hs hg).imp id fun h => ⟨_, List.mem_singleton.mpr rfl, h⟩
    · exact .inr ⟨_, List.mem_singleton.mpr rfl, data he⟩
  · rw [List.map_append] at hn
    have hx := pair_named (a := a) (b := b) (c := c) (List.Nodup.of_append_left hn)
    have hy := pair_named (a := a) (b := b) (c := c) (List.Nodup.of_append_right hn)
    have sw : ∀ {e e' : Path × H5Obj K}, Apart e e' → Apart e' e := fun h => h.imp Ne.symm And.symm
    refine List.pairwise_append.mpr ⟨List.pairwise_append.mpr ⟨List.pairwise_append.mpr ⟨pairwise_groups3 .., hx, groups3_apart⟩,
      pairwise_groups3 .., fun e he e' he' => ?_⟩, hy, fun e he e' he' => ?_⟩
    · rcases List.mem_append.mp he with he | he
      · exact groups3_groups e he e' he'
      · exact sw (groups3_apart e' he' e he)
    · rcases List.mem_append.mp he with he | he
      · rcases List.mem_append.mp he with he | he
        · exact groups3_apart e he e' he'
        · exact hxy e he e' he'
      · exact groups3_apart e he e' he'
  · simp only [List.mem_append, or_assoc] at he
    have data : ∀ {z : List (String × H5Obj K)}, (∀ e ∈ z, e ∈ x ++ y) → e ∈ z.map (fun e => ([a, b, c, e.1], e.2)) → (t.at q).isSome := fun hz he => by
      obtain ⟨u, hu, rfl⟩ := List.mem_map.mp he
      exact hr u (hz u hu) q hq
    rcases he with he | he | he | he
    · rw [(groups3_short he).1] at hq; cases hq
    · exact data (fun e he => List.mem_append_left _ he) he
    · rw [(groups3_short he).1] at hq; cases hq
    · exact data (fun e he => List.mem_append_right _ he) he

/-- A group with data sets, opened once. -/
theorem claimed_once {t : Tree K} {a b c : String} {x : List (String × H5Obj K)} (hs : [a, b] ≠ ["sources", "tfsf"]) (hg : a ≠ "grid")
    (hn : (x.map (·.1)).Nodup) (hr : ∀ e ∈ x, ∀ q, e.2 ≠ .ref q) :
    Claimed t [[a, b, c]] (groups3 a b c ++ x.map (fun e => ([a, b, c, e.1], e.2))) := by
  refine ⟨fun e he => ?_, List.pairwise_append.mpr ⟨pairwise_groups3 .., pair_named hn, groups3_apart⟩, fun e he q hq => ?_⟩
  · rcases List.mem_append.mp he with he | he
    · exact (groups3_path he hs hg).imp id fun h => ⟨_, List.mem_singleton.mpr rfl, h⟩
    · obtain ⟨u, -, rfl⟩ := List.mem_map.mp he
      exact .inr ⟨_, List.mem_singleton.mpr rfl, [u.1], rfl⟩
  · rcases List.mem_append.mp he with he | he
    · rw [(groups3_short he).1] at hq; cases hq
    · obtain ⟨u, hu, rfl⟩ := List.mem_map.mp he
      exact absurd hq (hr u hu q)

theorem Object.entries_claimed {t : Tree K} {dyn : Bool} {o : Object K}
    (hp : ("position" :: "theta" :: "material" :: o.geom.params.map (·.1)).Nodup) (hm : (t.at o.mat.path).isSome) :
    Claimed t [objectGroup dyn o] (o.entries dyn) := by
  have e : o.entries dyn = groups3 (objRoot dyn) o.geom.group o.name ++
      (("position", if dyn then H5Obj.series [o.pos.list] else .nums o.pos.list) ::
        ("theta", if dyn then H5Obj.series [[o.theta]] else .nums [o.theta]) :: o.geom.params.map (fun e => (e.1, H5Obj.nums e.2))).map
        (fun e => ([objRoot dyn, o.geom.group, o.name, e.1], e.2)) ++ groups3 (objRoot dyn) o.geom.group o.name ++
      [("material", H5Obj.ref o.mat.path)].map (fun e => ([objRoot dyn, o.geom.group, o.name, e.1], e.2)) := by
    unfold Object.entries Object.groups Object.path objRoot
    simp [List.append_assoc]
  rw [e]
  refine claimed_twice (by cases dyn <;> simp [objRoot]) (by cases dyn <;> simp [objRoot]) ?_ ?_
  · simp only [List.map_append, List.map_cons, List.map_map, Function.comp_def, List.map_nil]
    simp only [List.nodup_cons, List.mem_cons, not_or, List.cons_append, List.mem_append, List.not_mem_nil, or_false] at hp ⊢
    refine ⟨⟨hp.1.1, hp.1.2.2, hp.1.2.1⟩, ⟨hp.2.1.2, hp.2.1.1⟩, ?_⟩
    rw [List.nodup_append]
    refine ⟨hp.2.2.2, by simp, fun a ha b hb => ?_⟩
    rw [List.mem_singleton] at hb
    rintro rfl
    rw [hb] at ha
    exact hp.2.2.1 ha
  · intro e he q hq
    simp only [List.cons_append, List.mem_cons, List.mem_append, List.mem_map, List.not_mem_nil, or_false] at he
    rcases he with rfl | rfl | ⟨x, -, rfl⟩ | rfl
    · dsimp only at hq; split at hq <;> cases hq
    · dsimp only at hq; split at hq <;> cases hq
    · cases hq
    · cases hq; exact hm

theorem Source.entries_claimed {t : Tree K} {s : Source K} (hp : ("position" :: "p1" :: "p2" :: "sign" :: s.tp.params.map (·.1)).Nodup) :
    Claimed t [s.path] s.entries := by
  have key : ∀ y : List (String × H5Obj K), (y.map (·.1) = ["position"] ∨ y.map (·.1) = ["p1", "p2", "sign"]) →
      (∀ e ∈ y, ∀ q, e.2 ≠ .ref q) → Claimed t [s.path] (groups3 "sources" s.kind.sub s.name ++
        (s.tp.params.map (fun e => (e.1, H5Obj.nums [e.2]))).map (fun e => (["sources", s.kind.sub, s.name, e.1], e.2)) ++
        groups3 "sources" s.kind.sub s.name ++ y.map (fun e => (["sources", s.kind.sub, s.name, e.1], e.2))) := by
    intro y hy hr
    refine claimed_twice ?_ (by simp) ?_ ?_
    · cases s.kind <;> simp [SrcKind.sub]
    · rw [List.map_append, List.map_map]
      simp only [List.nodup_cons, List.mem_cons, not_or] at hp
      obtain ⟨⟨-, -, -, h1⟩, ⟨⟨-, -, h2⟩, ⟨⟨-, h3⟩, ⟨h4, h5⟩⟩⟩⟩ := hp
      have hc : ((fun x => x.1) ∘ fun (e : String × K) => (e.1, H5Obj.nums [e.2])) = fun (e : String × K) => e.1 := rfl
      rw [hc, List.nodup_append]
      refine ⟨h5, ?_, fun a ha b hb => ?_⟩
      · rcases hy with hy | hy <;> rw [hy] <;> decide
      · rintro rfl
        rcases hy with hy | hy <;> rw [hy] at hb <;> simp only [List.mem_cons, List.not_mem_nil, or_false] at hb
        · subst hb; exact h1 ha
        · rcases hb with rfl | rfl | rfl
          · exact h2 ha
          · exact h3 ha
          · exact h4 ha
    · intro e he q hq
      rcases List.mem_append.mp he with he | he
      · obtain ⟨u, -, rfl⟩ := List.mem_map.mp he
        cases hq
      · exact absurd hq (hr e he q)
  unfold Source.entries Source.path
  rw [List.map_map] at key
  cases hk : s.kind with
  | point C p =>
    have := key [("position", .nums p.list)] (.inl rfl) (by simp)
    rw [hk] at this
    unfold Source.path at this
    rw [hk] at this
    exact this
  | line C f =>
    have := key [("p1", .nums f.a.list), ("p2", .nums f.b.list), ("sign", .ints [f.sg.toInt])] (.inr rfl) (by simp)
    unfold Source.path at this
    rw [hk] at this
    exact this

theorem tfsfEntries_claimed {t : Tree K} (vol : Vol K) (tp : TimeProfile K) : Claimed t [["sources", "tfsf"]] (tfsfEntries vol tp) := by
  unfold tfsfEntries Vol.entries
  refine ⟨fun e he => ?_, ?_, fun e he q hq => ?_⟩
  · cases hd : tp.dft with
    | none =>
      simp only [hd, List.append_nil, List.mem_append, List.mem_cons, List.not_mem_nil, or_false] at he
      rcases he with (rfl | rfl) | (rfl | rfl)
      · left; exact ⟨rfl, by simp, by simp, by simp⟩
      · right; exact ⟨_, List.mem_singleton.mpr rfl, [], rfl⟩
      · right; exact ⟨_, List.mem_singleton.mpr rfl, _, rfl⟩
      · right; exact ⟨_, List.mem_singleton.mpr rfl, _, rfl⟩
    | some d =>
      simp only [hd, List.mem_append, List.mem_cons, List.not_mem_nil, or_false] at he
      rcases he with ((rfl | rfl) | (rfl | rfl)) | rfl
      · left; exact ⟨rfl, by simp, by simp, by simp⟩
      · right; exact ⟨_, List.mem_singleton.mpr rfl, [], rfl⟩
      · right; exact ⟨_, List.mem_singleton.mpr rfl, _, rfl⟩
      · right; exact ⟨_, List.mem_singleton.mpr rfl, _, rfl⟩
      · right; exact ⟨_, List.mem_singleton.mpr rfl, ["dft_frequency"], rfl⟩
  · cases tp.dft <;> simp
  · cases hd : tp.dft with
    | none =>
      simp only [hd, List.append_nil, List.mem_append, List.mem_cons, List.not_mem_nil, or_false] at he
      rcases he with (rfl | rfl) | (rfl | rfl) <;> cases hq
    | some d =>
      simp only [hd, List.mem_append, List.mem_cons, List.not_mem_nil, or_false] at he
      rcases he with ((rfl | rfl) | (rfl | rfl)) | rfl <;> cases hq

theorem SurfMon.entries_claimed {t : Tree K} (m : SurfMon K) : Claimed t [["monitors", "surface_monitor", m.name]] m.entries := by
  have := claimed_once (t := t) (a := "monitors") (b := "surface_monitor") (c := m.name)
    (x := [("p1", .nums m.surf.a.list), ("p2", .nums m.surf.b.list), ("sign", .ints [m.surf.sg.toInt]), ("dft_frequency", .nums m.fourier.freq)])
    (by simp) (by simp) (by simp only [List.map_cons, List.map_nil]; decide) (by simp)
  exact this

/-- Entries for one group after entries for others. -/
theorem Claimed.append {t : Tree K} {ps ps' : List Path} {es es' : List (Path × H5Obj K)} (h : Claimed t ps es) (h' : Claimed t ps' es')
    (hw : ∀ p ∈ ps ++ ps', IsClaim p) (hn : (ps ++ ps').Nodup) : Claimed t (ps ++ ps') (es ++ es') where
  path e he := by
    rcases List.mem_append.mp he with he | he
    · exact (h.path e he).imp id fun ⟨p, hp, l⟩ => ⟨p, List.mem_append_left _ hp, l⟩
    · exact (h'.path e he).imp id fun ⟨p, hp, l⟩ => ⟨p, List.mem_append_right _ hp, l⟩
  pair := by
    refine List.pairwise_append.mpr ⟨h.pair, h'.pair, fun e he e' he' => ?_⟩
    have far : ∀ {x : Path × H5Obj K} {q : Path} {qs : List Path}, (x.1.length ≤ 2 ∧ x.1 ≠ ["sources", "tfsf"]) → IsClaim q → ∀ l, x.1 ≠ q ++ l := by
      intro x q qs hx hq l e
      rcases hq with ⟨h5, -⟩ | rfl
      · rw [e, List.length_append] at hx; omega
      · cases l with
        | nil => exact hx.2 e
        | cons a l => have := hx.1; rw [e] at this; simp at this
    rcases h.path e he with ⟨h1, h2, h3, -⟩ | ⟨p, hp, l, e1⟩
    · rcases h'.path e' he' with ⟨h4, -⟩ | ⟨p', hp', l', e2⟩
      · exact .inr ⟨h1, h4⟩
      · left
        rw [e2]
        exact far (qs := []) ⟨h2, h3⟩ (hw p' (List.mem_append_right _ hp')) l'
    · rcases h'.path e' he' with ⟨h4, h5, h6, -⟩ | ⟨p', hp', l', e2⟩
      · left
        rw [e1]
        exact (far (qs := []) ⟨h5, h6⟩ (hw p (List.mem_append_left _ hp)) l).symm
      · left
        rw [e1, e2]
        refine IsClaim.ne (hw p (List.mem_append_left _ hp)) (hw p' (List.mem_append_right _ hp')) ?_
        rintro rfl
        exact (List.disjoint_of_nodup_append hn) hp hp'
  refs e he := by
    rcases List.mem_append.mp he with he | he
    · exact h.refs e he
    · exact h'.refs e he

theorem faces_claimed {t : Tree K} : ∀ l : List (SurfMon K), (l.map (fun f => ["monitors", "surface_monitor", f.name])).Nodup →
    Claimed t (l.map (fun f => ["monitors", "surface_monitor", f.name])) (l.flatMap SurfMon.entries)
  | [], _ => ⟨fun e he => by simp at he, .nil, fun e he => by simp at he⟩
  | f :: l, h => by
    have h2 := faces_claimed (t := t) l (List.nodup_cons.mp h).2
    have := f.entries_claimed (t := t) |>.append h2 (fun p hp => ?_) h
    · exact this
    · left
      rcases List.mem_append.mp hp with hp | hp
      · rw [List.mem_singleton] at hp; subst hp; simp
      · obtain ⟨u, -, rfl⟩ := List.mem_map.mp hp; simp

theorem claims_isClaim (c : Call K) : ∀ p ∈ claims c, IsClaim p := by
  intro p hp
  cases c with
  | op o =>
    cases o with
    | addObject o => rw [claims, List.mem_singleton] at hp; subst hp; left; simp [objectGroup]
    | addSource s =>
      rw [claims, List.mem_singleton] at hp
      subst hp; left
      cases s.kind <;> simp
    | addMonitor m =>
      cases m with
      | box m =>
        rw [claims] at hp
        left
        rcases List.mem_append.mp hp with hp | hp
        · obtain ⟨u, -, rfl⟩ := List.mem_map.mp hp; simp
        · rw [List.mem_singleton] at hp; subst hp; simp
      | _ => rw [claims, List.mem_singleton] at hp; subst hp; left; simp
    | setTfsf v t => rw [claims, List.mem_singleton] at hp; exact .inr hp
    | _ => simp [claims] at hp
  | addDynamic o => rw [claims, List.mem_singleton] at hp; subst hp; left; simp [objectGroup]
  | _ => simp [claims] at hp

theorem Monitor.entries_claimed {t : Tree K} (m : Monitor K) (hn : (claims (.op (.addMonitor m))).Nodup) :
    Claimed t (claims (.op (.addMonitor m))) m.entries := by
  cases m with
  | surf m => exact m.entries_claimed
  | box m =>
    have hc := claims_isClaim (.op (.addMonitor (.box m)))
    rw [claims] at hc hn ⊢
    have h1 := claimed_once (t := t) (a := "monitors") (b := "box_monitor") (c := m.name)
      (x := [("p1", .nums m.vol.a.list), ("p2", .nums m.vol.b.list), ("dft_frequency", .nums m.fourier.freq)])
      (by simp) (by simp) (by simp only [List.map_cons, List.map_nil]; decide) (by simp)
    have := (faces_claimed (t := t) m.faces (List.Nodup.of_append_left hn)).append h1 hc hn
    change Claimed t _ (m.faces.flatMap SurfMon.entries ++ (Monitor.box m).groups ++ m.vol.entries (Monitor.box m).path ++
      freqEntry (Monitor.box m).path m.fourier.freq)
    rw [List.append_assoc, List.append_assoc]
    exact this
  | vol m =>
    exact claimed_once (t := t) (a := "monitors") (b := "volume_monitor") (c := m.name)
      (x := [("p1", .nums m.vol.a.list), ("p2", .nums m.vol.b.list), ("dft_frequency", .nums m.fourier.freq)])
      (by simp) (by simp) (by simp only [List.map_cons, List.map_nil]; decide) (by simp)
  | point m =>
    exact claimed_once (t := t) (a := "monitors") (b := "point_monitor") (c := m.name)
      (x := [("position", .nums m.pos.list), ("dft_frequency", .nums m.fourier.freq)])
      (by simp) (by simp) (by simp only [List.map_cons, List.map_nil]; decide) (by simp)
  | cyl m =>
    exact claimed_once (t := t) (a := "monitors") (b := "cylinder_monitor") (c := m.name)
      (x := [("center", .nums m.surf.center.list), ("radius", .nums [m.surf.radius]), ("dft_frequency", .nums m.fourier.freq)])
      (by simp) (by simp) (by simp only [List.map_cons, List.map_nil]; decide) (by simp)

theorem mapM'_setF_names {g : Grid K} : ∀ {l l' : List (SurfMon K)}, mapM' (SurfMon.setF g) l = .ok l' → l'.map (·.name) = l.map (·.name)
  | [], l', h => by cases h; rfl
  | m :: l, l', h => by
    unfold mapM' at h
    obtain ⟨m1, h1, h⟩ := (Except.bind_ok ..).mp h
    obtain ⟨l1, h2, h⟩ := (Except.bind_ok ..).mp h
    cases h
    unfold SurfMon.setF at h1
    obtain ⟨is, -, h1⟩ := (Except.bind_ok ..).mp h1
    cases h1
    simp only [List.map_cons, mapM'_setF_names h2]

theorem Monitor.setF_claims {g : Grid K} {m m' : Monitor K} (h : m.setF g = .ok m') :
    claims (.op (.addMonitor m')) = claims (.op (.addMonitor m)) := by
  cases m with
  | surf m =>
    obtain ⟨m1, h1, h⟩ := (Except.bind_ok ..).mp h
    cases h
    unfold SurfMon.setF at h1
    obtain ⟨is, -, h1⟩ := (Except.bind_ok ..).mp h1
    cases h1; rfl
  | box m =>
    obtain ⟨m1, h1, h⟩ := (Except.bind_ok ..).mp h
    cases h
    unfold BoxMon.setF at h1
    obtain ⟨l, h2, h1⟩ := (Except.bind_ok ..).mp h1
    cases h1
    have := congrArg (List.map fun n => ["monitors", "surface_monitor", n]) (mapM'_setF_names h2)
    simp only [List.map_map, Function.comp_def] at this
    simp only [claims, this]
  | vol m => cases h; rfl
  | point m => cases h; rfl
  | cyl m => cases h; rfl

/-! ### Calls -/

theorem World.write_clean {w : World K} {ps rest : List Path} {es : List (Path × H5Obj K)} {k : World K → Res (World K)}
    (h : Clean w.tree (ps ++ rest)) (hn : (ps ++ rest).Nodup) (hw : ∀ p ∈ ps ++ rest, IsClaim p) (he : Claimed w.tree ps es) :
    w.write es k = k { w with tree := (w.tree.puts es).1 } ∧ Clean (w.tree.puts es).1 rest := by
  obtain ⟨h1, h2⟩ := h.puts hn hw he
  refine ⟨?_, h2⟩
  unfold World.write
  dsimp only
  rw [if_pos h1]

theorem World.addObject_clean {now : ℕ → ℝ} {dyn : Bool} {o : Object K} {w : World K} {s : Sim K} {ms : List (Material K)} {rest : List Path}
    (hi : FileInv ms w) (h : Clean w.tree ([objectGroup dyn o] ++ rest)) (hn : ([objectGroup dyn o] ++ rest).Nodup)
    (hw : ∀ p ∈ [objectGroup dyn o] ++ rest, IsClaim p) (hp : ("position" :: "theta" :: "material" :: o.geom.params.map (·.1)).Nodup)
    (hs : w.sim.step now (.addObject o) = .ok s) : ∃ w', w.addObject dyn o = .ok w' ∧ w'.sim = s ∧ Clean w'.tree rest := by
  unfold Sim.step at hs
  dsimp only at hs
  unfold World.addObject
  dsimp only
  by_cases hm : o.mat.name ∈ w.sim.mats
  · have hc : w.sim.mats.contains o.mat.name = true := by simpa using hm
    simp only [hc, Bool.not_true, Bool.false_eq_true, if_false]
    rw [if_pos hm] at hs
    obtain ⟨c, h1, hs⟩ := tryM_ok hs
    cases hs
    obtain ⟨m, hf⟩ := firstNamed_some.mp ((hi.mat.used _).mp hm)
    have hname : m.name = o.mat.name := by
      unfold firstNamed at hf
      simpa using List.find?_some hf
    have href : (w.tree.at o.mat.path).isSome := by
      have := hi.mat.has _ m hf (m.path, .group) (List.mem_cons_of_mem _ (List.mem_cons_self ..))
      unfold Material.path at this ⊢
      rw [hname] at this
      rw [this]; rfl
    obtain ⟨e1, e2⟩ := World.write_clean (w := { w with sim := { w.sim with core := c } }) (rest := rest)
      (k := fun w => .ok { w with sim := { w.sim with objs := w.sim.objs ++ [o] }, dyn := w.dyn ++ [dyn] })
      h hn hw (Object.entries_claimed (t := w.tree) (dyn := dyn) hp href)
    have hz : w.write [] (fun w => tryM (w.sim.core.insertObject o) w fun c =>
        World.write { sim := { w.sim with core := c }, dyn := w.dyn, tree := w.tree } (o.entries dyn)
          fun w => .ok { sim := { w.sim with objs := w.sim.objs ++ [o] }, dyn := w.dyn ++ [dyn], tree := w.tree }) =
        tryM (w.sim.core.insertObject o) w fun c =>
        World.write { sim := { w.sim with core := c }, dyn := w.dyn, tree := w.tree } (o.entries dyn)
          fun w => .ok { sim := { w.sim with objs := w.sim.objs ++ [o] }, dyn := w.dyn ++ [dyn], tree := w.tree } := rfl
    rw [hz, h1]
    exact ⟨_, e1, rfl, e2⟩
  · have hc : w.sim.mats.contains o.mat.name = false := by simpa using hm
    simp only [hc, Bool.not_false, if_true]
    rw [if_neg hm] at hs
    obtain ⟨c, h1, hs⟩ := tryM_ok hs
    cases hs
    have hfr := Material.entries_fresh hi.mat _ hm
    have href : ((w.tree.puts o.mat.entries).1.at o.mat.path).isSome := by
      rw [Tree.puts_mem _ hfr (o.mat.path, .group) (List.mem_cons_of_mem _ (List.mem_cons_self ..))]; rfl
    obtain ⟨e1, e2⟩ := World.write_clean (w := { sim := { w.sim with mats := w.sim.mats ++ [o.mat.name], core := c }, dyn := w.dyn, tree := (w.tree.puts o.mat.entries).1 }) (rest := rest)
      (k := fun w => .ok { w with sim := { w.sim with objs := w.sim.objs ++ [o] }, dyn := w.dyn ++ [dyn] })
      (h.mat hw o.mat) hn hw (Object.entries_claimed (t := (w.tree.puts o.mat.entries).1) (dyn := dyn) hp href)
    unfold World.write
    dsimp only
    rw [if_pos hfr, h1]
    exact ⟨_, e1, rfl, e2⟩

theorem World.writeCurrent_ok {w : World K} {i : ℕ} {o : Object K} (h : DynInv w.tree w.sim.objs w.dyn) (ho : w.sim.objs[i]? = some o)
    (hd : w.dyn[i]? = some true) : ∃ t, w.writeCurrent o = .ok { w with tree := t } ∧
      (∀ q, q ≠ o.path true ++ ["position"] → q ≠ o.path true ++ ["theta"] → t.at q = w.tree.at q) ∧
      (∃ rows, w.tree.at (o.path true ++ ["position"]) = some (.series rows) ∧
        t.at (o.path true ++ ["position"]) = some (.series (rows ++ [o.pos.list]))) ∧
      ∃ rows, w.tree.at (o.path true ++ ["theta"]) = some (.series rows) ∧ t.at (o.path true ++ ["theta"]) = some (.series (rows ++ [[o.theta]])) := by
  have hg := Tree.puts_open (o.groups true) (t := w.tree) fun e he => ⟨Object.groups_group true o e he, h.groups i o ho hd e he⟩
  obtain ⟨r1, h1⟩ := h.pos i o ho hd
  obtain ⟨r2, h2⟩ := h.theta i o ho hd
  have hne : o.path true ++ ["theta"] ≠ o.path true ++ ["position"] := by simp
  obtain ⟨t1, a1⟩ := Tree.append_some h1 o.pos.list
  obtain ⟨⟨r, b1, b2⟩, b3⟩ := Tree.append_ok a1
  rw [h1] at b1; cases b1
  have h2' : t1.at (o.path true ++ ["theta"]) = some (.series r2) := by rw [b3 _ hne, h2]
  obtain ⟨t2, a2⟩ := Tree.append_some h2' [o.theta]
  obtain ⟨⟨r, c1, c2⟩, c3⟩ := Tree.append_ok a2
  rw [h2'] at c1; cases c1
  refine ⟨t2, ?_, fun q hq1 hq2 => by rw [c3 q hq2, b3 q hq1], ⟨r1, h1, by rw [c3 _ hne.symm, b2]⟩, r2, h2, c2⟩
  unfold World.writeCurrent World.write
  dsimp only
  rw [hg, if_pos rfl]
  unfold World.append
  dsimp only
  rw [a1]
  dsimp only
  rw [a2]

theorem World.step_clean {now : ℕ → ℝ} {c : Call K} {w : World K} {s : Sim K} {ms : List (Material K)} {rest : List Path} (hi : FileInv ms w)
    (h : Clean w.tree (claims c ++ rest)) (hn : (claims c ++ rest).Nodup) (hw : ∀ p ∈ claims c ++ rest, IsClaim p) (hp : PlainNames c)
    (hr : NoResults c) (hs : w.sim.runOk now (simOps [c]) = .ok s) : ∃ w', w.step now c = .ok w' ∧ w'.sim = s ∧ Clean w'.tree rest := by
  have one : ∀ {op : Op K} {s s' : Sim K}, s.runOk now [op] = .ok s' → s.step now op = .ok s' := by
    intro op s s' hs
    rw [Sim.runOk] at hs
    cases e : s.step now op with
    | ok s1 => rw [e] at hs; cases hs; rfl
    | threw m s1 => rw [e] at hs; cases hs
    | ub u => rw [e] at hs; cases hs
  have lift : ∀ op : Op K, w.sim.step now op = .ok s → Clean w.tree rest →
      ∃ w', w.lift (w.sim.step now op) = .ok w' ∧ w'.sim = s ∧ Clean w'.tree rest := by
    intro op ho hcl
    rw [ho]
    exact ⟨_, rfl, rfl, hcl⟩
  cases c with
  | op o =>
    have hs := one hs
    cases o with
    | addObject o => exact World.addObject_clean (dyn := false) hi h hn hw hp hs
    | addSource x =>
      cases hs
      obtain ⟨e1, e2⟩ := World.write_clean (w := w) (rest := rest) (es := x.entries)
        (k := fun w => .ok { w with sim := { w.sim with srcs := w.sim.srcs ++ [x] } }) (ps := [x.path]) (by
          unfold Source.path SrcKind.sub
          exact h) (by unfold Source.path SrcKind.sub; exact hn) (by unfold Source.path SrcKind.sub; exact hw) (Source.entries_claimed hp)
      exact ⟨_, e1, rfl, e2⟩
    | addMonitor m =>
      obtain ⟨m', hm, hs⟩ := tryM_ok hs
      cases hs
      have hc := Monitor.setF_claims hm
      rw [← hc] at h hn hw
      obtain ⟨e1, e2⟩ := World.write_clean (w := w) (rest := rest) (es := m'.entries)
        (k := fun w => .ok { w with sim := { w.sim with mons := w.sim.mons ++ [m'] } }) h hn hw
          (Monitor.entries_claimed m' (List.Nodup.of_append_left hn))
      have e3 : w.step now (.op (.addMonitor m)) = .ok { sim := { w.sim with mons := w.sim.mons ++ [m'] }, dyn := w.dyn, tree := (w.tree.puts m'.entries).1 } := by
        unfold World.step
        dsimp only
        rw [hm]
        exact e1
      exact ⟨_, e3, rfl, e2⟩
    | setTfsf vol tp =>
      cases hs
      obtain ⟨e1, e2⟩ := World.write_clean (w := { w with sim := { w.sim with core := w.sim.core.setTfsf vol tp } }) (rest := rest)
        (es := tfsfEntries vol tp) (k := fun w => .ok w) h hn hw (tfsfEntries_claimed vol tp)
      exact ⟨_, e1, rfl, e2⟩
    | _ => unfold World.step; exact lift _ hs h
  | addDynamic o => exact World.addObject_clean (dyn := true) hi h hn hw hp (one hs)
  | writeCurrent i =>
    cases hs
    unfold World.step
    dsimp only
    split
    · next o ho hd =>
      obtain ⟨t, h1, h2, ⟨r1, h3, -⟩, r2, h4, -⟩ := World.writeCurrent_ok hi.dyn ho hd
      refine ⟨_, h1, rfl, ?_⟩
      refine Clean.mono (t := w.tree) h fun q hq => h2 q ?_ ?_
      · rintro rfl
        rw [h3] at hq; rcases hq with hq | hq <;> cases hq
      · rintro rfl
        rw [h4] at hq; rcases hq with hq | hq <;> cases hq
    · exact ⟨w, rfl, rfl, h⟩
  | writeSpectra => exact hr.elim
  | report => exact hr.elim
  | tfsfFlux => exact hr.elim

theorem World.runOk_clean {now : ℕ → ℝ} : ∀ {cs : List (Call K)} {w : World K} {s : Sim K} {ms : List (Material K)}, FileInv ms w →
    Clean w.tree (cs.flatMap claims) → DistinctNames cs → (∀ c ∈ cs, PlainNames c) → (∀ c ∈ cs, NoResults c) →
    w.sim.runOk now (simOps cs) = .ok s → ∃ w', w.runOk now cs = .ok w' ∧ w'.sim = s
  | [], w, s, ms, _, _, _, _, _, h => by cases h; exact ⟨w, rfl, rfl⟩
  | c :: l, w, s, ms, hi, hc, hn, hp, hr, h => by
    have e : simOps (c :: l) = simOps [c] ++ simOps l := Spec.simOps_append [c] l
    rw [e, Qbox.runOk_append] at h
    obtain ⟨s1, h1, h⟩ := (Except.bind_ok ..).mp h
    have hn' : (claims c ++ l.flatMap claims).Nodup := by
      unfold DistinctNames at hn; rw [List.flatMap_cons] at hn; exact hn
    rw [List.flatMap_cons] at hc
    obtain ⟨w1, e1, e2, e3⟩ := World.step_clean hi hc hn' (fun p hp => by
      rcases List.mem_append.mp hp with hp | hp
      · exact claims_isClaim c p hp
      · obtain ⟨c', -, hp⟩ := List.mem_flatMap.mp hp
        exact claims_isClaim c' p hp) (hp c (List.mem_cons_self ..)) (hr c (List.mem_cons_self ..)) h1
    have hi' := World.step_inv now c hi
    rw [e1] at hi'
    obtain ⟨w', e4, e5⟩ := World.runOk_clean (s := s) hi' e3 (List.Nodup.of_append_right hn')
      (fun c hc => hp c (List.mem_cons_of_mem _ hc)) (fun c hc => hr c (List.mem_cons_of_mem _ hc)) (by rw [e2]; exact h)
    refine ⟨w', ?_, e5⟩
    rw [World.runOk, e1]
    exact e4

theorem World.make_clean {now : ℕ → ℝ} {g : Grid K} {fn : String} {w : World K} (h : World.make now g fn = .ok w) {ps : List Path}
    (hw : ∀ p ∈ ps, IsClaim p) (hg : ∀ p ∈ ps, ∀ l, p ≠ "grid" :: l) : Clean w.tree ps := by
  unfold World.make at h
  obtain ⟨s, hs, h⟩ := (Except.bind_ok ..).mp h
  dsimp only at h
  split at h
  · cases h
    have hr : Rooted "grid" g.entries := .cons (.cons (.cons (.cons (.cons (.cons (.cons (.cons (.cons .nil))))))))
    have hn : ∀ q, (∀ l, q ≠ "grid" :: l) → (Tree.puts [] g.entries).1.at q = none := fun q hq => by
      rw [Tree.puts_ne _ fun e he hl => ?_]
      · rfl
      · obtain ⟨l', hl'⟩ := hr e he
        exact hq l' (hl.symm.trans hl')
    refine ⟨fun q _ _ h3 => .inl (hn q h3), fun p hp l => hn _ fun l' e => ?_⟩
    cases p with
    | nil => rcases hw [] hp with ⟨h1, -⟩ | h1 <;> cases h1
    | cons a p => exact hg _ hp p (by rw [(List.cons.inj e).1])
  · cases h

theorem claims_grid (c : Call K) : ∀ p ∈ claims c, ∀ l, p ≠ "grid" :: l := by
  intro p hp
  cases c with
  | op o =>
    cases o with
    | addObject o => rw [claims, List.mem_singleton] at hp; subst hp; simp [objectGroup]
    | addSource s => rw [claims, List.mem_singleton] at hp; subst hp; simp
    | addMonitor m =>
      cases m with
      | box m =>
        rw [claims] at hp
        rcases List.mem_append.mp hp with hp | hp
        · obtain ⟨u, -, rfl⟩ := List.mem_map.mp hp; simp
        · rw [List.mem_singleton] at hp; subst hp; simp
      | _ => rw [claims, List.mem_singleton] at hp; subst hp; simp
    | setTfsf v t => rw [claims, List.mem_singleton] at hp; subst hp; simp
    | _ => simp [claims] at hp
  | addDynamic o => rw [claims, List.mem_singleton] at hp; subst hp; simp [objectGroup]
  | _ => simp [claims] at hp

/-- Making the simulation makes the file. -/
theorem World.make_of {now : ℕ → ℝ} {g : Grid K} {fn : String} {s : Sim K} (h : Sim.make now g fn = .ok s) :
    ∃ w, World.make now g fn = .ok w ∧ w.sim = s := by
  have hp : (Tree.puts ([] : Tree K) g.entries).2 = true := by
    apply Tree.puts_fresh
    · intro e he; exact .inl rfl
    · unfold Grid.entries; simp
    · intro e he q hq
      simp only [Grid.entries, List.mem_cons, List.not_mem_nil, or_false] at he
      rcases he with rfl | rfl | rfl | rfl | rfl | rfl | rfl | rfl | rfl <;> cases hq
  refine ⟨⟨s, [], (Tree.puts [] g.entries).1⟩, ?_, rfl⟩
  unfold World.make
  rw [h, Except.ok_bind]
  dsimp only
  rw [if_pos hp]; rfl

theorem World.make_sim {now : ℕ → ℝ} {g : Grid K} {fn : String} {w : World K} (h : World.make now g fn = .ok w) :
    Sim.make now g fn = .ok w.sim := by
  unfold World.make at h
  obtain ⟨s, hs, h⟩ := (Except.bind_ok ..).mp h
  dsimp only at h
  split at h
  · cases h; exact hs
  · cases h

end Qbox
