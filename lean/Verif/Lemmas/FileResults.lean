import Verif.Lemmas.FileInv
import Verif.Lemmas.NoUB
import Verif.Lemmas.MonSafe
import Verif.Spec.ResultSpec

/-! # Which results the file has -/

namespace Qbox
open Scalar Spec

set_option linter.unusedSectionVars false

variable {K : Type} [Scalar K]

/-- The names of results. -/
def resultNames : List String := ["Ez", "Hx", "Hy", "Hp", "Hr", "flux", "force", "torque", "ntff_point", "ntff_sphere"]

/-- The groups of monitors and of the incident wave. -/
def TopPath (q : Path) : Prop := (∃ l, q = "monitors" :: l ∧ l.length ≤ 2) ∨ q = ["sources"] ∨ q = ["sources", "tfsf"]

/-- The paths of results. -/
def ValPath (q : Path) : Prop := (∃ a b x, q = ["monitors", a, b, x] ∧ x ∈ resultNames) ∨ q = ["sources", "tfsf", "flux"]

/-- An entry that fits: at the paths of groups there are groups, and a result has been written. -/
def Fitting (H : Path → Prop) (e : Path × H5Obj K) : Prop := (TopPath e.1 → e.2 = .group) ∧ (ValPath e.1 → H e.1)

theorem Fitting.root {H : Path → Prop} {r : String} {l : Path} {n : H5Obj K} (h1 : r ≠ "monitors") (h2 : r ≠ "sources") : Fitting H (r :: l, n) := by
  constructor
  · rintro (⟨k, e, -⟩ | e | e)
    · exact absurd (List.cons.inj e).1 h1
    · exact absurd (List.cons.inj e).1 h2
    · exact absurd (List.cons.inj e).1 h2
  · rintro (⟨a, b, x, e, -⟩ | e)
    · exact absurd (List.cons.inj e).1 h1
    · exact absurd (List.cons.inj e).1 h2

theorem Rooted.fitting {H : Path → Prop} {r : String} {es : List (Path × H5Obj K)} (h : Rooted r es) (h1 : r ≠ "monitors") (h2 : r ≠ "sources") :
    ∀ e ∈ es, Fitting H e := by
  rintro ⟨q, n⟩ he
  obtain ⟨l, rfl⟩ := h _ he
  exact .root h1 h2

theorem Fitting.source {H : Path → Prop} {a : String} {l : Path} {n : H5Obj K} (h : a ≠ "tfsf") : Fitting H ("sources" :: a :: l, n) := by
  constructor
  · rintro (⟨k, e, -⟩ | e | e)
    · exact absurd (List.cons.inj e).1 (by decide)
    · cases e
    · exact absurd (List.cons.inj (List.cons.inj e).2).1 h
  · rintro (⟨a, b, x, e, -⟩ | e)
    · exact absurd (List.cons.inj e).1 (by decide)
    · exact absurd (List.cons.inj (List.cons.inj e).2).1 h

theorem Fitting.group {H : Path → Prop} {q : Path} (h : ¬ ValPath q) : Fitting H (q, (.group : H5Obj K)) := ⟨fun _ => rfl, fun k => absurd k h⟩

theorem top_not_val {q : Path} (h : TopPath q) : ¬ ValPath q := by
  rintro (⟨a, b, x, rfl, -⟩ | rfl) <;> rcases h with ⟨l, e, hl⟩ | e | e
  · obtain rfl := (List.cons.inj e).2; simp at hl
  · exact absurd (List.cons.inj e).1 (by decide)
  · exact absurd (List.cons.inj e).1 (by decide)
  · exact absurd (List.cons.inj e).1 (by decide)
  · cases e
  · cases e

theorem Fitting.three {H : Path → Prop} {a b : String} : ∀ e ∈ (groups3 "monitors" a b : List (Path × H5Obj K)), Fitting H e := by
  intro e he
  simp only [groups3, List.mem_cons, List.not_mem_nil, or_false] at he
  rcases he with rfl | rfl | rfl <;> exact .group (top_not_val (.inl ⟨_, rfl, by simp⟩))

theorem Fitting.four {H : Path → Prop} {a b x : String} {n : H5Obj K} (h : x ∈ resultNames → H ["monitors", a, b, x]) :
    Fitting H (["monitors", a, b, x], n) := by
  constructor
  · rintro (⟨k, e, hl⟩ | e | e)
    · obtain rfl := (List.cons.inj e).2; simp at hl
    · exact absurd (List.cons.inj e).1 (by decide)
    · exact absurd (List.cons.inj e).1 (by decide)
  · rintro (⟨a', b', x', e, hx⟩ | e)
    · injection e with _ e
      injection e with _ e
      injection e with _ e
      injection e with e _
      exact h (e ▸ hx)
    · exact absurd (List.cons.inj e).1 (by decide)

theorem Fitting.incident {H : Path → Prop} {x : String} {n : H5Obj K} (h : x = "flux" → H ["sources", "tfsf", "flux"]) :
    Fitting H (["sources", "tfsf", x], n) := by
  constructor
  · rintro (⟨k, e, hl⟩ | e | e)
    · exact absurd (List.cons.inj e).1 (by decide)
    · cases e
    · cases e
  · rintro (⟨a', b', x', e, hx⟩ | e)
    · exact absurd (List.cons.inj e).1 (by decide)
    · injection e with _ e
      injection e with _ e
      injection e with e _
      subst e
      exact h rfl

theorem SurfMon.entries_fitting {H : Path → Prop} (m : SurfMon K) : ∀ e ∈ m.entries, Fitting H e := by
  intro e he
  unfold SurfMon.entries at he
  rcases List.mem_append.mp he with he | he
  · rcases List.mem_append.mp he with he | he
    · exact .three e he
    · simp only [Surf.entries, Monitor.path, List.cons_append, List.nil_append, List.mem_cons, List.not_mem_nil, or_false] at he
      rcases he with rfl | rfl | rfl <;> exact .four fun h => absurd h (by decide)
  · simp only [freqEntry, Monitor.path, List.cons_append, List.nil_append, List.mem_cons, List.not_mem_nil, or_false] at he
    subst he
    exact .four fun h => absurd h (by decide)

theorem Monitor.entries_fitting {H : Path → Prop} : ∀ (m : Monitor K), ∀ e ∈ m.entries, Fitting H e
  | .surf m => m.entries_fitting
  | .box m => by
    intro e he
    unfold Monitor.entries at he
    simp only [List.mem_append] at he
    rcases he with ((he | he) | he) | he
    · obtain ⟨x, -, hx⟩ := List.mem_flatMap.mp he
      exact x.entries_fitting e hx
    · exact .three e he
    · simp only [Vol.entries, Monitor.path, List.cons_append, List.nil_append, List.mem_cons, List.not_mem_nil, or_false] at he
      rcases he with rfl | rfl <;> exact .four fun h => absurd h (by decide)
    · simp only [freqEntry, Monitor.path, List.cons_append, List.nil_append, List.mem_cons, List.not_mem_nil, or_false] at he
      subst he
      exact .four fun h => absurd h (by decide)
  | .vol m => by
    intro e he
    unfold Monitor.entries at he
    simp only [List.mem_append] at he
    rcases he with (he | he) | he
    · exact .three e he
    · simp only [Vol.entries, Monitor.path, List.cons_append, List.nil_append, List.mem_cons, List.not_mem_nil, or_false] at he
      rcases he with rfl | rfl <;> exact .four fun h => absurd h (by decide)
    · simp only [freqEntry, Monitor.path, List.cons_append, List.nil_append, List.mem_cons, List.not_mem_nil, or_false] at he
      subst he
      exact .four fun h => absurd h (by decide)
  | .point m => by
    intro e he
    unfold Monitor.entries at he
    simp only [List.mem_append] at he
    rcases he with (he | he) | he
    · exact .three e he
    · simp only [Monitor.path, List.cons_append, List.nil_append, List.mem_cons, List.not_mem_nil, or_false] at he
      subst he
      exact .four fun h => absurd h (by decide)
    · simp only [freqEntry, Monitor.path, List.cons_append, List.nil_append, List.mem_cons, List.not_mem_nil, or_false] at he
      subst he
      exact .four fun h => absurd h (by decide)
  | .cyl m => by
    intro e he
    unfold Monitor.entries at he
    simp only [List.mem_append] at he
    rcases he with (he | he) | he
    · exact .three e he
    · simp only [Monitor.path, List.cons_append, List.nil_append, List.mem_cons, List.not_mem_nil, or_false] at he
      rcases he with rfl | rfl <;> exact .four fun h => absurd h (by decide)
    · simp only [freqEntry, Monitor.path, List.cons_append, List.nil_append, List.mem_cons, List.not_mem_nil, or_false] at he
      subst he
      exact .four fun h => absurd h (by decide)

theorem SrcKind.sub_ne (k : SrcKind K) : k.sub ≠ "tfsf" := by cases k <;> simp [SrcKind.sub]

theorem Source.entries_fitting {H : Path → Prop} (s : Source K) : ∀ e ∈ s.entries, Fitting H e := by
  have three : ∀ e ∈ (groups3 "sources" s.kind.sub s.name : List (Path × H5Obj K)), Fitting H e := by
    intro e he
    simp only [groups3, List.mem_cons, List.not_mem_nil, or_false] at he
    rcases he with rfl | rfl | rfl
    · exact .group (top_not_val (.inr (.inl rfl)))
    · exact .source s.kind.sub_ne
    · exact .source s.kind.sub_ne
  intro e he
  unfold Source.entries at he
  simp only [List.mem_append] at he
  rcases he with ((he | he) | he) | he
  · exact three e he
  · obtain ⟨x, -, rfl⟩ := List.mem_map.mp he
    exact .source s.kind.sub_ne
  · exact three e he
  · cases hk : s.kind with
    | point C p =>
      rw [hk] at he
      obtain rfl := List.mem_singleton.mp he
      exact .source s.kind.sub_ne
    | line C p =>
      rw [hk] at he
      simp only [Surf.entries, List.mem_cons, List.not_mem_nil, or_false] at he
      rcases he with rfl | rfl | rfl <;> exact .source s.kind.sub_ne

theorem tfsfEntries_fitting {H : Path → Prop} (vol : Vol K) (tp : TimeProfile K) : ∀ e ∈ tfsfEntries vol tp, Fitting H e := by
  intro e he
  unfold tfsfEntries at he
  simp only [List.mem_append] at he
  rcases he with (he | he) | he
  · simp only [List.mem_cons, List.not_mem_nil, or_false] at he
    rcases he with rfl | rfl
    · exact .group (top_not_val (.inr (.inl rfl)))
    · exact .group (top_not_val (.inr (.inr rfl)))
  · simp only [Vol.entries, List.cons_append, List.nil_append, List.mem_cons, List.not_mem_nil, or_false] at he
    rcases he with rfl | rfl <;> exact .incident fun h => absurd h (by decide)
  · cases ht : tp.dft with
    | none => rw [ht] at he; simp at he
    | some d =>
      rw [ht] at he
      obtain rfl := List.mem_singleton.mp he
      exact .incident fun h => absurd h (by decide)

/-! ## The recorded components -/

/-- The components have different names, all of them names of results. -/
def Monitor.Known (m : Monitor K) : Prop := (recorded m).Nodup ∧ ∀ x ∈ recorded m, x ∈ resultNames

theorem keys_of_layout {P : Type} {d d' : Dft K P} (h : d'.layout = d.layout) : d'.acc.map Prod.fst = d.acc.map Prod.fst := by
  have := congrArg (List.map Prod.fst) h
  unfold Dft.layout at this
  simpa [List.map_map, Function.comp_def] using this

theorem Monitor.update_recorded {g : Grid K} {f : Flds K} {t : K} {m m' : Monitor K} (h : m.update g f t = .ok m') : recorded m' = recorded m := by
  cases m with
  | surf m =>
    obtain ⟨m1, h1, h⟩ := (Except.bind_ok ..).mp h
    cases h
    unfold SurfMon.update at h1
    obtain ⟨is, -, h1⟩ := (Except.bind_ok ..).mp h1
    obtain ⟨d, h2, h1⟩ := (Except.bind_ok ..).mp h1
    cases h1; exact keys_of_layout (Dft.update_layout h2).1
  | box m =>
    obtain ⟨m1, h1, h⟩ := (Except.bind_ok ..).mp h
    cases h
    unfold BoxMon.update at h1
    obtain ⟨l, h2, h1⟩ := (Except.bind_ok ..).mp h1
    cases h1; rfl
  | vol m =>
    obtain ⟨m1, h1, h⟩ := (Except.bind_ok ..).mp h
    cases h
    unfold VolMon.update at h1
    obtain ⟨l, h2, h1⟩ := (Except.bind_ok ..).mp h1
    cases h1; exact keys_of_layout (Dft.update_layout h2).1
  | point m =>
    obtain ⟨m1, h1, h⟩ := (Except.bind_ok ..).mp h
    cases h
    unfold PointMon.update PointMon.updateWith at h1
    obtain ⟨l, h2, h1⟩ := (Except.bind_ok ..).mp h1
    cases h1; exact keys_of_layout (Dft.update_layout h2).1
  | cyl m =>
    obtain ⟨m1, h1, h⟩ := (Except.bind_ok ..).mp h
    cases h
    unfold CylMon.update at h1
    obtain ⟨l, h2, h1⟩ := (Except.bind_ok ..).mp h1
    cases h1; exact keys_of_layout (Dft.update_layout h2).1

theorem addAll_known {P : Type} {d : Dft K P} (hd : d.acc.map Prod.fst = []) (pos : List P) {names : List String} (h : names ∈ ([["Ez"], ["Hx"], ["Hy"], ["Ez", "Hx", "Hy"],
    ["Ez", "Hy"], ["Ez", "Hx"], ["Ez", "Hp", "Hr"], ["Ez", "Hp"], []] : List (List String))) :
    ((d.addAll pos names).acc.map Prod.fst).Nodup ∧ ∀ x ∈ (d.addAll pos names).acc.map Prod.fst, x ∈ resultNames := by
  have hd : d.acc = [] := List.map_eq_nil_iff.mp hd
  have s1 : ¬ ("Hx" < "Ez") := by decide
  have s2 : ¬ ("Hy" < "Ez") := by decide
  have s3 : ¬ ("Hp" < "Ez") := by decide
  have s4 : ¬ ("Hr" < "Ez") := by decide
  have s5 : ¬ ("Hy" < "Hx") := by decide
  have s6 : ¬ ("Hr" < "Hp") := by decide
  simp only [List.mem_cons, List.not_mem_nil, or_false] at h
  rcases h with rfl | rfl | rfl | rfl | rfl | rfl | rfl | rfl | rfl <;>
    simp [Dft.addAll, Dft.add, accAdd, hd, s1, s2, s3, s4, s5, s6, resultNames]

theorem Monitor.setF_known {g : Grid K} {m m' : Monitor K} (h : m.setF g = .ok m') (hm : recorded m = []) : m'.Known := by
  cases m with
  | surf m =>
    obtain ⟨m1, h1, h⟩ := (Except.bind_ok ..).mp h
    cases h
    unfold SurfMon.setF at h1
    obtain ⟨is, -, h1⟩ := (Except.bind_ok ..).mp h1
    cases h1
    refine addAll_known hm _ ?_
    cases m.tag
    case tangent => by_cases h : is.dim.x = 0 <;> simp [surfKeys, h]
    all_goals simp [surfKeys]
  | box m =>
    obtain ⟨m1, h1, h⟩ := (Except.bind_ok ..).mp h
    cases h
    unfold BoxMon.setF at h1
    obtain ⟨l, -, h1⟩ := (Except.bind_ok ..).mp h1
    cases h1
    have : recorded (Monitor.box { m with faces := l }) = [] := hm
    unfold Monitor.Known
    rw [this]
    simp
  | vol m =>
    cases h
    refine addAll_known hm _ ?_
    cases m.tag <;> simp [volKeys]
  | point m =>
    cases h
    refine addAll_known hm _ ?_
    cases m.tag <;> simp [volKeys]
  | cyl m =>
    cases h
    refine addAll_known hm _ ?_
    cases m.tag <;> simp [cylKeys]

theorem Monitor.subLeft_recorded (m o : Monitor K) : recorded (m.subLeft o) = recorded m := by
  cases m <;> cases o <;> first | rfl | exact keys_of_layout (Dft.subLeft_layout _ _)

theorem Monitor.sub_recorded {m o m' : Monitor K} (h : m.sub o = .ok m') : recorded m' = recorded m := by
  have key : ∀ {P : Type} [DecidableEq P] {d d' e : Dft K P}, d.sub e = .ok d' → d'.acc.map Prod.fst = d.acc.map Prod.fst :=
    fun h => keys_of_layout (Dft.sub_layout h)
  cases m <;> cases o <;> first
    | (cases h; rfl)
    | (obtain ⟨d, h1, h⟩ := (Except.bind_ok ..).mp h; cases h; exact key h1)
    | (obtain ⟨d, h1, h⟩ := (Except.bind_ok ..).mp h; cases h; unfold SurfMon.sub at h1; obtain ⟨d, h2, h1⟩ := (Except.bind_ok ..).mp h1; cases h1; exact key h2)
    | (obtain ⟨d, h1, h⟩ := (Except.bind_ok ..).mp h; cases h; unfold BoxMon.sub at h1; obtain ⟨d, h2, h1⟩ := (Except.bind_ok ..).mp h1; cases h1; rfl)

/-- All monitors of the simulation. -/
def Sim.Known (s : Sim K) : Prop := ∀ m ∈ s.mons, m.Known

theorem Monitor.Known.of {m m' : Monitor K} (h : m.Known) (e : recorded m' = recorded m) : m'.Known := by
  unfold Monitor.Known; rw [e]; exact h

theorem Sim.Known.set {s : Sim K} (h : s.Known) {i : ℕ} {m m' : Monitor K} (hm : s.mons[i]? = some m) (e : recorded m' = recorded m) :
    ∀ x ∈ s.mons.set i m', x.Known := by
  intro x hx
  rcases List.mem_or_eq_of_mem_set hx with hx | rfl
  · exact h x hx
  · exact (h m (List.mem_of_getElem? hm)).of e

theorem Sim.writeField_known {now : ℕ → ℝ} {C : Fields} {s : Sim K} (h : s.Known) : (s.writeField now C).Each Sim.Known := by
  unfold Sim.writeField
  refine tryM_each h fun ck _ => tryM_each h fun file _ => tryM_each h fun ck _ => h

theorem Sim.update_known {now : ℕ → ℝ} {s : Sim K} (h : s.Known) : (s.update now).Each Sim.Known := by
  unfold Sim.update
  refine tryM_each h fun ck _ => tryM_each h fun c _ => tryM_each h fun _ _ => tryM_each h fun ck _ => tryM_each h fun ck _ => tryM_each h fun mons hm => ?_
  have k : ∀ m ∈ mons, m.Known := mapM'_mem (Q := Monitor.Known) (fun a a' ha he => ha.of (Monitor.update_recorded he)) h hm
  exact tryM_each k fun ck _ => tryM_each k fun ck _ => tryM_each k fun c _ => tryM_each k fun ck _ => tryM_each k fun x _ => k

theorem Sim.step_known {now : ℕ → ℝ} {op : Op K} {s : Sim K} (h : s.Known) (hn : ∀ m, op = .addMonitor m → recorded m = []) :
    (s.step now op).Each Sim.Known := by
  cases op with
  | update => exact Sim.update_known h
  | addObject o =>
    unfold Sim.step
    dsimp only
    have k : (if o.mat.name ∈ s.mats then s else { s with mats := s.mats ++ [o.mat.name] }).Known := by split <;> exact h
    exact tryM_each k fun c _ => k
  | addSource x => exact h
  | addMonitor m =>
    unfold Sim.step
    refine tryM_each h fun m' hm x hx => ?_
    rcases List.mem_append.mp hx with hx | hx
    · exact h x hx
    · rw [List.mem_singleton.mp hx]
      exact Monitor.setF_known hm (hn m rfl)
  | addTimeMonitor m => exact tryM_each h fun c _ => h
  | clearFields => exact h
  | clearMaterials => exact tryM_each h fun c _ => h
  | updateMaterialGrid => exact tryM_each h fun c _ => h
  | removeMonitors => intro x hx; simp at hx
  | setTfsf vol tp => exact h
  | writeField C => exact Sim.writeField_known h
  | writeE => exact Sim.writeField_known h
  | writeH =>
    unfold Sim.step
    have := Sim.writeField_known (now := now) (C := .Hx) h
    cases e : s.writeField now .Hx with
    | ok s1 => rw [e] at this; exact Sim.writeField_known this
    | threw m s1 => rw [e] at this; exact this
    | ub u => trivial
  | writeMonitor => exact tryM_each h fun c _ => tryM_each h fun c _ => h
  | pose i p => exact h
  | writeTimeMonitor i =>
    unfold Sim.step
    dsimp only
    split
    · exact h
    · exact tryM_each h fun c _ => h
  | subtract i o =>
    unfold Sim.step
    dsimp only
    split
    · exact h
    · next m hm => exact tryM_each (h.set hm (Monitor.subLeft_recorded m o)) fun m' e => h.set hm (Monitor.sub_recorded e)

/-! ## Programs -/

/-- The groups of the file are groups, its results are among `H`, and monitors record what has a name. -/
structure ResultInv (H : Path → Prop) (w : World K) : Prop where
  tree : ∀ q n, w.tree.at q = some n → Fitting H (q, n)
  mons : w.sim.Known

theorem ResultInv.weaken {H H' : Path → Prop} {w : World K} (h : ResultInv H w) (k : ∀ q, H q → H' q) : ResultInv H' w :=
  ⟨fun q n e => ⟨(h.tree q n e).1, fun v => k q ((h.tree q n e).2 v)⟩, h.mons⟩

theorem ResultInv.puts {H : Path → Prop} {w w' : World K} (h : ResultInv H w) {es : List (Path × H5Obj K)} (he : ∀ e ∈ es, Fitting H e)
    (ht : w'.tree = (w.tree.puts es).1) (hs : w'.sim.Known) : ResultInv H w' :=
  ⟨fun q n e => by
    rw [ht] at e
    rcases Tree.puts_new _ e with e | ⟨-, e⟩
    · exact h.tree q n e
    · exact he _ e, hs⟩

theorem ResultInv.append {H : Path → Prop} {w : World K} {r : String} {l : Path} {row : List K} {t : Tree K} (h : ResultInv H w)
    (h1 : r ≠ "monitors") (h2 : r ≠ "sources") (e : w.tree.append (r :: l) row = some t) : ResultInv H { w with tree := t } :=
  ⟨fun q n k => by
    by_cases hq : q = r :: l
    · rw [hq]; exact .root h1 h2
    · rw [(Tree.append_ok e).2 q hq] at k
      exact h.tree q n k, h.mons⟩

theorem World.addObject_results {H : Path → Prop} (dyn : Bool) (o : Object K) {w : World K} (h : ResultInv H w) : (w.addObject dyn o).Each (ResultInv H) := by
  unfold World.addObject
  dsimp only
  have h0 : ResultInv H (if !(w.sim.mats.contains o.mat.name) then { w with sim := { w.sim with mats := w.sim.mats ++ [o.mat.name] } } else w) := by
    split
    · exact ⟨h.tree, h.mons⟩
    · exact h
  have f1 : ∀ e ∈ (if !(w.sim.mats.contains o.mat.name) then o.mat.entries else []), Fitting H e := by
    intro e he
    split at he
    · exact o.mat.entries_rooted.fitting (by decide) (by decide) e he
    · simp at he
  have f2 : ∀ e ∈ o.entries dyn, Fitting H e := (o.entries_rooted dyn).fitting (by cases dyn <;> decide) (by cases dyn <;> decide)
  refine World.write_each (fun _ => h0.puts f1 rfl h0.mons) fun _ => tryM_each (h0.puts f1 rfl h0.mons) fun c _ => ?_
  have h3 : ResultInv H _ := h0.puts f1 (w' := ⟨_, [], _⟩) rfl h0.mons
  exact World.write_each (fun _ => h3.puts f2 rfl h3.mons) fun _ => h3.puts f2 rfl h3.mons

/-- The entries of spectra, as results. -/
theorem Monitor.spectra_entries (m : Monitor K) : ∃ l : List (String × H5Obj K), m.spectra = m.groups ++ l.map (fun e => (m.path ++ [e.1], e.2)) ∧
    l.map Prod.fst = recorded m ∧ ∀ e ∈ l, ∀ q, e.2 ≠ .ref q := by
  cases m with
  | surf x => exact ⟨x.fourier.acc.map fun e => (e.1, .cxs (e.2.values x.fourier.nfreq)), by simp [Monitor.spectra, Dft.entries], by simp [recorded],
      fun e he => by obtain ⟨x, -, rfl⟩ := List.mem_map.mp he; simp⟩
  | box x => exact ⟨x.fourier.acc.map fun e => (e.1, .cxs (e.2.values x.fourier.nfreq)), by simp [Monitor.spectra, Dft.entries], by simp [recorded],
      fun e he => by obtain ⟨x, -, rfl⟩ := List.mem_map.mp he; simp⟩
  | vol x => exact ⟨x.fourier.acc.map fun e => (e.1, .cxs (e.2.values x.fourier.nfreq)), by simp [Monitor.spectra, Dft.entries], by simp [recorded],
      fun e he => by obtain ⟨x, -, rfl⟩ := List.mem_map.mp he; simp⟩
  | point x => exact ⟨x.fourier.acc.map fun e => (e.1, .cxs (e.2.values x.fourier.nfreq)), by simp [Monitor.spectra, Dft.entries], by simp [recorded],
      fun e he => by obtain ⟨x, -, rfl⟩ := List.mem_map.mp he; simp⟩
  | cyl x => exact ⟨x.fourier.acc.map fun e => (e.1, .cxs (e.2.values x.fourier.nfreq)), by simp [Monitor.spectra, Dft.entries], by simp [recorded],
      fun e he => by obtain ⟨x, -, rfl⟩ := List.mem_map.mp he; simp⟩

theorem Quantity.name_result (r : Quantity K) : r.name ∈ resultNames := by cases r <;> simp [Quantity.name, resultNames]

/-- One call: what it writes as results is added. -/
theorem World.step_results {H : Path → Prop} {now : ℕ → ℝ} {c : Call K} {w : World K} (h : ResultInv H w) (hn : ∀ m, c = .op (.addMonitor m) → recorded m = []) :
    (w.step now c).Each (ResultInv fun q => H q ∨ q ∈ results w c) := by
  have hw : ResultInv (fun q => H q ∨ q ∈ results w c) w := h.weaken fun q hq => .inl hq
  have lift : ∀ {r : Res (Sim K)}, r.Each Sim.Known → (w.lift r).Each (ResultInv fun q => H q ∨ q ∈ results w c) := by
    intro r hr
    cases r with
    | ok s => exact ⟨hw.tree, hr⟩
    | threw m s => exact ⟨hw.tree, hr⟩
    | ub u => trivial
  cases c with
  | op o =>
    cases o with
    | addObject o => exact w.addObject_results false o hw
    | addSource x =>
      unfold World.step
      exact World.write_each (fun _ => hw.puts x.entries_fitting rfl hw.mons) fun _ => hw.puts x.entries_fitting rfl hw.mons
    | addMonitor m =>
      refine tryM_each hw fun m' hm => World.write_each (fun _ => hw.puts m'.entries_fitting rfl hw.mons) fun _ => hw.puts m'.entries_fitting rfl fun x hx => ?_
      rcases List.mem_append.mp hx with hx | hx
      · exact h.mons x hx
      · rw [List.mem_singleton.mp hx]
        exact Monitor.setF_known hm (hn m rfl)
    | setTfsf vol tp =>
      exact World.write_each (fun _ => hw.puts (tfsfEntries_fitting vol tp) rfl hw.mons) fun _ => hw.puts (tfsfEntries_fitting vol tp) rfl hw.mons
    | _ => unfold World.step; exact lift (Sim.step_known h.mons (by simp))
  | addDynamic o => exact w.addObject_results true o hw
  | writeCurrent i =>
    unfold World.step
    dsimp only
    split
    · next o _ _ =>
      have f : ∀ e ∈ (o.groups true : List (Path × H5Obj K)), Fitting (fun q => H q ∨ q ∈ results w (.writeCurrent i)) e :=
        (Rooted.three (K := K)).fitting (r := "dynamic_objects") (by decide) (by decide)
      have h1 := hw.puts f (w' := ⟨w.sim, w.dyn, _⟩) rfl hw.mons
      refine World.write_each (fun _ => h1) fun _ => World.append_each (fun _ => h1) fun t ht => ?_
      have h2 := h1.append (by decide) (by decide) ht
      exact World.append_each (fun _ => h2) fun t' ht' => h2.append (by decide) (by decide) ht'
    · exact hw
  | writeSpectra i =>
    unfold World.step
    dsimp only
    split
    · exact hw
    · next m hm =>
      have f : ∀ e ∈ m.spectra, Fitting (fun q => H q ∨ q ∈ results w (.writeSpectra i)) e := by
        obtain ⟨l, e1, e2, -⟩ := m.spectra_entries
        rw [e1]
        intro e he
        rcases List.mem_append.mp he with he | he
        · exact .three e he
        · obtain ⟨x, hx, rfl⟩ := List.mem_map.mp he
          refine .four fun _ => .inr ?_
          simp only [results, hm]
          exact List.mem_map.mpr ⟨x.1, by rw [← e2]; exact List.mem_map.mpr ⟨x, hx, rfl⟩, rfl⟩
      exact World.write_each (fun _ => hw.puts f rfl hw.mons) fun _ => hw.puts f rfl hw.mons
  | report i r =>
    unfold World.step
    dsimp only
    split
    · exact hw
    · next m hm =>
      split
      · exact hw
      · next x hx =>
        refine tryM_each hw fun v _ => ?_
        have f : ∀ e ∈ m.groups ++ [(m.path ++ [r.name], v)], Fitting (fun q => H q ∨ q ∈ results w (.report i r)) e := by
          intro e he
          rcases List.mem_append.mp he with he | he
          · exact .three e he
          · rw [List.mem_singleton.mp he]
            refine .four fun _ => .inr ?_
            simp only [results, hm, hx, Option.isSome_some, if_true]
            exact List.mem_singleton.mpr rfl
        exact World.write_each (fun _ => hw.puts f rfl hw.mons) fun _ => hw.puts f rfl hw.mons
  | tfsfFlux =>
    unfold World.step
    dsimp only
    split
    · exact hw
    · next x hx =>
      refine tryM_each hw fun S _ => ?_
      have f : ∀ e ∈ [(["sources", "tfsf"], .group), (["sources", "tfsf", "flux"], .nums (overFreq S.n S.val))],
          Fitting (fun q => H q ∨ q ∈ results w .tfsfFlux) e := by
        intro e he
        simp only [List.mem_cons, List.not_mem_nil, or_false] at he
        rcases he with rfl | rfl
        · exact .group (top_not_val (.inr (.inr rfl)))
        · exact .incident fun _ => .inr (by simp [results, hx])
      exact World.write_each (fun _ => hw.puts f rfl hw.mons) fun _ => hw.puts f rfl hw.mons

/-- What the calls of a program have written as results. -/
def History (now : ℕ → ℝ) (w0 : World K) (cs : List (Call K)) (q : Path) : Prop :=
  ∃ pre c post w, cs = pre ++ c :: post ∧ w0.run now pre = .ok w ∧ q ∈ results w c

theorem World.run_results {now : ℕ → ℝ} : ∀ {cs : List (Call K)} {w w' : World K} {H : Path → Prop}, ResultInv H w → NewMonitors cs → w.run now cs = .ok w' →
    ResultInv (fun q => H q ∨ History now w cs q) w'
  | [], w, w', H, h, _, e => by cases e; exact h.weaken fun q hq => .inl hq
  | c :: l, w, w', H, h, hn, e => by
    have st := World.step_results (now := now) (c := c) h fun m hm => hn m (by rw [hm]; simp)
    have hn' : NewMonitors l := fun m hm => hn m (List.mem_cons_of_mem _ hm)
    have next : ∀ w1 : World K, ResultInv (fun q => H q ∨ q ∈ results w c) w1 → (∀ pre, w.run now (c :: pre) = w1.run now pre) → w1.run now l = .ok w' →
        ResultInv (fun q => H q ∨ History now w (c :: l) q) w' := by
      intro w1 i1 i2 i3
      refine (World.run_results i1 hn' i3).weaken fun q hq => ?_
      rcases hq with (hq | hq) | ⟨pre, c', post, wp, e1, e2, e3⟩
      · exact .inl hq
      · exact .inr ⟨[], c, l, w, rfl, rfl, hq⟩
      · exact .inr ⟨c :: pre, c', post, wp, by rw [e1]; rfl, by rw [i2]; exact e2, e3⟩
    have e0 := e
    rw [World.run] at e
    cases hs : w.step now c with
    | ok w1 => rw [hs] at st e; exact next w1 st (fun pre => by rw [World.run, hs]) e
    | threw m w1 => rw [hs] at st e; exact next w1 st (fun pre => by rw [World.run, hs]) e
    | ub u => rw [hs] at e; cases e

theorem World.make_results {now : ℕ → ℝ} {g : Grid K} {fn : String} {w : World K} (h : World.make now g fn = .ok w) : ResultInv (fun _ => False) w := by
  unfold World.make at h
  obtain ⟨s, h1, h⟩ := (Except.bind_ok ..).mp h
  dsimp only at h
  split_ifs at h
  cases h
  constructor
  · intro q n e
    rcases Tree.puts_new _ e with e | ⟨-, e⟩
    · cases e
    · have : Rooted "grid" (Grid.entries g) := .cons (.cons (.cons (.cons (.cons (.cons (.cons (.cons (.cons .nil))))))))
      exact this.fitting (by decide) (by decide) _ e
  · unfold Sim.make at h1
    obtain ⟨ck, -, h1⟩ := (Except.bind_ok ..).mp h1
    obtain ⟨c, -, h1⟩ := (Except.bind_ok ..).mp h1
    split at h1
    · cases h1
    · cases h1; intro m hm; simp at hm

theorem ResultInv.writes {H : Path → Prop} {w : World K} (h : ResultInv H w) {es : List (Path × H5Obj K)} (h1 : ∀ e ∈ es, (e.2 = .group ∧ TopPath e.1) ∨ (ValPath e.1 ∧ ¬ H e.1))
    (h2 : es.Pairwise (fun e e' => e.1 ≠ e'.1 ∨ (e.2 = .group ∧ e'.2 = .group))) (h3 : ∀ e ∈ es, ∀ q, e.2 ≠ .ref q) : (w.tree.puts es).2 = true := by
  refine Tree.puts_fresh es (fun e he => ?_) h2 fun e he q hq => absurd hq (h3 e he q)
  cases ht : w.tree.at e.1 with
  | none => exact .inl rfl
  | some n =>
    rcases h1 e he with ⟨k1, k2⟩ | ⟨k1, k2⟩
    · have k3 : n = .group := (h.tree _ _ ht).1 k2
      exact .inr ⟨k1, by rw [k3]⟩
    · exact absurd ((h.tree _ _ ht).2 k1) k2

end Qbox
