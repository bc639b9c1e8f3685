import Verif.Lemmas.FileTrack
import Verif.Props.OutputProps

/-!
# C62–C66, C68: what the file holds about objects and materials, and which calls fail

The group `fields` is the subject of C44–C46 and C57. Here are the groups `grid`, `materials`, `objects`, `dynamic_objects`, `sources` and `monitors`.
HDF5 is a finite map from paths to objects.
-/

namespace Qbox.Props
open Qbox Scalar Spec

set_option linter.unusedSectionVars false

variable {K : Type} [Scalar K]

/-! ## C62: nothing is lost -/

/-- **C62.** Whatever calls a program makes, and whichever of them throw, everything that is in the file stays in it: groups stay, data sets keep
their values, and data sets that grow keep the rows they have. -/
theorem C62_kept (now : ℕ → ℝ) (w w' : World K) (cs : List (Call K)) (h : w.run now cs = .ok w') : Keeps w w' := World.run_kept h

/-- Data sets that do not grow keep their values. -/
theorem C62_values (now : ℕ → ℝ) (w w' : World K) (cs : List (Call K)) (h : w.run now cs = .ok w') (p : Path) (n : H5Obj K)
    (hp : w.tree.at p = some n) (hn : ∀ rows, n ≠ .series rows) : w'.tree.at p = some n := by
  obtain ⟨n', h1, h2⟩ := (C62_kept now w w' cs h).tree p n hp
  cases h2 with
  | same => exact h1
  | more rows new => exact absurd rfl (hn rows)

/-! ## C63: objects and their materials -/

theorem hasMaterial_of {t : Tree K} {m : Material K} (h : ∀ e ∈ m.entries, t.at e.1 = some e.2) : HasMaterial t m := by
  have key : ∀ x ∈ m.kind.params, t.at ["materials", m.name, x.1] = some x.2 := fun x hx =>
    h (["materials", m.name, x.1], x.2) (List.mem_cons_of_mem _ (List.mem_cons_of_mem _ (List.mem_map_of_mem hx)))
  unfold HasMaterial
  unfold MatKind.params at key
  cases hk : m.kind with
  | simple p =>
    simp only [hk, List.forall_mem_cons, List.not_mem_nil, false_imp_iff, implies_true, and_true] at key
    exact key
  | debye p =>
    simp only [hk, List.forall_mem_cons, List.not_mem_nil, false_imp_iff, implies_true, and_true] at key
    exact key
  | drude p =>
    simp only [hk, List.forall_mem_cons, List.not_mem_nil, false_imp_iff, implies_true, and_true] at key
    exact key
  | lorentz p =>
    simp only [hk, List.forall_mem_cons, List.not_mem_nil, false_imp_iff, implies_true, and_true] at key
    exact key

theorem HasMaterial.keep {t t' : Tree K} {m : Material K} (h : HasMaterial t m)
    (ht : ∀ p n, t.at p = some n → (∀ rows, n ≠ .series rows) → t'.at p = some n) : HasMaterial t' m := by
  unfold HasMaterial at h ⊢
  cases hk : m.kind with
  | simple p =>
    simp only [hk] at h
    exact ⟨ht _ _ h.1 (by simp), ht _ _ h.2.1 (by simp), ht _ _ h.2.2.1 (by simp), ht _ _ h.2.2.2 (by simp)⟩
  | debye p =>
    simp only [hk] at h
    exact ⟨ht _ _ h.1 (by simp), ht _ _ h.2.1 (by simp), ht _ _ h.2.2.1 (by simp), ht _ _ h.2.2.2 (by simp)⟩
  | drude p =>
    simp only [hk] at h
    exact ⟨ht _ _ h.1 (by simp), ht _ _ h.2.1 (by simp), ht _ _ h.2.2.1 (by simp), ht _ _ h.2.2.2 (by simp)⟩
  | lorentz p =>
    simp only [hk] at h
    exact ⟨ht _ _ h.1 (by simp), ht _ _ h.2.1 (by simp), ht _ _ h.2.2.1 (by simp), ht _ _ h.2.2.2.1 (by simp), ht _ _ h.2.2.2.2 (by simp)⟩

/-- The call that adds an object. -/
def addCall (dyn : Bool) (o : Object K) : Call K := if dyn then .addDynamic o else .op (.addObject o)

theorem addCall_step (now : ℕ → ℝ) (w : World K) (dyn : Bool) (o : Object K) : w.step now (addCall dyn o) = w.addObject dyn o := by
  cases dyn <;> rfl

theorem addCall_added (dyn : Bool) (o : Object K) : added (addCall dyn o) = some o := by cases dyn <;> rfl

/-- A story of one object: a program before, the object is added, a program after. Exceptions of the two programs are caught. -/
structure Story (now : ℕ → ℝ) (g : Grid K) (fn : String) (pre : List (Call K)) (dyn : Bool) (o : Object K) (post : List (Call K))
    (w0 w1 w2 w3 : World K) : Prop where
  make : World.make now g fn = .ok w0
  before : w0.run now pre = .ok w1
  add : w1.step now (addCall dyn o) = .ok w2
  after : w2.run now post = .ok w3

theorem Story.inv {now : ℕ → ℝ} {g : Grid K} {fn : String} {pre post : List (Call K)} {dyn : Bool} {o : Object K} {w0 w1 w2 w3 : World K}
    (h : Story now g fn pre dyn o post w0 w1 w2 w3) : FileInv (matsOf pre) w1 ∧ FileInv (matsOf (pre ++ [addCall dyn o])) w2 := by
  have h1 := World.run_inv (World.make_inv h.make) h.before
  rw [List.nil_append] at h1
  have h2 := World.step_inv now (addCall dyn o) h1
  rw [h.add] at h2
  rw [matsOf_append]
  exact ⟨h1, h2⟩

/-- **C63, for all programs.** After an object has been added the file has its shape, its pose (if it cannot move) and a reference to a group that has
the parameters of the material of the *first* object for which that name of a material was used. -/
theorem C63_first (now : ℕ → ℝ) (g : Grid K) (fn : String) (pre post : List (Call K)) (dyn : Bool) (o : Object K) (w0 w1 w2 w3 : World K)
    (h : Story now g fn pre dyn o post w0 w1 w2 w3) :
    HasShape w3.tree dyn o ∧ (dyn = false → HasPose w3.tree o) ∧
    ∃ m, firstNamed (matsOf (pre ++ [addCall dyn o])) o.mat.name = some m ∧ HasMaterial w3.tree m := by
  have hk := C62_values now w2 w3 post h.after
  have ha := h.add
  rw [addCall_step] at ha
  obtain ⟨hw, -, -, -⟩ := World.addObject_wrote ha
  refine ⟨⟨fun e he => ?_, ?_⟩, fun hd => ?_, ?_⟩
  · refine hk _ _ (hw (o.path dyn ++ [e.1], .nums e.2) ?_) (by simp)
    unfold Object.entries
    exact List.mem_append_left _ (List.mem_append_left _ (List.mem_append_right _ (List.mem_map_of_mem he)))
  · refine hk _ _ (hw (o.path dyn ++ ["material"], .ref o.mat.path) ?_) (by simp)
    unfold Object.entries
    exact List.mem_append_right _ (List.mem_singleton.mpr rfl)
  · subst hd
    exact ⟨hk _ _ (hw _ (Object.entries_position false o)) (by simp), hk _ _ (hw _ (Object.entries_theta false o)) (by simp)⟩
  · have hi := h.inv.2
    have hm : o.mat ∈ matsOf (pre ++ [addCall dyn o]) := by
      rw [matsOf_append]
      refine List.mem_append_right _ ?_
      unfold matsOf
      simp [addCall_added]
    obtain ⟨m, hf⟩ := firstNamed_some.mp ⟨o.mat, hm, rfl⟩
    exact ⟨m, hf, HasMaterial.keep (hasMaterial_of (hi.mat.has _ m hf)) hk⟩

/-- **C63, where it holds.** When equal names of materials mean equal materials, the reference is to a group with the parameters of the object's own
material. -/
theorem C63_recorded_partial (now : ℕ → ℝ) (g : Grid K) (fn : String) (pre post : List (Call K)) (dyn : Bool) (o : Object K) (w0 w1 w2 w3 : World K)
    (h : Story now g fn pre dyn o post w0 w1 w2 w3) (hn : NamesMaterials (pre ++ [addCall dyn o])) :
    HasShape w3.tree dyn o ∧ (dyn = false → HasPose w3.tree o) ∧ HasMaterial w3.tree o.mat := by
  obtain ⟨h1, h2, m, hf, h3⟩ := C63_first now g fn pre post dyn o w0 w1 w2 w3 h
  refine ⟨h1, h2, ?_⟩
  unfold firstNamed at hf
  have hm := List.mem_of_find?_eq_some hf
  have hname : m.name = o.mat.name := by simpa using List.find?_some hf
  unfold matsOf at hm
  obtain ⟨x, hx, rfl⟩ := List.mem_map.mp hm
  obtain ⟨c, hc, hcx⟩ := List.mem_filterMap.mp hx
  have hkind := hn c hc (addCall dyn o) (List.mem_append_right _ (List.mem_singleton.mpr rfl)) x o hcx (addCall_added dyn o) hname
  have : x.mat = o.mat := by
    cases hx1 : x.mat with
    | mk n1 k1 =>
      cases hx2 : o.mat with
      | mk n2 k2 =>
        rw [hx1, hx2] at hname hkind
        cases hname; cases hkind; rfl
  rw [← this]
  exact h3

/-! ## C64: trajectories -/

/-- **C64.** The file has the pose at which a moving object was added and then its pose at each call of `write_current`, in order, whatever other calls
are made in between and whichever of them throw. -/
theorem C64_trajectory (now : ℕ → ℝ) (g : Grid K) (fn : String) (pre post : List (Call K)) (o : Object K) (w0 w1 w2 w3 : World K)
    (h : Story now g fn pre true o post w0 w1 w2 w3) :
    HasPoses w3.tree o ((o.pos, o.theta) :: trajectory w1.sim.objs.length (o.pos, o.theta) post) := by
  have hi := h.inv
  have ha := h.add
  rw [addCall_step] at ha
  obtain ⟨hw, h1, h2, -⟩ := World.addObject_wrote ha
  have ho : w2.sim.objs[w1.sim.objs.length]? = some o := by rw [h1]; simp
  have hd : w2.dyn[w1.sim.objs.length]? = some true := by rw [h2, ← hi.1.dyn.len]; simp
  have := World.run_track hi.2 ho hd (l := [(o.pos, o.theta)])
    ⟨hw _ (Object.entries_position true o), hw _ (Object.entries_theta true o)⟩ h.after
  exact this

/-- Recording a pose never fails. -/
theorem C64_never_throws (now : ℕ → ℝ) (g : Grid K) (fn : String) (cs : List (Call K)) (w0 w : World K) (h0 : World.make now g fn = .ok w0)
    (h : w0.run now cs = .ok w) (i : ℕ) : ∃ w', w.step now (.writeCurrent i) = .ok w' ∧ w'.sim = w.sim := by
  have hi := World.run_inv (World.make_inv h0) h
  unfold World.step
  dsimp only
  split
  · next o ho hd =>
    obtain ⟨t, h1, -⟩ := World.writeCurrent_ok hi.dyn ho hd
    exact ⟨_, h1, rfl⟩
  · exact ⟨w, rfl, rfl⟩

/-! ## C65: calls that throw -/

/-- The calls of which it is true: adding a source, a monitor, recording a pose, writing results. -/
def Harmless : Call K → Prop
  | .op (.addSource _) => True
  | .op (.addMonitor _) => True
  | .op _ => False
  | .addDynamic _ => False
  | _ => True

/-- **C65, where it holds.** When adding a source or a monitor, recording a pose or writing results throws, the simulation is as it was. -/
theorem C65_unchanged_partial (now : ℕ → ℝ) (w w' : World K) (c : Call K) (hc : Harmless c) (m : String) (h : w.step now c = .threw m w') :
    w'.sim = w.sim ∧ w'.dyn = w.dyn := by
  have wr : ∀ {es : List (Path × H5Obj K)} {k : World K → Res (World K)}, (∀ w1 m1 w2, k w1 ≠ .threw m1 w2) → w.write es k = .threw m w' →
      w'.sim = w.sim ∧ w'.dyn = w.dyn := by
    intro es k hk h
    unfold World.write at h
    dsimp only at h
    split at h
    · exact absurd h (hk _ _ _)
    · cases h; exact ⟨rfl, rfl⟩
  have tr : ∀ {β : Type} {x : M β} {k : β → Res (World K)}, (∀ b, k b = .threw m w' → w'.sim = w.sim ∧ w'.dyn = w.dyn) → tryM x w k = .threw m w' →
      w'.sim = w.sim ∧ w'.dyn = w.dyn := by
    intro β x k hk h
    unfold tryM at h
    split at h
    · exact hk _ h
    · cases h; exact ⟨rfl, rfl⟩
    · cases h
  cases c with
  | op o =>
    cases o with
    | addSource x => unfold World.step at h; exact wr (fun _ _ _ e => by cases e) h
    | addMonitor x => exact tr (fun b hb => wr (fun _ _ _ e => by cases e) hb) h
    | _ => exact hc.elim
  | addDynamic o => exact hc.elim
  | writeCurrent i =>
    unfold World.step at h
    dsimp only at h
    split at h
    · have : (World.writeCurrent ‹_› w).Each fun w' => w'.sim = w.sim ∧ w'.dyn = w.dyn :=
        World.write_each (fun _ => ⟨rfl, rfl⟩) fun _ => World.append_each (fun _ => ⟨rfl, rfl⟩) fun t _ =>
          World.append_each (fun _ => ⟨rfl, rfl⟩) fun t _ => ⟨rfl, rfl⟩
      rw [h] at this
      exact this
    · cases h
  | writeSpectra i =>
    unfold World.step at h
    dsimp only at h
    split at h
    · cases h
    · exact wr (fun _ _ _ e => by cases e) h
  | report i r =>
    unfold World.step at h
    dsimp only at h
    split at h
    · cases h
    · split at h
      · cases h
      · exact tr (fun b hb => wr (fun _ _ _ e => by cases e) hb) h
  | tfsfFlux =>
    unfold World.step at h
    dsimp only at h
    split at h
    · cases h
    · exact tr (fun b hb => wr (fun _ _ _ e => by cases e) hb) h

/-- An object whose addition fails in the file has been painted all the same, and is not a member of the list of objects. -/
theorem C65_object_painted (now : ℕ → ℝ) (w w' : World K) (dyn : Bool) (o : Object K) (m : String) (c : Core K)
    (hi : w.sim.core.insertObject o = .ok c) (hm : o.mat.name ∈ w.sim.mats) (h : w.step now (addCall dyn o) = .threw m w') :
    w'.sim.core = c ∧ w'.sim.objs = w.sim.objs := by
  rw [addCall_step] at h
  unfold World.addObject at h
  dsimp only at h
  have hc : w.sim.mats.contains o.mat.name = true := by simpa using hm
  simp only [hc, Bool.not_true, Bool.false_eq_true, if_false] at h
  change tryM (w.sim.core.insertObject o) w _ = _ at h
  rw [hi] at h
  unfold tryM World.write at h
  dsimp only at h
  split at h
  · cases h
  · cases h; exact ⟨rfl, rfl⟩

/-- A `set_tfsf` that throws has replaced the incident wave all the same. -/
theorem C65_tfsf_replaced (now : ℕ → ℝ) (w w' : World K) (vol : Vol K) (tp : TimeProfile K) (m : String)
    (h : w.step now (.op (.setTfsf vol tp)) = .threw m w') : w'.sim.core = w.sim.core.setTfsf vol tp := by
  unfold World.step World.write at h
  dsimp only at h
  split at h
  · cases h
  · cases h; rfl

/-! ## C66: no call fails in the file when names are different -/

/-- **C66.** In a program in which no two things of one kind have the same name, in which `set_tfsf` is called at most once and which writes no
results, HDF5 calls do not fail: the program runs to its end if its calls on the simulation do. -/
theorem C66_no_failure (now : ℕ → ℝ) (g : Grid K) (fn : String) (cs : List (Call K)) (w0 : World K) (h0 : World.make now g fn = .ok w0)
    (hn : DistinctNames cs) (hp : ∀ c ∈ cs, PlainNames c) (hr : ∀ c ∈ cs, NoResults c) (s : Sim K)
    (h : w0.sim.runOk now (simOps cs) = .ok s) : ∃ w, w0.runOk now cs = .ok w ∧ w.sim = s := by
  refine World.runOk_clean (World.make_inv h0) (World.make_clean h0 ?_ ?_) hn hp hr h
  · intro p hp
    obtain ⟨c, -, hp⟩ := List.mem_flatMap.mp hp
    exact claims_isClaim c p hp
  · intro p hp
    obtain ⟨c, -, hp⟩ := List.mem_flatMap.mp hp
    exact claims_grid c p hp

/-- Conversely a program that runs to its end does to the simulation what its calls on the simulation do, so what is proved of these holds of it. -/
theorem C66_same_simulation (now : ℕ → ℝ) (w w' : World K) (cs : List (Call K)) (h : w.runOk now cs = .ok w') :
    w.sim.runOk now (simOps cs) = .ok w'.sim := World.runOk_sim h

/-- Together with C57: such a program runs to its end if it stays inside the domain. -/
theorem C66_completes (now : ℕ → ℝ) (g : Grid ℝ) (hg : g.Wide) (hd : 0 < g.dx) (fn : String) (hf : fn ≠ "") (cs : List (Call ℝ))
    (hi : Inside False g [] (simOps cs)) (hpr : Proper ["Ez", "Hx", "Hy"] (simOps cs))
    (hn : DistinctNames cs) (hp : ∀ c ∈ cs, PlainNames c) (hr : ∀ c ∈ cs, NoResults c) :
    ∃ w0 w, World.make now g fn = .ok w0 ∧ w0.runOk now cs = .ok w := by
  obtain ⟨s0, s, h0, h⟩ := C57_completes now g hg hd fn hf (simOps cs) hi hpr
  obtain ⟨w0, e0, e1⟩ := World.make_of h0
  rw [← e1] at h
  obtain ⟨w, e2, -⟩ := C66_no_failure now g fn cs w0 e0 hn hp hr s h
  exact ⟨w0, w, e0, e2⟩

/-! ## C68: names are not set free -/

/-- A call that writes a data set where there is something does not end normally. -/
theorem write_taken {w w' : World K} {es : List (Path × H5Obj K)} {k : World K → Res (World K)} {q : Path} {n : H5Obj K}
    (hq : (w.tree.at q).isSome) (hm : (q, n) ∈ es) (hn : n ≠ .group) : w.write es k ≠ .ok w' := by
  intro h
  have := (World.write_ok h).1
  rw [Tree.puts_taken es hq hm hn] at this
  cases this

theorem kept_some {w w' : World K} (h : Keeps w w') {q : Path} (hq : (w.tree.at q).isSome) : (w'.tree.at q).isSome := by
  obtain ⟨n, hn⟩ := Option.isSome_iff_exists.mp hq
  obtain ⟨n', h1, -⟩ := h.tree q n hn
  rw [h1]; rfl

/-- **C68, objects.** After an object has been added, and whatever is done then, adding an object with the same kind of shape and the same name fails. -/
theorem C68_object (now : ℕ → ℝ) (dyn : Bool) (o o' : Object K) (w1 w2 w3 w4 : World K) (post : List (Call K))
    (h : w1.step now (addCall dyn o) = .ok w2) (ha : w2.run now post = .ok w3) (hg : o'.geom.group = o.geom.group) (hn : o'.name = o.name) :
    w3.step now (addCall dyn o') ≠ .ok w4 := by
  intro h4
  rw [addCall_step] at h h4
  have hs : (w3.tree.at (o.path dyn ++ ["position"])).isSome := by
    apply kept_some (C62_kept now w2 w3 post ha)
    rw [(World.addObject_wrote h).1 _ (Object.entries_position dyn o)]
    rfl
  obtain ⟨t, ht, hk⟩ := (World.addObject_wrote h4).2.2.2
  have e : o'.path dyn = o.path dyn := by unfold Object.path; rw [hg, hn]
  obtain ⟨n, hn⟩ := Option.isSome_iff_exists.mp hs
  have := Tree.puts_taken (o'.entries dyn) (t := t) (q := o'.path dyn ++ ["position"]) (by rw [e, hk _ _ hn]; rfl)
    (Object.entries_position dyn o') (by split <;> simp)
  rw [this] at ht
  cases ht

/-- Each source writes a data set of its own. -/
theorem Source.entries_key (s : Source K) : ∃ n : H5Obj K, n ≠ .group ∧
    (s.path ++ [match s.kind with | .point .. => "position" | .line .. => "p1"], n) ∈ s.entries := by
  unfold Source.entries
  cases hk : s.kind with
  | point C p => exact ⟨.nums p.list, by simp, List.mem_append_right _ (by simp)⟩
  | line C f => exact ⟨.nums f.a.list, by simp, List.mem_append_right _ (by simp [Surf.entries])⟩

/-- **C68, sources.** -/
theorem C68_source (now : ℕ → ℝ) (x x' : Source K) (w1 w2 w3 w4 : World K) (post : List (Call K))
    (h : w1.step now (.op (.addSource x)) = .ok w2) (ha : w2.run now post = .ok w3) (hk : x'.kind.sub = x.kind.sub) (hn : x'.name = x.name) :
    w3.step now (.op (.addSource x')) ≠ .ok w4 := by
  unfold World.step at h ⊢
  obtain ⟨hp, h⟩ := World.write_ok h
  cases h
  obtain ⟨n, hn1, hm⟩ := Source.entries_key x
  obtain ⟨n', hn2, hm'⟩ := Source.entries_key x'
  refine write_taken (q := x'.path ++ [match x'.kind with | .point .. => "position" | .line .. => "p1"]) ?_ hm' hn2
  have e : x'.path ++ [match x'.kind with | .point .. => "position" | .line .. => "p1"] =
      x.path ++ [match x.kind with | .point .. => "position" | .line .. => "p1"] := by
    unfold Source.path
    rw [hk, hn]
    cases h1 : x.kind <;> cases h2 : x'.kind <;> rw [h1, h2] at hk <;> first | rfl | (exact absurd hk (by simp [SrcKind.sub]))
  rw [e]
  apply kept_some (C62_kept now _ w3 post ha)
  dsimp only
  rw [Tree.puts_mem _ hp _ hm]; rfl

/-- Each monitor writes its frequencies. -/
theorem Monitor.entries_key (m : Monitor K) : ∃ f : List K, (m.path ++ ["dft_frequency"], .nums f) ∈ m.entries := by
  cases m with
  | surf m => exact ⟨m.fourier.freq, List.mem_append_right _ (List.mem_singleton.mpr rfl)⟩
  | box m => exact ⟨m.fourier.freq, List.mem_append_right _ (List.mem_singleton.mpr rfl)⟩
  | vol m => exact ⟨m.fourier.freq, List.mem_append_right _ (List.mem_singleton.mpr rfl)⟩
  | point m => exact ⟨m.fourier.freq, List.mem_append_right _ (List.mem_singleton.mpr rfl)⟩
  | cyl m => exact ⟨m.fourier.freq, List.mem_append_right _ (List.mem_singleton.mpr rfl)⟩

theorem Monitor.setF_path {g : Grid K} {m m' : Monitor K} (h : m.setF g = .ok m') : m'.path = m.path := by
  cases m with
  | surf m =>
    obtain ⟨m1, h1, h⟩ := (Except.bind_ok ..).mp h
    cases h
    unfold SurfMon.setF at h1
    obtain ⟨is, -, h1⟩ := (Except.bind_ok ..).mp h1
    cases h1; rfl
  | box m =>
    obtain ⟨m1, h1, h⟩ := (Except.bind_ok ..).mp h
    cases h
    unfold BoxMon.setF at h1
    obtain ⟨l, h2, h1⟩ := (Except.bind_ok ..).mp h1
    cases h1; rfl
  | vol m => cases h; rfl
  | point m => cases h; rfl
  | cyl m => cases h; rfl

/-- **C68, monitors.** Also after `remove_all_monitors`: the names of the removed monitors are not available again. -/
theorem C68_monitor (now : ℕ → ℝ) (m m' : Monitor K) (w1 w2 w3 w4 : World K) (post : List (Call K))
    (h : w1.step now (.op (.addMonitor m)) = .ok w2) (ha : w2.run now post = .ok w3) (hk : m'.sub_group = m.sub_group) (hn : m'.name = m.name) :
    w3.step now (.op (.addMonitor m')) ≠ .ok w4 := by
  unfold World.step at h ⊢
  obtain ⟨m1, h1, h⟩ := tryM_ok h
  obtain ⟨hp, h⟩ := World.write_ok h
  cases h
  intro h4
  obtain ⟨m2, h2, h4⟩ := tryM_ok h4
  obtain ⟨f, hf⟩ := Monitor.entries_key m1
  obtain ⟨f', hf'⟩ := Monitor.entries_key m2
  refine write_taken (q := m2.path ++ ["dft_frequency"]) ?_ hf' (by simp) h4
  have e : m2.path = m1.path := by
    rw [Monitor.setF_path h1, Monitor.setF_path h2]
    unfold Monitor.path
    rw [hk, hn]
  rw [e]
  apply kept_some (C62_kept now _ w3 post ha)
  dsimp only
  rw [Tree.puts_mem _ hp _ hf]; rfl

/-- **C68, the incident wave.** A second `set_tfsf` throws. -/
theorem C68_tfsf (now : ℕ → ℝ) (vol vol' : Vol K) (tp tp' : TimeProfile K) (w1 w2 w3 : World K) (post : List (Call K))
    (h : w1.step now (.op (.setTfsf vol tp)) = .ok w2) (ha : w2.run now post = .ok w3) :
    ∃ w4, w3.step now (.op (.setTfsf vol' tp')) = .threw h5Msg w4 ∧ w4.sim.core = w3.sim.core.setTfsf vol' tp' := by
  unfold World.step at h ⊢
  dsimp only at h ⊢
  obtain ⟨hp, h⟩ := World.write_ok h
  cases h
  have key : ∀ (v : Vol K) (p : TimeProfile K), (["sources", "tfsf", "p1"], H5Obj.nums v.a.list) ∈ tfsfEntries v p := fun v p => by
    unfold tfsfEntries
    exact List.mem_append_left _ (List.mem_append_right _ (List.mem_cons_self ..))
  have hs : (w3.tree.at ["sources", "tfsf", "p1"]).isSome := by
    apply kept_some (C62_kept now _ w3 post ha)
    dsimp only
    rw [Tree.puts_mem _ hp _ (key vol tp)]; rfl
  have := Tree.puts_taken _ hs (key vol' tp') (by simp)
  unfold World.write
  dsimp only
  rw [if_neg (by rw [this]; simp)]
  exact ⟨_, rfl, rfl⟩

/-- **C68, results.** A quantity of a monitor can be written once: writing it again throws, or the computation fails, and the file keeps the first value. -/
theorem C68_report (now : ℕ → ℝ) (i j : ℕ) (r r' : Quantity K) (m m' : Monitor K) (w1 w2 w3 w4 : World K) (post : List (Call K))
    (hi : w1.sim.mons[i]? = some m) (hq : (m.compute w1.sim.core.g r).isSome) (h : w1.step now (.report i r) = .ok w2) (ha : w2.run now post = .ok w3)
    (hj : w3.sim.mons[j]? = some m') (hq' : (m'.compute w3.sim.core.g r').isSome) (hp : m'.path = m.path) (hr : r'.name = r.name) :
    w3.step now (.report j r') ≠ .ok w4 ∧ ∃ v : H5Obj K, w2.tree.at (m.path ++ [r.name]) = some v ∧ ((∀ rows, v ≠ .series rows) → w3.tree.at (m.path ++ [r.name]) = some v) := by
  obtain ⟨x, hx⟩ := Option.isSome_iff_exists.mp hq
  obtain ⟨x', hx'⟩ := Option.isSome_iff_exists.mp hq'
  unfold World.step at h ⊢
  simp only [hi, hj, hx, hx'] at h ⊢
  obtain ⟨v, hv, h⟩ := tryM_ok h
  obtain ⟨hpu, h⟩ := World.write_ok h
  cases h
  have hat := Tree.puts_mem _ hpu (m.path ++ [r.name], v) (List.mem_append_right _ (List.mem_singleton.mpr rfl))
  refine ⟨fun h4 => ?_, v, hat, fun hns => C62_values now _ w3 post ha _ _ hat hns⟩
  obtain ⟨v', hv', h4⟩ := tryM_ok h4
  have data : v' ≠ .group := by
    have : ∀ y, m'.compute w3.sim.core.g r' = some y → ∀ b, y = .ok b → b ≠ .group := by
      intro y hy b hb
      unfold Monitor.compute at hy
      split at hy <;> first
        | (cases hy; obtain ⟨S, -, hb⟩ := (Except.bind_ok ..).mp hb; cases hb; intro e; first | cases e | (unfold forceRows at e; cases e))
        | cases hy
    exact this _ hx' _ hv'
  refine write_taken (q := m'.path ++ [r'.name]) ?_ (List.mem_append_right _ (List.mem_singleton.mpr rfl)) data h4
  rw [hp, hr]
  exact kept_some (C62_kept now _ w3 post ha) (by dsimp only; dsimp only at hat; rw [hat]; rfl)

/-- **C68, results of several kinds.** A written quantity is in the group of the monitor under its name. It does not stand in the way of another
quantity: that is written too, unless it was written before, and then the file holds both. -/
theorem C68_results (now : ℕ → ℝ) (i : ℕ) (r r' : Quantity K) (m : Monitor K) (w1 w2 : World K) (x' : M (H5Obj K)) (v' : H5Obj K)
    (hi : w1.sim.mons[i]? = some m) (hq : (m.compute w1.sim.core.g r).isSome) (h : w1.step now (.report i r) = .ok w2)
    (hx' : m.compute w1.sim.core.g r' = some x') (hv' : x' = .ok v') (hn : w1.tree.at (m.path ++ [resultName r']) = none)
    (hr : resultName r' ≠ resultName r) :
    ∃ v w3, m.compute w1.sim.core.g r = some (.ok v) ∧ w2.tree.at (m.path ++ [resultName r]) = some v ∧ w2.step now (.report i r') = .ok w3 ∧
      w3.tree.at (m.path ++ [resultName r]) = some v ∧ w3.tree.at (m.path ++ [resultName r']) = some v' := by
  have nm : ∀ q : Quantity K, q.name = resultName q := fun q => by cases q <;> rfl
  have data : ∀ q y, m.compute w1.sim.core.g q = some y → ∀ b, y = .ok b → (∀ p, b ≠ .ref p) ∧ b ≠ .group := by
    intro q y hy b hb
    unfold Monitor.compute at hy
    split at hy <;> first
      | (cases hy; obtain ⟨S, -, hb⟩ := (Except.bind_ok ..).mp hb; cases hb; refine ⟨fun p e => ?_, fun e => ?_⟩ <;> first | cases e | (unfold forceRows at e; cases e))
      | cases hy
  obtain ⟨x, hx⟩ := Option.isSome_iff_exists.mp hq
  unfold World.step at h
  simp only [hi, hx] at h
  obtain ⟨v, hv, h⟩ := tryM_ok h
  obtain ⟨hpu, h⟩ := World.write_ok h
  cases h
  rw [nm] at hpu
  have hat := Tree.puts_mem _ hpu (m.path ++ [resultName r], v) (List.mem_append_right _ (List.mem_singleton.mpr rfl))
  have grp : ∀ e ∈ m.groups, e.2 = .group ∧ ((w1.tree.puts (m.groups ++ [(m.path ++ [resultName r], v)])).1).at e.1 = some .group := by
    intro e he
    have h1 := Tree.puts_mem _ hpu e (List.mem_append_left _ he)
    have h2 : e.2 = .group := by
      unfold Monitor.groups groups3 at he
      fin_cases he <;> rfl
    rw [h2] at h1
    exact ⟨h2, h1⟩
  have abs : ((w1.tree.puts (m.groups ++ [(m.path ++ [resultName r], v)])).1).at (m.path ++ [resultName r']) = none := by
    rw [Tree.puts_ne, hn]
    intro e he
    rcases List.mem_append.mp he with he | he
    · have : e.1.length ≤ 3 := by
        unfold Monitor.groups groups3 at he
        fin_cases he <;> simp
      intro h
      rw [h] at this
      simp [Monitor.path] at this
    · rw [List.mem_singleton.mp he]
      simpa using fun h => hr h.symm
  have ok2 : (((w1.tree.puts (m.groups ++ [(m.path ++ [resultName r], v)])).1).puts (m.groups ++ [(m.path ++ [resultName r'], v')])).2 = true := by
    refine Tree.puts_fresh _ (fun e he => ?_) ?_ (fun e he q hq => ?_)
    · rcases List.mem_append.mp he with he | he
      · exact .inr (grp e he)
      · rw [List.mem_singleton.mp he]; exact .inl abs
    · refine List.pairwise_append.mpr ⟨?_, List.pairwise_singleton .., fun e he e' he' => ?_⟩
      · exact List.pairwise_of_forall_mem_list fun e he e' he' => .inr ⟨(grp e he).1, (grp e' he').1⟩
      · left
        intro h
        rw [List.mem_singleton.mp he'] at h
        have := (grp e he).2
        rw [h, abs] at this; cases this
    · rcases List.mem_append.mp he with he | he
      · rw [(grp e he).1] at hq; cases hq
      · rw [List.mem_singleton.mp he] at hq
        exact absurd hq ((data r' x' hx' v' hv').1 q)
  refine ⟨v, { w1 with tree := ((w1.tree.puts (m.groups ++ [(m.path ++ [resultName r], v)])).1.puts (m.groups ++ [(m.path ++ [resultName r'], v')])).1 },
    by rw [hx, hv], by simpa only [nm] using hat, ?_, Tree.puts_keep _ hat,
    Tree.puts_mem _ ok2 (m.path ++ [resultName r'], v') (List.mem_append_right _ (List.mem_singleton.mpr rfl))⟩
  unfold World.step
  simp only [hi, hx', hv', nm, tryM, World.write]
  rw [if_pos ok2]

/-- A non-trivial case of `C68_results`: flux and force of a cylinder monitor of three components, the first data sets in the file. -/
example (now : ℕ → ℝ) (m : CylMon K) (E Ht Hn : Acc K ℤ) (h1 : m.fourier.get "Ez" = .ok E) (h2 : m.fourier.get "Hp" = .ok Ht)
    (h3 : m.fourier.get "Hr" = .ok Hn) (w : World K) (hm : w.sim.mons = [.cyl m]) (ht : w.tree = []) :
    ∃ w2 x v, w.step now (.report 0 .flux) = .ok w2 ∧ (Monitor.compute w.sim.core.g (.cyl m) .flux).isSome ∧
      Monitor.compute w.sim.core.g (.cyl m) .force = some x ∧ x = .ok v ∧ w.tree.at ((Monitor.cyl m).path ++ [resultName (.force : Quantity K)]) = none := by
  have e : Monitor.compute w.sim.core.g (.cyl m) .flux = some (.ok (.nums (overFreq m.fourier.nfreq (computeFlux E Ht m.da .Negative)))) := by
    simp only [Monitor.compute, CylMon.flux, h1, h2]; rfl
  have e2 : ∃ v, (do let S ← m.force; pure (forceRows m.fourier.nfreq S) : M (H5Obj K)) = .ok v := by
    simp only [CylMon.force, h1, h2, h3]; exact ⟨_, rfl⟩
  obtain ⟨v, hv⟩ := e2
  have e3 : (w.tree.puts ((Monitor.cyl m).groups ++
      [((Monitor.cyl m).path ++ ["flux"], H5Obj.nums (overFreq m.fourier.nfreq (computeFlux E Ht m.da .Negative)))])).2 = true := by
    refine Tree.puts_fresh _ (fun e _ => .inl (by rw [ht]; rfl)) ?_ ?_
    · simp [Monitor.groups, groups3, Monitor.path]
    · intro e he q hq
      simp only [Monitor.groups, groups3, List.mem_append, List.mem_cons, List.not_mem_nil, or_false] at he
      rcases he with (rfl | rfl | rfl) | rfl <;> cases hq
  refine ⟨{ w with tree := (w.tree.puts ((Monitor.cyl m).groups ++ [((Monitor.cyl m).path ++ ["flux"],
    H5Obj.nums (overFreq m.fourier.nfreq (computeFlux E Ht m.da .Negative)))])).1 }, _, v, ?_, by rw [e]; rfl, rfl, hv, by rw [ht]; rfl⟩
  unfold World.step
  simp only [hm, List.getElem?_cons_zero, e, tryM, World.write]
  exact if_pos e3

end Qbox.Props
