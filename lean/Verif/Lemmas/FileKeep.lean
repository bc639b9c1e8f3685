import Verif.Lemmas.Tree

/-! # Calls only add to the file -/

namespace Qbox
open Scalar Spec

set_option linter.unusedSectionVars false

variable {K : Type} [Scalar K]

/-! ## The group `fields` -/

/-- Groups and rows stay. -/
structure FileKept (F F' : File K) : Prop where
  groups : ∀ x ∈ F.groups, x ∈ F'.groups
  rows : ∀ k rs, F.rows k = some rs → ∃ new, F'.rows k = some (rs ++ new)

theorem FileKept.refl (F : File K) : FileKept F F := ⟨fun _ h => h, fun _ _ h => ⟨[], by simpa using h⟩⟩

theorem FileKept.trans {F F1 F2 : File K} (h : FileKept F F1) (h' : FileKept F1 F2) : FileKept F F2 :=
  ⟨fun x hx => h'.groups x (h.groups x hx), fun k rs hk => by
    obtain ⟨a, ha⟩ := h.rows k rs hk
    obtain ⟨b, hb⟩ := h'.rows k _ ha
    exact ⟨a ++ b, by rw [hb, List.append_assoc]⟩⟩

theorem FileKept.append (F : File K) (k : Option String × Fields) (r : Row K) : FileKept F (F.append k r) :=
  ⟨fun _ h => h, fun k' rs h => by
    by_cases hk : k' = k
    · subst hk; exact ⟨[r], File.rows_append_self h r⟩
    · exact ⟨[], by rw [File.rows_append_ne hk, h]; simp⟩⟩

theorem FileKept.create {F F' : File K} {k : Option String × Fields} {r : Row K} (h : F.create k r = .ok F') : FileKept F F' := by
  obtain ⟨h1, h2, h3, h4⟩ := File.create_rows h
  refine ⟨fun x hx => by rw [h2]; exact hx, fun k' rs hk => ?_⟩
  by_cases e : k' = k
  · subst e; rw [h1] at hk; cases hk
  · exact ⟨[], by rw [h4 _ e, hk]; simp⟩

theorem FileKept.openGroup {F F' : File K} {n : String} (h : F.openGroup n = .ok F') : FileKept F F' := by
  obtain ⟨h1, h2, -⟩ := File.openGroup_rows h
  exact ⟨fun x hx => (h2 x).mpr (.inl hx), fun k rs hk => ⟨[], by rw [h1, hk]; simp⟩⟩

theorem TMon.writeImpl_kept {g : Grid K} {f : Flds K} {A : Fields} {m m' : TMon K} {F F' : File K}
    (h : m.writeImpl g f A F = .ok (m', F')) : FileKept F F' := by
  unfold TMon.writeImpl at h
  obtain ⟨a, -, h⟩ := (Except.bind_ok ..).mp h
  obtain ⟨r, -, h⟩ := (Except.bind_ok ..).mp h
  split at h
  · cases h; exact .append ..
  · obtain ⟨F1, h1, h⟩ := (Except.bind_ok ..).mp h
    obtain ⟨F2, h2, h⟩ := (Except.bind_ok ..).mp h
    cases h
    exact (FileKept.openGroup h1).trans (.create h2)

theorem TMon.writeH_kept {g : Grid K} {f : Flds K} {m m' : TMon K} {F F' : File K} (h : m.writeH g f F = .ok (m', F')) : FileKept F F' := by
  unfold TMon.writeH at h
  obtain ⟨⟨m1, F1⟩, e, h⟩ := (Except.bind_ok ..).mp h
  exact (TMon.writeImpl_kept e).trans (TMon.writeImpl_kept h)

theorem TMon.write_kept {g : Grid K} {f : Flds K} {m m' : TMon K} {F F' : File K} (h : m.write g f F = .ok (m', F')) : FileKept F F' := by
  unfold TMon.write TMon.writeA at h
  split at h
  · exact TMon.writeImpl_kept h
  · exact TMon.writeH_kept h
  · obtain ⟨⟨m1, F1⟩, e, h⟩ := (Except.bind_ok ..).mp h
    exact (TMon.writeImpl_kept e).trans (TMon.writeH_kept h)
  · exact TMon.writeImpl_kept h

theorem writeReady_kept {g : Grid K} {f : Flds K} : ∀ {l : List (TMon K)} {F : File K} {q : List (TMon K) × File K},
    writeReady g f l F = .ok q → FileKept F q.2
  | [], F, q, h => by cases h; exact .refl F
  | m :: l, F, q, h => by
    unfold writeReady at h
    obtain ⟨⟨m1, F1⟩, e1, h⟩ := (Except.bind_ok ..).mp h
    obtain ⟨⟨l1, F2⟩, e2, h⟩ := (Except.bind_ok ..).mp h
    cases h
    unfold TMon.writeIfReady at e1
    obtain ⟨⟨b, ev⟩, -, e1⟩ := (Except.bind_ok ..).mp e1
    refine FileKept.trans ?_ (writeReady_kept (q := (l1, F2)) e2)
    dsimp only at e1
    split at e1
    · exact TMon.write_kept e1
    · cases e1; exact .refl F

theorem TMon.writeImplLeft_kept (g : Grid K) (f : Flds K) (A : Fields) (m : TMon K) (F : File K) : FileKept F (m.writeImplLeft g f A F).2 := by
  unfold TMon.writeImplLeft
  split
  · exact .refl _
  · split
    · exact .refl _
    · split
      · exact .refl _
      · rename_i h; exact .openGroup h

theorem TMon.writeHLeft_kept (g : Grid K) (f : Flds K) (m : TMon K) (F : File K) : FileKept F (m.writeHLeft g f F).2 := by
  unfold TMon.writeHLeft thenLeft
  split
  · rename_i r e
    exact (TMon.writeImpl_kept (m' := r.1) (F' := r.2) e).trans (TMon.writeImplLeft_kept ..)
  · exact TMon.writeImplLeft_kept ..

theorem TMon.writeLeft_kept (g : Grid K) (f : Flds K) (m : TMon K) (F : File K) : FileKept F (m.writeLeft g f F).2 := by
  unfold TMon.writeLeft
  split
  · exact TMon.writeImplLeft_kept ..
  · exact TMon.writeHLeft_kept ..
  · unfold thenLeft
    split
    · rename_i r e
      exact (TMon.writeImpl_kept (m' := r.1) (F' := r.2) e).trans (TMon.writeHLeft_kept ..)
    · exact TMon.writeImplLeft_kept ..
  · exact TMon.writeImplLeft_kept ..

theorem writeReadyLeft_kept (g : Grid K) (f : Flds K) : ∀ (l : List (TMon K)) (F : File K), FileKept F (writeReadyLeft g f l F).2
  | [], F => .refl F
  | m :: l, F => by
    unfold writeReadyLeft
    split
    · rename_i m1 F1 e
      unfold TMon.writeIfReady at e
      obtain ⟨⟨b, ev⟩, -, e⟩ := (Except.bind_ok ..).mp e
      refine FileKept.trans ?_ (writeReadyLeft_kept g f l F1)
      dsimp only at e
      split at e
      · exact TMon.write_kept e
      · cases e; exact .refl F
    · show FileKept F (m.writeIfReadyLeft g f F).2
      unfold TMon.writeIfReadyLeft
      split
      · exact .refl F
      · split
        · exact TMon.writeLeft_kept ..
        · exact .refl F

theorem File.writeField_kept {F F' : File K} {f : Flds K} {C : Fields} (h : F.writeField f C = .ok F') : FileKept F F' := by
  unfold File.writeField at h
  obtain ⟨a, -, h⟩ := (Except.bind_ok ..).mp h
  split at h
  · cases h; exact .append ..
  · exact .create h

theorem Sim.writeField_kept {now : ℕ → ℝ} {C : Fields} (s : Sim K) : (s.writeField now C).Each fun s' => FileKept s.file s'.file := by
  unfold Sim.writeField
  refine tryM_each (.refl _) fun ck _ => ?_
  refine tryM_each (.refl _) fun F h => ?_
  have := File.writeField_kept h
  exact tryM_each this fun _ _ => this

theorem Sim.step_kept (now : ℕ → ℝ) (s : Sim K) (op : Op K) : (s.step now op).Each fun s' => FileKept s.file s'.file := by
  cases op with
  | update =>
    change (s.update now).Each _
    unfold Sim.update
    refine tryM_each (.refl _) fun _ _ => ?_
    refine tryM_each (.refl _) fun _ _ => ?_
    refine tryM_each (.refl _) fun _ _ => ?_
    refine tryM_each (.refl _) fun _ _ => ?_
    refine tryM_each (.refl _) fun _ _ => ?_
    refine tryM_each (.refl _) fun _ _ => ?_
    refine tryM_each (.refl _) fun _ _ => ?_
    refine tryM_each (.refl _) fun _ _ => ?_
    refine tryM_each (.refl _) fun _ _ => ?_
    refine tryM_each (.refl _) fun _ _ => ?_
    exact tryM_each (writeReadyLeft_kept ..) fun q h => writeReady_kept h
  | addObject o =>
    unfold Sim.step
    dsimp only
    split
    · exact tryM_each (.refl _) fun _ _ => .refl _
    · exact tryM_each (.refl _) fun _ _ => .refl _
  | addSource => exact FileKept.refl _
  | addMonitor => exact tryM_each (.refl _) fun _ _ => .refl _
  | addTimeMonitor m =>
    refine tryM_each (.refl _) fun F h => ?_
    unfold TMon.setF at h
    split at h
    · cases h
    · exact .openGroup h
  | clearFields => exact FileKept.refl _
  | clearMaterials => exact tryM_each (.refl _) fun _ _ => .refl _
  | updateMaterialGrid => exact tryM_each (.refl _) fun _ _ => .refl _
  | removeMonitors => exact FileKept.refl _
  | setTfsf => exact FileKept.refl _
  | writeField C => exact s.writeField_kept
  | writeE => exact s.writeField_kept
  | writeH =>
    have h1 := s.writeField_kept (now := now) (C := .Hx)
    change ((s.writeField now .Hx).andThen _).Each _
    cases hs : s.writeField now .Hx with
    | ok s1 =>
      rw [hs] at h1
      exact Res.Each.mono (fun s' h => FileKept.trans h1 h) s1.writeField_kept
    | threw m s1 => rw [hs] at h1; exact h1
    | ub u => trivial
  | writeMonitor => exact tryM_each (.refl _) fun _ _ => tryM_each (.refl _) fun _ _ => .refl _
  | pose => exact FileKept.refl _
  | writeTimeMonitor i =>
    unfold Sim.step
    dsimp only
    split
    · exact FileKept.refl _
    · exact tryM_each (TMon.writeLeft_kept ..) fun q h => TMon.write_kept h
  | subtract i o =>
    unfold Sim.step
    dsimp only
    split
    · exact FileKept.refl _
    · exact tryM_each (.refl _) fun _ _ => .refl _

/-! ## The rest of the file -/

theorem Spec.Extends.trans {a b c : H5Obj K} (h : Extends a b) (h' : Extends b c) : Extends a c := by
  cases h with
  | same => exact h'
  | more rows new =>
    cases h' with
    | same => exact .more ..
    | more _ new' => rw [List.append_assoc]; exact .more ..

theorem Spec.Keeps.refl (w : World K) : Keeps w w :=
  ⟨fun _ n h => ⟨n, h, .same n⟩, fun _ h => h, fun _ _ h => ⟨[], by simpa using h⟩⟩

theorem Spec.Keeps.trans {a b c : World K} (h : Keeps a b) (h' : Keeps b c) : Keeps a c :=
  ⟨fun p n hn => by
    obtain ⟨n1, h1, e1⟩ := h.tree p n hn
    obtain ⟨n2, h2, e2⟩ := h'.tree p n1 h1
    exact ⟨n2, h2, e1.trans e2⟩,
   fun x hx => h'.groups x (h.groups x hx), fun k rs hk => by
    obtain ⟨a, ha⟩ := h.rows k rs hk
    obtain ⟨b, hb⟩ := h'.rows k _ ha
    exact ⟨a ++ b, by rw [hb, List.append_assoc]⟩⟩

theorem Keeps.of {w w' : World K} (ht : ∀ p n, w.tree.at p = some n → ∃ n', w'.tree.at p = some n' ∧ Extends n n')
    (hf : w'.sim.file = w.sim.file) : Keeps w w' :=
  ⟨ht, fun x hx => by rw [hf]; exact hx, fun k rs h => ⟨[], by rw [hf, h]; simp⟩⟩

theorem Keeps.puts {w w' : World K} (es : List (Path × H5Obj K)) (ht : w'.tree = (w.tree.puts es).1) (hf : w'.sim.file = w.sim.file) :
    Keeps w w' :=
  Keeps.of (fun p n h => ⟨n, by rw [ht]; exact Tree.puts_keep es h, .same n⟩) hf

theorem World.write_kept {w0 w : World K} (es : List (Path × H5Obj K)) {k : World K → Res (World K)} (hw : Keeps w0 w)
    (h : Keeps w0 { w with tree := (w.tree.puts es).1 } → (k { w with tree := (w.tree.puts es).1 }).Each (Keeps w0)) : (w.write es k).Each (Keeps w0) := by
  have := hw.trans (Keeps.puts (w' := { w with tree := (w.tree.puts es).1 }) es rfl rfl)
  exact World.write_each (fun _ => this) (fun _ => h this)

theorem World.append_kept {w0 w : World K} {p : Path} {row : List K} {k : World K → Res (World K)} (hw : Keeps w0 w)
    (h : ∀ t, w.tree.append p row = some t → Keeps w0 { w with tree := t } → (k { w with tree := t }).Each (Keeps w0)) :
    (w.append p row k).Each (Keeps w0) := by
  refine World.append_each (fun _ => hw) fun t ht => h t ht (hw.trans (Keeps.of ?_ rfl))
  obtain ⟨⟨rows, h1, h2⟩, h3⟩ := Tree.append_ok ht
  intro q n hq
  by_cases e : q = p
  · subst e
    rw [h1] at hq
    cases hq
    exact ⟨_, h2, .more ..⟩
  · exact ⟨n, by rw [h3 q e]; exact hq, .same n⟩

theorem World.lift_kept {now : ℕ → ℝ} (w : World K) (op : Op K) : (w.lift (w.sim.step now op)).Each (Keeps w) := by
  have h := Sim.step_kept now w.sim op
  have key : ∀ s : Sim K, FileKept w.sim.file s.file → Keeps w { w with sim := s } := fun s hs =>
    ⟨fun p n h => ⟨n, h, .same n⟩, hs.groups, hs.rows⟩
  cases hs : w.sim.step now op with
  | ok s => rw [hs] at h; exact key s h
  | threw m s => rw [hs] at h; exact key s h
  | ub u => trivial

theorem World.addObject_kept (dyn : Bool) (o : Object K) (w : World K) : (w.addObject dyn o).Each (Keeps w) := by
  unfold World.addObject
  dsimp only
  have h0 : Keeps w (if !(w.sim.mats.contains o.mat.name) then { w with sim := { w.sim with mats := w.sim.mats ++ [o.mat.name] } } else w) := by
    split
    · exact Keeps.of (fun p n h => ⟨n, h, .same n⟩) rfl
    · exact .refl w
  refine World.write_kept _ h0 fun h1 => ?_
  refine tryM_each h1 fun c _ => ?_
  refine World.write_kept _ (h1.trans (Keeps.of (fun p n h => ⟨n, h, .same n⟩) rfl)) fun h2 => ?_
  exact h2.trans (Keeps.of (fun p n h => ⟨n, h, .same n⟩) rfl)

/-- A call only adds to the file, whether it throws or not. -/
theorem World.step_kept (now : ℕ → ℝ) (w : World K) (c : Call K) : (w.step now c).Each (Keeps w) := by
  have same : ∀ w w' : World K, w'.tree = w.tree → w'.sim.file = w.sim.file → Keeps w w' := fun w w' ht hf =>
    Keeps.of (fun p n h => ⟨n, by rw [ht]; exact h, .same n⟩) hf
  cases c with
  | op o =>
    cases o with
    | addObject o => exact w.addObject_kept false o
    | addSource x =>
      unfold World.step
      refine World.write_kept _ (.refl w) fun h => ?_
      exact h.trans (same _ _ rfl rfl)
    | addMonitor m =>
      exact tryM_each (.refl w) fun m _ => World.write_kept _ (.refl w) fun h => h.trans (same _ _ rfl rfl)
    | setTfsf vol tp => exact World.write_kept _ (same _ _ rfl rfl) fun h => h
    | _ => unfold World.step; exact w.lift_kept _
  | addDynamic o => exact w.addObject_kept true o
  | writeCurrent i =>
    unfold World.step
    dsimp only
    split
    · exact World.write_kept _ (.refl w) fun h1 => World.append_kept h1 fun t _ h2 => World.append_kept h2 fun t _ h3 => h3
    · exact Keeps.refl w
  | writeSpectra i =>
    unfold World.step
    dsimp only
    split
    · exact Keeps.refl w
    · exact World.write_kept _ (.refl w) fun h => h
  | report i r =>
    unfold World.step
    dsimp only
    split
    · exact Keeps.refl w
    · split
      · exact Keeps.refl w
      · exact tryM_each (.refl w) fun v _ => World.write_kept _ (.refl w) fun h => h
  | tfsfFlux =>
    unfold World.step
    dsimp only
    split
    · exact Keeps.refl w
    · exact tryM_each (.refl w) fun v _ => World.write_kept _ (.refl w) fun h => h

/-! ## Programs -/

/-- What holds of every state along a program, exceptions caught. -/
theorem World.run_each {now : ℕ → ℝ} {P : World K → Prop} (hstep : ∀ w c, P w → (w.step now c).Each P) :
    ∀ (cs : List (Call K)) (w w' : World K), P w → w.run now cs = .ok w' → P w'
  | [], w, w', h, e => by cases e; exact h
  | c :: l, w, w', h, e => by
    have h1 := hstep w c h
    unfold World.run at e
    cases hs : w.step now c with
    | ok w1 => rw [hs] at h1 e; exact World.run_each hstep l w1 w' h1 e
    | threw m w1 => rw [hs] at h1 e; exact World.run_each hstep l w1 w' h1 e
    | ub u => rw [hs] at e; cases e

theorem World.run_kept {now : ℕ → ℝ} {cs : List (Call K)} {w w' : World K} (h : w.run now cs = .ok w') : Keeps w w' :=
  World.run_each (P := Keeps w) (fun w1 c hk => Res.Each.mono (fun _ h => hk.trans h) (w1.step_kept now c)) cs w w' (.refl w) h

theorem World.run_append (now : ℕ → ℝ) : ∀ (a b : List (Call K)) (w : World K), w.run now (a ++ b) = do (← w.run now a).run now b
  | [], _, _ => rfl
  | c :: a, b, w => by
    rw [List.cons_append, World.run, World.run]
    cases w.step now c with
    | ok w1 => exact World.run_append now a b w1
    | threw m w1 => exact World.run_append now a b w1
    | ub u => rfl

theorem World.runOk_run {now : ℕ → ℝ} : ∀ {cs : List (Call K)} {w w' : World K}, w.runOk now cs = .ok w' → w.run now cs = .ok w'
  | [], _, _, h => h
  | c :: l, w, w', h => by
    unfold World.runOk at h
    unfold World.run
    cases hs : w.step now c with
    | ok w1 => rw [hs] at h; exact World.runOk_run h
    | threw m w1 => rw [hs] at h; cases h
    | ub u => rw [hs] at h; cases h

theorem World.runOk_append (now : ℕ → ℝ) : ∀ (a b : List (Call K)) (w : World K), w.runOk now (a ++ b) = do (← w.runOk now a).runOk now b
  | [], _, _ => rfl
  | c :: a, b, w => by
    rw [List.cons_append, World.runOk, World.runOk]
    cases w.step now c with
    | ok w1 => exact World.runOk_append now a b w1
    | threw m w1 => rfl
    | ub u => rfl

end Qbox
