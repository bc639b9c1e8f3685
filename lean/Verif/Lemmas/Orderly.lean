import Verif.Lemmas.OutputStep
import Verif.Lemmas.SimCore

/-! # Programs that never throw -/

namespace Qbox
open Scalar Spec Props

set_option linter.unusedSectionVars false

theorem get_comp {K : Type} [Scalar K] (f : Flds K) {A : Fields} (h : A ∈ comps) : f.get A = .ok (component f A) := by
  cases A <;> first | rfl | simp [comps] at h

theorem comp_dim {K : Type} [Scalar K] {f : Flds K} {g : Grid K} (hf : f.Dims g.Nx g.Ny) (A : Fields) : (component f A).Dim g.Nx g.Ny := by
  cases A <;> first | exact hf.Ez | exact hf.Hx | exact hf.Hy

theorem expand_comps (A : Fields) : ∀ B ∈ expand A, B ∈ comps := by
  cases A <;> simp [expand, comps]

theorem TMon.writeImpl_ok {g : Grid ℝ} {f : Flds ℝ} (hf : f.Dims g.Nx g.Ny) {A : Fields} (hA : A ∈ comps) {m : TMon ℝ} {F : File ℝ} (hs : m.Sync F)
    (hm : ShapeInside g m.shape) : ∃ m' F', m.writeImpl g f A F = .ok (m', F') ∧ Wrote g f [A] m m' F F' := by
  have key : ∃ m' F', m.writeImpl g f A F = .ok (m', F') := by
    obtain ⟨r, e⟩ := shape_ok g hm (comp_dim hf A)
    unfold TMon.writeImpl
    rw [get_comp f hA, Except.ok_bind, e, Except.ok_bind]
    split_ifs with c
    · exact ⟨_, _, rfl⟩
    · have h1 : F.openGroup m.name = .ok F := by unfold File.openGroup; rw [if_pos hs.group]
      have h2 : F.rows (some m.name, A) = none := by
        by_contra hc; exact c ((hs.sets A).mpr hc)
      rw [h1, Except.ok_bind]
      unfold File.create
      rw [h2]
      simp only [reduceCtorEq, false_and, if_false]
      exact ⟨_, _, rfl⟩
  obtain ⟨m', F', e⟩ := key
  exact ⟨m', F', e, TMon.writeImpl_wrote hs e⟩

theorem TMon.write_ok {g : Grid ℝ} {f : Flds ℝ} (hf : f.Dims g.Nx g.Ny) {m : TMon ℝ} {F : File ℝ} (hs : m.Sync F)
    (hm : ShapeInside g m.shape) : ∃ m' F', m.write g f F = .ok (m', F') := by
  obtain ⟨m1, F1, e1, w1⟩ := TMon.writeImpl_ok hf (A := .Ez) (by simp [comps]) hs hm
  obtain ⟨m2, F2, e2, w2⟩ := TMon.writeImpl_ok hf (A := .Hx) (by simp [comps]) hs hm
  obtain ⟨m3, F3, e3, w3⟩ := TMon.writeImpl_ok hf (A := .Hy) (by simp [comps]) hs hm
  obtain ⟨m4, F4, e4, w4⟩ := TMon.writeImpl_ok hf (A := .Hy) (by simp [comps]) w2.sync (by rw [w2.shape]; exact hm)
  obtain ⟨m5, F5, e5, w5⟩ := TMon.writeImpl_ok hf (A := .Hx) (by simp [comps]) w1.sync (by rw [w1.shape]; exact hm)
  obtain ⟨m6, F6, e6, w6⟩ := TMon.writeImpl_ok hf (A := .Hy) (by simp [comps]) w5.sync (by rw [w5.shape, w1.shape]; exact hm)
  unfold TMon.write TMon.writeA TMon.writeE TMon.writeH
  cases hw : m.what with
  | E => exact ⟨_, _, e1⟩
  | H => simp only [e2, Except.ok_bind]; exact ⟨_, _, e4⟩
  | all => simp only [e1, e5, Except.ok_bind]; exact ⟨_, _, e6⟩
  | Ez => exact ⟨_, _, e1⟩
  | Hx => exact ⟨_, _, e2⟩
  | Hy => exact ⟨_, _, e3⟩

theorem writeReady_ok {g : Grid ℝ} {f : Flds ℝ} (hf : f.Dims g.Nx g.Ny) : ∀ (l : List (TMon ℝ)) (F : File ℝ), (∀ m ∈ l, m.Sync F) →
    (l.map (·.name)).Nodup → (∀ m ∈ l, ShapeInside g m.shape ∧ m.outFreq.Ready) → ∃ l' F', writeReady g f l F = .ok (l', F')
  | [], F, _, _, _ => ⟨_, _, rfl⟩
  | m :: l, F, hs, hn, hr => by
    obtain ⟨b, e, h1, h2⟩ := Every.check_ready (hr m (by simp)).2
    have hsm := hs m (by simp)
    have key : ∃ m1 F1, m.writeIfReady g f F = .ok (m1, F1) ∧ F1.groups = F.groups ∧
        ∀ k : Option String × Fields, k.1 ≠ some m.name → F1.rows k = F.rows k := by
      unfold TMon.writeIfReady
      rw [h1, Except.ok_bind]
      cases b with
      | false => exact ⟨_, _, rfl, rfl, fun _ _ => rfl⟩
      | true =>
        obtain ⟨m1, F1, e1⟩ := TMon.write_ok (m := { m with outFreq := e }) hf ⟨hsm.group, hsm.sets⟩ (hr m (by simp)).1
        have w := TMon.write_wrote (m := { m with outFreq := e }) ⟨hsm.group, hsm.sets⟩ e1
        exact ⟨m1, F1, e1, w.groups, fun k hk => w.miss k (fun A _ hc => hk (by rw [hc]))⟩
    obtain ⟨m1, F1, e1, g1, k1⟩ := key
    rw [List.map_cons, List.nodup_cons] at hn
    have hne : ∀ x ∈ l, x.name ≠ m.name := fun x hx hc => hn.1 (by rw [← hc]; exact List.mem_map_of_mem hx)
    obtain ⟨l2, F2, e2⟩ := writeReady_ok hf l F1 (fun x hx => (hs x (by simp [hx])).congr (fun y hy => by rw [g1]; exact hy)
      (fun A => k1 _ (by simpa using hne x hx))) hn.2 (fun x hx => hr x (by simp [hx]))
    unfold writeReady
    rw [e1, Except.ok_bind]
    simp only
    rw [e2]
    exact ⟨_, _, rfl⟩

/-- The file is in order and the clocks are idle. -/
structure Orderly (g : Grid ℝ) (used : List String) (s : Sim ℝ) : Prop where
  tidy : Tidy s.tmons s.file
  groups : ∀ n ∈ s.file.groups, n ∈ used ∧ n ∉ comps.map fieldName
  names : ∀ A ∈ comps, fieldName A ∈ used
  fields : ∀ A, s.file.rows (none, A) ≠ none → A ∈ comps
  idle : s.clocks.Idle
  shapes : ∀ m ∈ s.tmons, ShapeInside g m.shape

theorem Orderly.openGroup {g : Grid ℝ} {used : List String} {s : Sim ℝ} (h : Orderly g used s) {n : String} (hn : n ∉ used) :
    n ∉ s.file.groups ∧ ∃ F, s.file.openGroup n = .ok F := by
  have hg : n ∉ s.file.groups := fun hc => hn (h.groups n hc).1
  refine ⟨hg, ?_⟩
  unfold File.openGroup
  rw [if_neg hg, if_neg]
  · exact ⟨_, rfl⟩
  · intro hc
    rw [List.any_eq_true] at hc
    obtain ⟨e, he, hc⟩ := hc
    simp only [Bool.and_eq_true, beq_iff_eq] at hc
    have hr : s.file.rows (none, e.1.2) ≠ none := by
      unfold File.rows
      simp only [ne_eq, Option.map_eq_none_iff, List.find?_eq_none, not_forall]
      exact ⟨e, he, by simp [← hc.1]⟩
    exact hn (by rw [← hc.2]; exact h.names _ (h.fields _ hr))

theorem Orderly.field {g : Grid ℝ} {used : List String} {s : Sim ℝ} (h : Orderly g used s) (now : ℕ → ℝ) {C : Fields} (hC : C ∈ comps) :
    ∃ s', s.writeField now C = .ok s' ∧ Orderly g used s' := by
  have hw : ∃ F, s.file.writeField s.core.f C = .ok F := by
    unfold File.writeField
    rw [get_comp _ hC, Except.ok_bind]
    cases hr : s.file.rows (none, C) with
    | some l => exact ⟨_, rfl⟩
    | none =>
      simp only
      unfold File.create
      rw [hr]
      simp only
      rw [if_neg]
      · exact ⟨_, rfl⟩
      · rintro ⟨-, hc⟩
        exact (h.groups _ hc).2 (List.mem_map_of_mem hC)
  obtain ⟨F, e⟩ := hw
  obtain ⟨-, r1, r2, r3⟩ := File.writeField_rows e
  refine ⟨{ s with file := F, clocks := s.clocks.work now .hdf5 }, ?_, ?_⟩
  · rw [Sim.writeField_idle now C s h.idle.2.2, e]; rfl
  · refine ⟨h.tidy.field r1 fun n A => r3 _ (by simp), by show ∀ n ∈ F.groups, _; rw [r1]; exact h.groups, h.names, ?_, Clocks.work_idle h.idle, h.shapes⟩
    intro A hA
    by_cases c : A = C
    · rw [c]; exact hC
    · exact h.fields A (by rw [← r3 _ (by simpa using c)]; exact hA)

/-- Inside the domain, with proper names, no call throws. -/
theorem step_orderly (now : ℕ → ℝ) {g : Grid ℝ} (hg : g.Wide) (hd : 0 < g.dx) (objs : List (Object ℝ)) (used : List String) (op : Op ℝ) (l : List (Op ℝ))
    (hi : Inside False g objs (op :: l)) {s : Sim ℝ} (h : s.Safe False g objs) (ho : Orderly g used s) (hp : Proper used (op :: l)) :
    ∃ s' objs' used', s.step now op = .ok s' ∧ Inside False g objs' l ∧ s'.Safe False g objs' ∧ Orderly g used' s' ∧ Proper used' l := by
  have hgood := step_keeps now hg hd objs op l hi h
  have fin : ∀ s' used', s.step now op = .ok s' → Orderly g used' s' → Proper used' l →
      ∃ s' objs' used', s.step now op = .ok s' ∧ Inside False g objs' l ∧ s'.Safe False g objs' ∧ Orderly g used' s' ∧ Proper used' l := by
    intro s' used' e h1 h2
    rw [e] at hgood
    obtain ⟨o, i1, i2⟩ := hgood
    exact ⟨s', o, used', e, i1, i2, h1, h2⟩
  have same : ∀ s' : Sim ℝ, s'.file = s.file → s'.tmons = s.tmons → s'.clocks = s.clocks → Orderly g used s' := by
    intro s' h1 h2 h3
    exact ⟨by rw [h1, h2]; exact ho.tidy, by rw [h1]; exact ho.groups, ho.names, by rw [h1]; exact ho.fields, by rw [h3]; exact ho.idle, by rw [h2]; exact ho.shapes⟩
  cases op with
  | update =>
    obtain ⟨c, e1, w1, g1, -⟩ := Core.stageE_ok h.wf (by rw [h.grid]; exact hg)
    have gg : c.g = g := g1.trans h.grid
    obtain ⟨srcs', f', e2, d2, -, hs2, -⟩ := pulseAll_ok (g := c.g) c.t s.srcs c.f (by rw [gg]; exact h.srcs) w1.f
    have e3 := pulseTry_of_all _ _ _ _ e2
    have e4 := mapM'_ready_or (step := Monitor.update c.g f' c.t) (Q := Monitor.Ready False g) s.mons (fun m hm => by
      have := Monitor.update_ready (B := False) (g := c.g) d2 c.t (m := m) (by rw [gg]; exact h.mons m hm)
      rwa [gg] at this ⊢)
    have w2 : ({ c with f := f' } : Core ℝ).WF := { w1 with f := d2 }
    obtain ⟨c2, e5, w5, g5, -⟩ := Core.stageH_ok (c := { c with f := f' }) w2 (by rw [show ({ c with f := f' } : Core ℝ).g = g from gg]; exact hg)
    have gg2 : c2.g = g := g5.trans gg
    have hf2 : c2.f.Dims g.Nx g.Ny := by have := w5.f; rwa [gg2] at this
    rcases e4 with ⟨mons, e4, -⟩ | ⟨hb, -⟩
    · obtain ⟨l', F', e6⟩ := writeReady_ok hf2 s.tmons s.file ho.tidy.sync ho.tidy.names fun m hm => ⟨ho.shapes m hm, (h.tmons m hm).every⟩
      have hu : s.update now = .ok { s with clocks := s.clocks.afterUpdate now, mons := mons, core := c2, srcs := srcs', tmons := l', file := F' } := by
        rw [Sim.update_idle now s ho.idle, e1]
        simp only [tryM, e3, e4, e5]
        rw [gg2, e6]
      obtain ⟨r1, r2, r3, r4, r5⟩ := writeReady_wrote s.tmons s.file l' F' ho.tidy.sync ho.tidy.names e6
      refine fin _ used hu ⟨⟨r3, by show (l'.map _).Nodup; rw [r1]; exact ho.tidy.names, ?_⟩, by show ∀ n ∈ F'.groups, _; rw [r2]; exact ho.groups, ho.names, ?_,
        Clocks.work_idle (Clocks.work_idle (Clocks.work_idle ho.idle)), ?_⟩ hp
      · intro n A hn
        change n ∉ F'.groups at hn
        rw [r2] at hn
        show F'.rows _ = none
        rw [r4 _ (fun m hm hc => hn (by simp only [Option.some.injEq] at hc; rw [hc]; exact (ho.tidy.sync m hm).group))]
        exact ho.tidy.rest n A hn
      · intro A hA
        change F'.rows (none, A) ≠ none at hA
        rw [r4 _ (by simp)] at hA
        exact ho.fields A hA
      · intro m hm
        obtain ⟨k, hk, hke⟩ := List.mem_iff_getElem.mp hm
        have hlen : l'.length = s.tmons.length := by simpa using congrArg List.length r1
        have hk' : k < s.tmons.length := by rw [← hlen]; exact hk
        obtain ⟨m', b, q1, q2, q3, -⟩ := r5 k s.tmons[k] (List.getElem?_eq_getElem hk')
        rw [List.getElem?_eq_getElem hk, Option.some.injEq] at q1
        rw [← hke]
        show ShapeInside g (l'[k].shape)
        rw [q1, q3]
        exact ho.shapes _ (List.getElem_mem hk')
    · exact hb.elim
  | addObject o =>
    obtain ⟨hs, hl⟩ := hi
    obtain ⟨c, e1, w1, g1, -⟩ := Core.insertObject_ok h.wf (o := o) (by rw [h.grid]; exact hs)
    by_cases hm : o.mat.name ∈ s.mats
    · exact fin { s with core := c, objs := s.objs ++ [o] } used (by unfold Sim.step; simp only [if_pos hm, e1, tryM]) (same _ rfl rfl rfl) hp
    · exact fin { s with mats := s.mats ++ [o.mat.name], core := c, objs := s.objs ++ [o] } used (by unfold Sim.step; simp only [if_neg hm, e1, tryM]) (same _ rfl rfl rfl) hp
  | addSource x => exact fin _ used rfl (same _ rfl rfl rfl) hp
  | addMonitor m =>
    obtain ⟨hm, hl⟩ := hi
    obtain ⟨m', e, r⟩ := attached (B := False) g hd hm
    refine fin { s with mons := s.mons ++ [m'] } used ?_ (same _ rfl rfl rfl) hp
    show tryM (m.setF s.core.g) s _ = _
    rw [h.grid, e]; rfl
  | addTimeMonitor m =>
    obtain ⟨hm, hl⟩ := hi
    obtain ⟨p1, p2, p3⟩ := hp
    obtain ⟨hng, F, e⟩ := ho.openGroup p1
    have hstep : s.step now (.addTimeMonitor m) = .ok { s with file := F, tmons := s.tmons ++ [m] } := by
      show tryM (m.setF s.file) s _ = _
      unfold TMon.setF
      rw [if_neg hng, e]; rfl
    obtain ⟨r1, r2, -⟩ := File.openGroup_rows e
    obtain ⟨t1, -, -⟩ := step_output now _ hstep ho.tidy p2
    refine fin _ (m.name :: used) hstep ⟨t1, ?_, fun A hA => List.mem_cons_of_mem _ (ho.names A hA), ?_, ho.idle, ?_⟩ p3
    · intro n hn
      rcases (r2 n).mp hn with hn | rfl
      · exact ⟨List.mem_cons_of_mem _ (ho.groups n hn).1, (ho.groups n hn).2⟩
      · refine ⟨by simp, fun hc => p1 ?_⟩
        rw [List.mem_map] at hc
        obtain ⟨A, hA, hc⟩ := hc
        rw [← hc]; exact ho.names A hA
    · intro A hA
      change F.rows _ ≠ none at hA
      rw [r1] at hA
      exact ho.fields A hA
    · intro x hx
      rcases List.mem_append.mp hx with hx | hx
      · exact ho.shapes x hx
      · rw [List.mem_singleton.mp hx]; exact hm.1
  | clearFields => exact fin _ used rfl (same _ rfl rfl rfl) hp
  | clearMaterials =>
    have e := clearMaterials_closed (g := s.core.g) h.wf.f
    have : ∃ f, s.step now .clearMaterials = .ok { s with core := { s.core with f := f } } := by
      refine ⟨s.core.f.paint (.simple vacuum) s.core.g.dt (fun _ _ => true) (rect 0 s.core.g.Nx 0 s.core.g.Ny), ?_⟩
      show tryM (Qbox.clearMaterials s.core.g s.core.f) s _ = _
      rw [e]; rfl
    obtain ⟨f, hf⟩ := this
    exact fin { s with core := { s.core with f := f } } used hf (same _ rfl rfl rfl) hp
  | updateMaterialGrid =>
    obtain ⟨hs, hl⟩ := hi
    obtain ⟨c, e, -⟩ := Core.updateMaterialGrid_ok h.wf s.objs (by rw [h.grid, h.objs]; exact hs) h.pols
    exact fin { s with core := c } used (by show tryM _ _ _ = _; rw [e]; rfl) (same _ rfl rfl rfl) hp
  | removeMonitors => exact fin _ used rfl (same _ rfl rfl rfl) hp
  | setTfsf vol tp => exact fin _ used rfl (same _ rfl rfl rfl) hp
  | writeField C =>
    obtain ⟨s', e, o'⟩ := ho.field now hp.1
    exact fin s' used e o' hp.2
  | writeE =>
    obtain ⟨s', e, o'⟩ := ho.field now (C := .Ez) (by simp [comps])
    exact fin s' used e o' hp
  | writeH =>
    obtain ⟨s1, e1, o1⟩ := ho.field now (C := .Hx) (by simp [comps])
    obtain ⟨s2, e2, o2⟩ := o1.field now (C := .Hy) (by simp [comps])
    refine fin s2 used ?_ o2 hp
    show (s.writeField now .Hx).andThen _ = _
    rw [e1]; exact e2
  | writeMonitor =>
    have b1 := Clocks.begin_ok (now := now) (n := .hdf5) ho.idle.2.2
    have b2 := Clocks.stop_ok (now := now) (Clocks.started_ticking now s.clocks .hdf5)
    change _ = Except.ok (s.clocks.work now .hdf5) at b2
    refine fin { s with clocks := s.clocks.work now .hdf5 } used ?_ ⟨ho.tidy, ho.groups, ho.names, ho.fields, Clocks.work_idle ho.idle, ho.shapes⟩ hp
    unfold Sim.step
    rw [b1]
    simp only [tryM]
    rw [b2]
  | pose i p => exact fin _ used rfl (same _ rfl rfl rfl) hp
  | writeTimeMonitor i =>
    cases hti : s.tmons[i]? with
    | none => exact fin s used (by unfold Sim.step; simp only [hti]) ho hp
    | some m =>
      have hm := List.mem_of_getElem? hti
      have hf : s.core.f.Dims g.Nx g.Ny := by have := h.wf.f; rwa [h.grid] at this
      obtain ⟨m', F', e⟩ := TMon.write_ok hf (ho.tidy.sync m hm) (ho.shapes m hm)
      have hstep : s.step now (.writeTimeMonitor i) = .ok { s with tmons := s.tmons.set i m', file := F' } := by
        unfold Sim.step
        simp only [hti]
        rw [h.grid, e]; rfl
      have w := TMon.write_wrote (ho.tidy.sync m hm) e
      obtain ⟨t1, -, -⟩ := step_output now _ hstep ho.tidy trivial
      refine fin _ used hstep ⟨t1, by show ∀ n ∈ F'.groups, _; rw [w.groups]; exact ho.groups, ho.names, ?_, ho.idle, ?_⟩ hp
      · intro A hA
        change F'.rows _ ≠ none at hA
        rw [w.miss _ (by simp)] at hA
        exact ho.fields A hA
      · intro x hx
        rcases List.mem_or_eq_of_mem_set hx with hx | rfl
        · exact ho.shapes x hx
        · rw [w.shape]; exact ho.shapes m hm
  | subtract i o => exact hp.elim

theorem runOk_orderly (now : ℕ → ℝ) {g : Grid ℝ} (hg : g.Wide) (hd : 0 < g.dx) : ∀ (ops : List (Op ℝ)) (objs : List (Object ℝ)) (used : List String) (s : Sim ℝ),
    Inside False g objs ops → s.Safe False g objs → Orderly g used s → Proper used ops →
    ∃ s' objs' used', s.runOk now ops = .ok s' ∧ s'.Safe False g objs' ∧ Orderly g used' s'
  | [], objs, used, s, _, h, ho, _ => ⟨s, objs, used, rfl, h, ho⟩
  | op :: l, objs, used, s, hi, h, ho, hp => by
    obtain ⟨s1, objs1, used1, e, i1, h1, o1, p1⟩ := step_orderly now hg hd objs used op l hi h ho hp
    obtain ⟨s2, objs2, used2, e2, r⟩ := runOk_orderly now hg hd l objs1 used1 s1 i1 h1 o1 p1
    refine ⟨s2, objs2, used2, ?_, r⟩
    unfold Sim.runOk
    simp only [e]
    exact e2

end Qbox
