import Verif.Lemmas.MonSafe
import Verif.Props.ClockProps
import Verif.Spec.HistorySpec

/-!
# Histories of calls: time (C22) and observers (C23)
-/

namespace Qbox.Props
open Qbox Scalar Spec

set_option linter.unusedSectionVars false

variable {K : Type} [Scalar K]

/-- The state left behind by a call. -/
def Res.left {σ : Type} : Res σ → M σ
  | .ok s => .ok s
  | .threw _ s => .ok s
  | .ub u => .error (.ub u)

theorem run_cons (now : ℕ → ℝ) (s : Sim K) (op : Op K) (l : List (Op K)) :
    s.run now (op :: l) = (Res.left (s.step now op) >>= fun s => s.run now l) := by
  conv_lhs => unfold Sim.run
  cases s.step now op <;> rfl

theorem run_append (now : ℕ → ℝ) : ∀ (l k : List (Op K)) (s : Sim K), s.run now (l ++ k) = (s.run now l >>= fun s => s.run now k)
  | [], _, _ => rfl
  | op :: l, k, s => by
    rw [List.cons_append, run_cons, run_cons]
    cases Res.left (s.step now op) with
    | error e => rfl
    | ok s1 => exact run_append now l k s1

theorem runOk_run (now : ℕ → ℝ) : ∀ (l : List (Op K)) (s s' : Sim K), s.runOk now l = .ok s' → s.run now l = .ok s'
  | [], _, _, h => h
  | op :: l, s, s', h => by
    unfold Sim.runOk at h
    split at h
    · rename_i s1 h1
      rw [run_cons, h1]
      exact runOk_run now l s1 s' h
    · cases h
    · cases h

theorem left_all {σ : Type} {P : σ → Prop} {r : Res σ} {s' : σ} (h : r.All P) (he : Res.left r = .ok s') : P s' := by
  cases r with
  | ok s => cases he; exact h
  | threw m s => cases he; exact h
  | ub u => cases he

/-! ## C22 -/

/-- What a call does to the step counter and the time. -/
theorem step_time (now : ℕ → ℝ) (s : Sim K) (op : Op K) : (s.step now op).All fun s' => s'.core.g = s.core.g ∧
    s'.core.tStep = (if isClear op then 0 else if isUpdate op then s.core.tStep + 1 else s.core.tStep) ∧
    s'.core.t = (if isClear op then 0 else if isUpdate op then s.core.t + s.core.g.dt else s.core.t) := by
  have q : s.core.g = s.core.g ∧ s.core.tStep = s.core.tStep ∧ s.core.t = s.core.t := ⟨rfl, rfl, rfl⟩
  have wf : ∀ C (s : Sim K), (s.writeField now C).All fun s' => s'.core.g = s.core.g ∧ s'.core.tStep = s.core.tStep ∧ s'.core.t = s.core.t :=
    fun C s => (Sim.writeField_core now C s).imp fun s' h => by rw [h.1]; exact ⟨rfl, rfl, rfl⟩
  cases op with
  | update => exact (Sim.update_time now s).imp fun s' h => h
  | clearFields => exact ⟨rfl, rfl, rfl⟩
  | addObject o =>
    unfold Sim.step
    by_cases hm : o.mat.name ∈ s.mats
    · simp only [if_pos hm]
      refine tryM_all q fun c hc => ?_
      have := Core.insertObject_keep hc
      exact ⟨this.g, this.tStep, this.t⟩
    · simp only [if_neg hm]
      refine tryM_all q fun c hc => ?_
      have := Core.insertObject_keep hc
      exact ⟨this.g, this.tStep, this.t⟩
  | addSource x => exact q
  | addMonitor m => exact tryM_all q fun _ _ => q
  | addTimeMonitor m => exact tryM_all q fun _ _ => q
  | clearMaterials => exact tryM_all q fun _ _ => q
  | updateMaterialGrid =>
    refine tryM_all q fun c hc => ?_
    have := Core.updateMaterialGrid_keep hc
    exact ⟨this.g, this.tStep, this.t⟩
  | removeMonitors => exact q
  | setTfsf vol tp => exact q
  | writeField C => exact wf C s
  | writeE => exact wf .Ez s
  | writeH =>
    refine (wf .Hx s).andThen fun s1 h1 => (wf .Hy s1).imp fun s2 h2 => ?_
    exact ⟨h2.1.trans h1.1, h2.2.1.trans h1.2.1, h2.2.2.trans h1.2.2⟩
  | writeMonitor => exact tryM_all q fun _ _ => tryM_all q fun _ _ => q
  | pose i p => exact q
  | writeTimeMonitor i =>
    unfold Sim.step
    cases hi : s.tmons[i]? with
    | none => simp only [hi]; exact q
    | some m => simp only [hi]; exact tryM_all q fun _ _ => q
  | subtract i o =>
    unfold Sim.step
    cases hi : s.mons[i]? with
    | none => simp only [hi]; exact q
    | some m => simp only [hi]; exact tryM_all q fun _ _ => q

theorem stepsSince_snoc (ops : List (Op K)) (op : Op K) :
    stepsSince (ops ++ [op]) = if isClear op then 0 else if isUpdate op then stepsSince ops + 1 else stepsSince ops := by
  unfold stepsSince
  rw [List.reverse_append, List.reverse_singleton, List.singleton_append]
  cases hc : isClear op with
  | true => simp [hc]
  | false => cases hu : isUpdate op <;> simp [hc, hu]

/-- **C22**, for any arithmetic: after any history of calls, whether or not some of them threw an exception, the step counter is the number of updates
since the start or the last `clear_fields`, and the time is that many additions of `dt` to zero. -/
theorem C22_steps (now : ℕ → ℝ) (g : Grid K) (fn : String) (s0 s : Sim K) (ops : List (Op K)) (h0 : Sim.make now g fn = .ok s0)
    (hr : s0.run now ops = .ok s) : s.core.g = g ∧ s.core.tStep = stepsSince ops ∧ s.core.t = (fun x => x + g.dt)^[stepsSince ops] 0 := by
  induction ops using List.reverseRecOn generalizing s with
  | nil =>
    cases hr
    unfold Sim.make at h0
    obtain ⟨ck, -, h0⟩ := (Except.bind_ok ..).mp h0
    obtain ⟨c, hc, h0⟩ := (Except.bind_ok ..).mp h0
    split at h0
    · cases h0
    · cases h0
      unfold Core.make at hc
      obtain ⟨_, -, hc⟩ := (Except.bind_ok ..).mp hc
      obtain ⟨_, -, hc⟩ := (Except.bind_ok ..).mp hc
      obtain ⟨_, -, hc⟩ := (Except.bind_ok ..).mp hc
      cases hc
      exact ⟨rfl, rfl, rfl⟩
  | append_singleton ops op ih =>
    rw [run_append] at hr
    obtain ⟨s1, h1, h2⟩ := (Except.bind_ok ..).mp hr
    rw [run_cons] at h2
    obtain ⟨s2, h2, h3⟩ := (Except.bind_ok ..).mp h2
    cases h3
    obtain ⟨a1, a2, a3⟩ := ih s1 h1
    obtain ⟨b1, b2, b3⟩ := left_all (step_time now s1 op) h2
    refine ⟨b1.trans a1, ?_, ?_⟩
    · rw [b2, stepsSince_snoc]
      cases isClear op with
      | true => rfl
      | false => cases isUpdate op <;> simp [a2]
    · rw [b3, stepsSince_snoc]
      cases isClear op with
      | true => rfl
      | false => cases isUpdate op <;> simp [a3, a1, Function.iterate_succ_apply']

/-- **C22**: in exact arithmetic the time is the step counter times the time step. -/
theorem C22_time (now : ℕ → ℝ) (g : Grid ℝ) (fn : String) (s0 s : Sim ℝ) (ops : List (Op ℝ)) (h0 : Sim.make now g fn = .ok s0)
    (hr : s0.run now ops = .ok s) : s.core.tStep = stepsSince ops ∧ s.core.t = stepsSince ops * g.dt := by
  obtain ⟨-, h1, h2⟩ := C22_steps now g fn s0 s ops h0 hr
  refine ⟨h1, ?_⟩
  rw [h2]
  generalize stepsSince ops = n
  induction n with
  | zero => simp
  | succ n ih => rw [Function.iterate_succ_apply', ih]; push_cast; ring

/-- A history whose count restarts. -/
example : stepsSince ([.update, .update, .clearFields, .update, .writeE, .update, .update] : List (Op ℝ)) = 3 := by decide

/-! ## C23 -/

/-- The parts of a simulation that determine its later fields. -/
structure Alike (s t : Sim K) : Prop where
  core : s.core = t.core
  objs : s.objs = t.objs
  srcs : s.srcs = t.srcs
  mats : s.mats = t.mats
  looping : s.clocks.looping.ticking = t.clocks.looping.ticking

/-- No monitor can throw and the clock for the transforms is stopped. -/
structure Quiet (s : Sim K) : Prop where
  mons : ∀ m ∈ s.mons, m.Aligned
  fourier : s.clocks.fourier.ticking = false

/-- A simulation nobody looks at. -/
structure Unwatched (s : Sim K) : Prop where
  mons : s.mons = []
  tmons : s.tmons = []
  fourier : s.clocks.fourier.ticking = false

theorem begin_cases (now : ℕ → ℝ) (c : Clocks) (n : ClockName) :
    ((c.get n).ticking = true ∧ c.begin now n = .error (.exn startMsg)) ∨ ((c.get n).ticking = false ∧ c.begin now n = .ok (c.started now n)) := by
  cases h : (c.get n).ticking with
  | true => exact Or.inl ⟨rfl, Clocks.begin_fail h⟩
  | false => exact Or.inr ⟨rfl, Clocks.begin_ok h⟩

/-- What `update` does to the parts that matter, in terms of these parts: the new core and sources, and whether the clock for the loops keeps running. -/
def effect (core : Core K) (srcs : List (Source K)) (ticking : Bool) : M (Core K × List (Source K) × Bool) :=
  if ticking then .ok (core.tick, srcs, true)
  else do
    let c ← core.stageE
    let r := pulseTry c.g c.t srcs c.f
    match r.err with
    | some (.exn _) => pure ({ c with f := r.f }, r.srcs, true)
    | some (.ub u) => .error (.ub u)
    | none => do
      let c2 ← ({ c with f := r.f } : Core K).stageH
      pure (c2, r.srcs, false)

/-- The equation of `update` when only the clock for the transforms is known to be stopped. -/
theorem update_eq (now : ℕ → ℝ) (s : Sim K) (hf : s.clocks.fourier.ticking = false) :
    s.update now =
      if s.clocks.looping.ticking then .threw startMsg { s with core := s.core.tick } else
      tryM s.core.stageE { s with clocks := s.clocks.started now .looping } fun c =>
      let r := pulseTry c.g c.t s.srcs c.f
      let s1 : Sim K := { s with clocks := s.clocks.started now .looping, core := { c with f := r.f }, srcs := r.srcs }
      tryM (match r.err with | none => .ok () | some e => .error e) s1 fun _ =>
      tryM (mapM' (Monitor.update c.g r.f c.t) s.mons) { s1 with clocks := (s.clocks.work now .looping).started now .fourier } fun mons =>
      tryM ({ c with f := r.f } : Core K).stageH { s1 with clocks := ((s.clocks.work now .looping).work now .fourier).started now .looping, mons := mons } fun c2 =>
      let left := writeReadyLeft c2.g c2.f s.tmons s.file
      tryM (writeReady c2.g c2.f s.tmons s.file) { s1 with clocks := s.clocks.afterUpdate now, mons := mons, core := c2, tmons := left.1, file := left.2 } fun q =>
      .ok { s1 with clocks := s.clocks.afterUpdate now, mons := mons, core := c2, tmons := q.1, file := q.2 } := by
  cases hl : s.clocks.looping.ticking with
  | true =>
    rw [if_pos rfl]
    unfold Sim.update
    rw [Clocks.begin_fail (n := .looping) hl]
    rfl
  | false =>
    rw [if_neg (by simp)]
    have b1 := Clocks.begin_ok (now := now) (c := s.clocks) (n := .looping) hl
    have b2 := Clocks.stop_ok (now := now) (Clocks.started_ticking now s.clocks .looping)
    have b3 := Clocks.begin_ok (now := now) (c := s.clocks.work now .looping) (n := .fourier) hf
    have b4 := Clocks.stop_ok (now := now) (Clocks.started_ticking now (s.clocks.work now .looping) .fourier)
    have b5 := Clocks.begin_ok (now := now) (c := (s.clocks.work now .looping).work now .fourier) (n := .looping) rfl
    have b6 := Clocks.stop_ok (now := now) (Clocks.started_ticking now ((s.clocks.work now .looping).work now .fourier) .looping)
    change _ = Except.ok (s.clocks.work now .looping) at b2
    change _ = Except.ok ((s.clocks.work now .looping).work now .fourier) at b4
    change _ = Except.ok (s.clocks.afterUpdate now) at b6
    unfold Sim.update
    rw [b1]
    simp only [tryM, b2, b3]
    cases s.core.stageE with
    | error e => rfl
    | ok c =>
      simp only
      cases (pulseTry c.g c.t s.srcs c.f).err with
      | some e => rfl
      | none =>
        simp only
        cases mapM' (Monitor.update c.g (pulseTry c.g c.t s.srcs c.f).f c.t) s.mons with
        | error e => rfl
        | ok mons =>
          simp only [b4, b5]
          cases ({ c with f := (pulseTry c.g c.t s.srcs c.f).f } : Core K).stageH with
          | error e => rfl
          | ok c2 => simp only [b6]

theorem update_effect (now : ℕ → ℝ) (s : Sim K) (hq : Quiet s) : (s.update now).All fun s' =>
    effect s.core s.srcs s.clocks.looping.ticking = .ok (s'.core, s'.srcs, s'.clocks.looping.ticking) ∧ s'.objs = s.objs ∧ s'.mats = s.mats ∧ Quiet s' := by
  rw [update_eq now s hq.fourier]
  cases hl : s.clocks.looping.ticking with
  | true =>
    rw [if_pos rfl]
    refine ⟨?_, rfl, rfl, hq.mons, hq.fourier⟩
    unfold effect
    rw [if_pos rfl]
    show _ = Except.ok (_, _, s.clocks.looping.ticking)
    rw [hl]
  | false =>
    rw [if_neg (by simp)]
    refine tryM_all_nothrow (Throws.stageE _) fun c hc => ?_
    dsimp only
    have e0 : effect s.core s.srcs false = (match (pulseTry c.g c.t s.srcs c.f).err with
        | some (.exn _) => pure ({ c with f := (pulseTry c.g c.t s.srcs c.f).f }, (pulseTry c.g c.t s.srcs c.f).srcs, true)
        | some (.ub u) => .error (.ub u)
        | none => do
          let c2 ← ({ c with f := (pulseTry c.g c.t s.srcs c.f).f } : Core K).stageH
          pure (c2, (pulseTry c.g c.t s.srcs c.f).srcs, false)) := by
      unfold effect
      rw [if_neg (by simp), hc, Except.ok_bind]
    rw [e0]
    cases he : (pulseTry c.g c.t s.srcs c.f).err with
    | some e =>
      cases e with
      | exn m => exact ⟨rfl, rfl, rfl, hq.mons, hq.fourier⟩
      | ub u => trivial
    | none =>
      dsimp only
      unfold tryM
      dsimp only
      change (tryM _ _ _).All _
      refine tryM_all_nothrow (Throws.mapMem _ fun m hm => Throws.monitorAligned _ _ _ (hq.mons m hm)) fun mons hmons => ?_
      have hal : ∀ m ∈ mons, m.Aligned := mapM'_mem (fun a a' ha e => ha.update e) hq.mons hmons
      refine tryM_all_nothrow (Throws.stageH _) fun c2 hc2 => ?_
      have e1 : (do
          let c2 ← ({ c with f := (pulseTry c.g c.t s.srcs c.f).f } : Core K).stageH
          pure (c2, (pulseTry c.g c.t s.srcs c.f).srcs, false) : M _) = .ok (c2, (pulseTry c.g c.t s.srcs c.f).srcs, false) := by
        rw [hc2]; rfl
      refine tryM_all ⟨e1, rfl, rfl, hal, rfl⟩ fun q hq2 => ?_
      exact ⟨e1, rfl, rfl, hal, rfl⟩

/-- A simulation nobody looks at does exactly that. -/
theorem unwatched_update (now : ℕ → ℝ) (t : Sim K) (hu : Unwatched t) {c : Core K} {srcs : List (Source K)} {b : Bool}
    (he : effect t.core t.srcs t.clocks.looping.ticking = .ok (c, srcs, b)) :
    ∃ t', Res.left (t.update now) = .ok t' ∧ t'.core = c ∧ t'.srcs = srcs ∧ t'.clocks.looping.ticking = b ∧ t'.objs = t.objs ∧ t'.mats = t.mats ∧ Unwatched t' := by
  rw [update_eq now t hu.fourier]
  unfold effect at he
  cases hl : t.clocks.looping.ticking with
  | true =>
    rw [hl, if_pos rfl] at he
    cases he
    rw [if_pos rfl]
    exact ⟨_, rfl, rfl, rfl, hl, rfl, rfl, hu.mons, hu.tmons, hu.fourier⟩
  | false =>
    rw [hl, if_neg (by simp)] at he
    obtain ⟨c1, h1, he⟩ := (Except.bind_ok ..).mp he
    rw [if_neg (by simp), h1]
    simp only [tryM]
    cases hp : (pulseTry c1.g c1.t t.srcs c1.f).err with
    | some e =>
      simp only [hp] at he
      cases e with
      | exn m => cases he; exact ⟨_, rfl, rfl, rfl, rfl, rfl, rfl, hu.mons, hu.tmons, hu.fourier⟩
      | ub u => cases he
    | none =>
      simp only [hp] at he
      obtain ⟨c2, h2, he⟩ := (Except.bind_ok ..).mp he
      cases he
      simp only [hu.mons, mapM', h2, hu.tmons, writeReady]
      exact ⟨_, rfl, rfl, rfl, rfl, rfl, rfl, rfl, rfl, rfl⟩

/-- Every monitor added is on surfaces parallel to an axis. -/
def AddsAligned : Op K → Prop
  | .addMonitor m => m.Aligned
  | _ => True

theorem Alike.refl (s : Sim K) : Alike s s := ⟨rfl, rfl, rfl, rfl, rfl⟩

theorem writeField_looks (now : ℕ → ℝ) (C : Fields) (s : Sim K) (hq : Quiet s) : (s.writeField now C).All fun s' => Alike s' s ∧ Quiet s' := by
  have q : Alike s s ∧ Quiet s := ⟨.refl s, hq⟩
  unfold Sim.writeField
  rcases begin_cases now s.clocks .hdf5 with ⟨-, h⟩ | ⟨-, h⟩
  · rw [h]; exact q
  · rw [h]
    refine tryM_all q fun ck hck => ?_
    cases hck
    have q1 : Alike ({ s with clocks := s.clocks.started now .hdf5 } : Sim K) s ∧ Quiet { s with clocks := s.clocks.started now .hdf5 } :=
      ⟨⟨rfl, rfl, rfl, rfl, rfl⟩, hq.mons, hq.fourier⟩
    refine tryM_all q1 fun file _ => ?_
    dsimp only
    rw [Clocks.stop_ok (Clocks.started_ticking now s.clocks .hdf5)]
    exact ⟨⟨rfl, rfl, rfl, rfl, rfl⟩, hq.mons, hq.fourier⟩

/-- A call that only looks. -/
theorem look (now : ℕ → ℝ) (s : Sim K) (hq : Quiet s) (op : Op K) (ho : observes op = true) (ha : AddsAligned op) :
    (s.step now op).All fun s' => Alike s' s ∧ Quiet s' := by
  have q : Alike s s ∧ Quiet s := ⟨.refl s, hq⟩
  cases op with
  | addMonitor m =>
    refine tryM_all q fun m' hm => ⟨⟨rfl, rfl, rfl, rfl, rfl⟩, ?_, hq.fourier⟩
    intro k hk
    rcases List.mem_append.mp hk with hk | hk
    · exact hq.mons k hk
    · rw [List.mem_singleton.mp hk]; exact Monitor.Aligned.setF ha hm
  | addTimeMonitor m => exact tryM_all q fun _ _ => ⟨⟨rfl, rfl, rfl, rfl, rfl⟩, hq.mons, hq.fourier⟩
  | removeMonitors => exact ⟨⟨rfl, rfl, rfl, rfl, rfl⟩, by simp, hq.fourier⟩
  | writeField C => exact writeField_looks now C s hq
  | writeE => exact writeField_looks now .Ez s hq
  | writeH =>
    refine (writeField_looks now .Hx s hq).andThen fun s1 h1 => (writeField_looks now .Hy s1 h1.2).imp fun s2 h2 => ⟨?_, h2.2⟩
    exact ⟨h2.1.core.trans h1.1.core, h2.1.objs.trans h1.1.objs, h2.1.srcs.trans h1.1.srcs, h2.1.mats.trans h1.1.mats, h2.1.looping.trans h1.1.looping⟩
  | writeMonitor =>
    unfold Sim.step
    dsimp only
    rcases begin_cases now s.clocks .hdf5 with ⟨-, h⟩ | ⟨-, h⟩
    · rw [h]; exact q
    · rw [h]
      refine tryM_all q fun ck hck => ?_
      cases hck
      rw [Clocks.stop_ok (Clocks.started_ticking now s.clocks .hdf5)]
      exact ⟨⟨rfl, rfl, rfl, rfl, rfl⟩, hq.mons, hq.fourier⟩
  | writeTimeMonitor i =>
    unfold Sim.step
    dsimp only
    split
    · exact q
    · exact tryM_all ⟨⟨rfl, rfl, rfl, rfl, rfl⟩, hq.mons, hq.fourier⟩ fun _ _ => ⟨⟨rfl, rfl, rfl, rfl, rfl⟩, hq.mons, hq.fourier⟩
  | subtract i o =>
    unfold Sim.step
    dsimp only
    split
    · exact q
    · rename_i m hm
      refine tryM_all ⟨⟨rfl, rfl, rfl, rfl, rfl⟩, ?_, hq.fourier⟩ fun m' hm' => ⟨⟨rfl, rfl, rfl, rfl, rfl⟩, ?_, hq.fourier⟩
      · intro k hk
        rcases List.mem_or_eq_of_mem_set hk with hk | rfl
        · exact hq.mons k hk
        · exact Monitor.Aligned.subLeft (hq.mons m (List.mem_of_getElem? hm))
      intro k hk
      rcases List.mem_or_eq_of_mem_set hk with hk | rfl
      · exact hq.mons k hk
      · exact Monitor.Aligned.sub (hq.mons m (List.mem_of_getElem? hm)) hm'
  | update => cases ho
  | addObject o => cases ho
  | addSource s => cases ho
  | clearFields => cases ho
  | clearMaterials => cases ho
  | updateMaterialGrid => cases ho
  | setTfsf v t => cases ho
  | pose i p => cases ho

theorem tryM_pair {β : Type} {x : M β} {s t : Sim K} {k k' : β → Res (Sim K)} {s' : Sim K} (h : Res.left (tryM x s k) = .ok s')
    (R : Sim K → Sim K → Prop) (h0 : R s t) (hk : ∀ b s', Res.left (k b) = .ok s' → ∃ t', Res.left (k' b) = .ok t' ∧ R s' t') :
    ∃ t', Res.left (tryM x t k') = .ok t' ∧ R s' t' := by
  unfold tryM at h ⊢
  cases x with
  | ok b => exact hk b s' h
  | error e =>
    cases e with
    | exn m => cases h; exact ⟨t, rfl, h0⟩
    | ub u => cases h

/-- A call that acts, done on a watched simulation and on one nobody looks at. -/
theorem act (now now' : ℕ → ℝ) (s t s' : Sim K) (h : Alike s t) (hq : Quiet s) (hu : Unwatched t) (op : Op K) (ho : observes op = false)
    (he : Res.left (s.step now op) = .ok s') :
    ∃ t', Res.left (t.step now' op) = .ok t' ∧ Alike s' t' ∧ Quiet s' ∧ Unwatched t' := by
  have hR : Alike s t ∧ Quiet s ∧ Unwatched t := ⟨h, hq, hu⟩
  cases op with
  | update =>
    obtain ⟨e1, e2, e3, e4⟩ := left_all (update_effect now s hq) he
    rw [h.core, h.srcs, h.looping] at e1
    obtain ⟨t', f1, f2, f3, f4, f5, f6, f7⟩ := unwatched_update now' t hu e1
    exact ⟨t', f1, ⟨f2.symm, e2.trans (h.objs.trans f5.symm), f3.symm, e3.trans (h.mats.trans f6.symm), f4.symm⟩, e4, f7⟩
  | addObject o =>
    unfold Sim.step at he ⊢
    rw [← h.mats]
    by_cases hm : o.mat.name ∈ s.mats
    · simp only [if_pos hm] at he ⊢
      rw [← h.core]
      refine tryM_pair he (fun s t => Alike s t ∧ Quiet s ∧ Unwatched t) hR fun c s' hs' => ?_
      cases hs'
      exact ⟨_, rfl, ⟨rfl, by show s.objs ++ _ = t.objs ++ _; rw [h.objs], h.srcs, h.mats, h.looping⟩, ⟨hq.mons, hq.fourier⟩, ⟨hu.mons, hu.tmons, hu.fourier⟩⟩
    · simp only [if_neg hm] at he ⊢
      rw [← h.core]
      refine tryM_pair he (fun s t => Alike s t ∧ Quiet s ∧ Unwatched t) ⟨⟨rfl, h.objs, h.srcs, rfl, h.looping⟩, ⟨hq.mons, hq.fourier⟩, ⟨hu.mons, hu.tmons, hu.fourier⟩⟩ fun c s' hs' => ?_
      cases hs'
      exact ⟨_, rfl, ⟨rfl, by show s.objs ++ _ = t.objs ++ _; rw [h.objs], h.srcs, rfl, h.looping⟩, ⟨hq.mons, hq.fourier⟩, ⟨hu.mons, hu.tmons, hu.fourier⟩⟩
  | addSource x =>
    cases he
    exact ⟨_, rfl, ⟨h.core, h.objs, by show s.srcs ++ _ = t.srcs ++ _; rw [h.srcs], h.mats, h.looping⟩, ⟨hq.mons, hq.fourier⟩, ⟨hu.mons, hu.tmons, hu.fourier⟩⟩
  | clearFields =>
    cases he
    exact ⟨_, rfl, ⟨by show s.core.clearFields = t.core.clearFields; rw [h.core], h.objs, h.srcs, h.mats, h.looping⟩, ⟨hq.mons, hq.fourier⟩, ⟨hu.mons, hu.tmons, hu.fourier⟩⟩
  | clearMaterials =>
    unfold Sim.step at he ⊢
    dsimp only at he ⊢
    rw [← h.core]
    refine tryM_pair he (fun s t => Alike s t ∧ Quiet s ∧ Unwatched t) hR fun c s' hs' => ?_
    cases hs'
    exact ⟨_, rfl, ⟨rfl, h.objs, h.srcs, h.mats, h.looping⟩, ⟨hq.mons, hq.fourier⟩, ⟨hu.mons, hu.tmons, hu.fourier⟩⟩
  | updateMaterialGrid =>
    unfold Sim.step at he ⊢
    dsimp only at he ⊢
    rw [← h.core, ← h.objs]
    refine tryM_pair he (fun s t => Alike s t ∧ Quiet s ∧ Unwatched t) ⟨⟨h.core, h.objs, h.srcs, h.mats, h.looping⟩, hq, hu⟩ fun c s' hs' => ?_
    cases hs'
    exact ⟨_, rfl, ⟨rfl, rfl, h.srcs, h.mats, h.looping⟩, ⟨hq.mons, hq.fourier⟩, ⟨hu.mons, hu.tmons, hu.fourier⟩⟩
  | setTfsf vol tp =>
    cases he
    exact ⟨_, rfl, ⟨by show s.core.setTfsf vol tp = t.core.setTfsf vol tp; rw [h.core], h.objs, h.srcs, h.mats, h.looping⟩, ⟨hq.mons, hq.fourier⟩, ⟨hu.mons, hu.tmons, hu.fourier⟩⟩
  | pose i p =>
    cases he
    exact ⟨_, rfl, ⟨h.core, by show s.objs.modify _ _ = t.objs.modify _ _; rw [h.objs], h.srcs, h.mats, h.looping⟩, ⟨hq.mons, hq.fourier⟩, ⟨hu.mons, hu.tmons, hu.fourier⟩⟩
  | addMonitor m => cases ho
  | addTimeMonitor m => cases ho
  | removeMonitors => cases ho
  | writeField C => cases ho
  | writeE => cases ho
  | writeH => cases ho
  | writeMonitor => cases ho
  | writeTimeMonitor i => cases ho
  | subtract i o => cases ho

/-- Leaving out the calls that only look. -/
theorem run_physical (now now' : ℕ → ℝ) : ∀ (ops : List (Op K)) (s t s' : Sim K), Alike s t → Quiet s → Unwatched t → (∀ op ∈ ops, AddsAligned op) →
    s.run now ops = .ok s' → ∃ t', t.run now' (physical ops) = .ok t' ∧ Alike s' t'
  | [], s, t, s', h, _, _, _, he => by cases he; exact ⟨t, rfl, h⟩
  | op :: l, s, t, s', h, hq, hu, ha, he => by
    rw [run_cons] at he
    obtain ⟨s1, h1, h2⟩ := (Except.bind_ok ..).mp he
    cases ho : observes op with
    | true =>
      obtain ⟨a1, a2⟩ := left_all (look now s hq op ho (ha op (by simp))) h1
      have : Alike s1 t := ⟨a1.core.trans h.core, a1.objs.trans h.objs, a1.srcs.trans h.srcs, a1.mats.trans h.mats, a1.looping.trans h.looping⟩
      obtain ⟨t', b1, b2⟩ := run_physical now now' l s1 t s' this a2 hu (fun op hop => ha op (by simp [hop])) h2
      refine ⟨t', ?_, b2⟩
      unfold physical
      rw [List.filter_cons_of_neg (by simp [ho])]
      exact b1
    | false =>
      obtain ⟨t1, b1, b2, b3, b4⟩ := act now now' s t s1 h hq hu op ho h1
      obtain ⟨t', c1, c2⟩ := run_physical now now' l s1 t1 s' b2 b3 b4 (fun op hop => ha op (by simp [hop])) h2
      refine ⟨t', ?_, c2⟩
      unfold physical
      rw [List.filter_cons_of_pos (by simp [ho]), run_cons, b1]
      exact c1

theorem make_unwatched {now : ℕ → ℝ} {g : Grid K} {fn : String} {s : Sim K} (h : Sim.make now g fn = .ok s) :
    Quiet s ∧ Unwatched s ∧ Core.make g = .ok s.core ∧ s.objs = [] ∧ s.srcs = [] ∧ s.mats = [] ∧ s.clocks.looping.ticking = false := by
  have hc := make_clocks h
  unfold Sim.make at h
  obtain ⟨ck, -, h⟩ := (Except.bind_ok ..).mp h
  obtain ⟨c, hcore, h⟩ := (Except.bind_ok ..).mp h
  split at h
  · cases h
  · cases h
    exact ⟨⟨by simp, hc.idle.1⟩, ⟨rfl, rfl, hc.idle.1⟩, hcore, rfl, rfl, rfl, hc.idle.2.1⟩

/-- **C23.** Two simulations of the same grid whose histories differ only in calls that look — attached monitors and time monitors, output, subtraction of
monitors, with whatever exceptions these calls throw — are in the same physical state afterwards: fields, absorbing layer, polarizations, sources, objects.
The clocks may read differently too. -/
theorem C23_observers (now now' : ℕ → ℝ) (g : Grid K) (fn fn' : String) (s0 t0 s t : Sim K) (ops ops' : List (Op K))
    (hs : Sim.make now g fn = .ok s0) (ht : Sim.make now' g fn' = .ok t0) (ha : ∀ op ∈ ops, AddsAligned op) (ha' : ∀ op ∈ ops', AddsAligned op)
    (hp : physical ops = physical ops') (hr : s0.run now ops = .ok s) (hr' : t0.run now' ops' = .ok t) :
    s.core = t.core ∧ s.srcs = t.srcs ∧ s.objs = t.objs := by
  obtain ⟨q1, u1, c1, o1, r1, m1, l1⟩ := make_unwatched hs
  obtain ⟨q2, u2, c2, o2, r2, m2, l2⟩ := make_unwatched ht
  have al : Alike t0 s0 := ⟨Except.ok.inj (c2.symm.trans c1), o2.trans o1.symm, r2.trans r1.symm, m2.trans m1.symm, l2.trans l1.symm⟩
  obtain ⟨w, e1, a1⟩ := run_physical now now ops s0 s0 s (.refl s0) q1 u1 ha hr
  obtain ⟨w', e2, a2⟩ := run_physical now' now ops' t0 s0 t al q2 u1 ha' hr'
  rw [← hp, e1] at e2
  cases e2
  exact ⟨a1.core.trans a2.core.symm, a1.srcs.trans a2.srcs.symm, a1.objs.trans a2.objs.symm⟩

/-- The hypothesis on the surfaces is what their constructor makes sure of. -/
theorem make_aligned {a b : V2 ℝ} {sg : Sgn} {s : Surf ℝ} (h : Surf.make a b sg = .ok s) : s.Aligned := by
  unfold Surf.make at h
  dsimp only at h
  split at h
  · rename_i h1
    cases h
    left
    simp only [V2.cabs, eqb_real, decide_eq_true_eq, absS_real, abs_eq_zero] at h1
    exact sub_eq_zero.mp h1
  · split at h
    · rename_i h1
      cases h
      right
      simp only [V2.cabs, eqb_real, decide_eq_true_eq, absS_real, abs_eq_zero] at h1
      exact sub_eq_zero.mp h1
    · cases h

end Qbox.Props
