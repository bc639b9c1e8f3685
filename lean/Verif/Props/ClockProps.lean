import Verif.Lemmas.SimUpdate
import Verif.Lemmas.Throws
import Verif.Lemmas.CoreOps
import Verif.Props.MaterialGridProps
import Mathlib.Tactic.Linarith
import Mathlib.Order.Monotone.Basic

/-!
# Stopwatches, exceptions and the output file (C48, C49, C51)
-/

namespace Qbox.Props
open Qbox Scalar

variable {K : Type} [Scalar K]

/-! ## Specification -/

/-- A message of the stopwatches. -/
def ClockError (m : String) : Prop := m = startMsg ∨ m = stopMsg

/-- The displayed figures account for disjoint parts of the life of the simulation. -/
structure Accounts (R : Report) (life : ℝ) : Prop where
  looping : 0 ≤ R.looping
  fourier : 0 ≤ R.fourier
  hdf5 : 0 ≤ R.hdf5
  other : 0 ≤ R.other
  sum : R.looping + R.fourier + R.hdf5 + R.other = R.total
  total : R.total = life

/-! ## The clocks through a history -/

/-- `c'` comes from `c` by complete periods of work. -/
def Works (now : ℕ → ℝ) (c c' : Clocks) : Prop :=
  ∃ l : List ClockName, (∀ n ∈ l, n ≠ .self) ∧ c' = l.foldl (Clocks.work now) c

theorem Works.refl (now : ℕ → ℝ) (c : Clocks) : Works now c c := ⟨[], by simp, rfl⟩

theorem Works.trans {now : ℕ → ℝ} {a b c : Clocks} (h1 : Works now a b) (h2 : Works now b c) : Works now a c := by
  obtain ⟨l, hl, rfl⟩ := h1
  obtain ⟨k, hk, rfl⟩ := h2
  refine ⟨l ++ k, ?_, by rw [List.foldl_append]⟩
  intro n hn
  rcases List.mem_append.mp hn with h | h
  · exact hl n h
  · exact hk n h

theorem Works.one (now : ℕ → ℝ) (c : Clocks) {n : ClockName} (h : n ≠ .self) : Works now c (c.work now n) :=
  ⟨[n], by simpa using h, rfl⟩

theorem Works.idle {now : ℕ → ℝ} {c c' : Clocks} (h : Works now c c') (hi : c.Idle) : c'.Idle := by
  obtain ⟨l, -, rfl⟩ := h
  induction l generalizing c with
  | nil => exact hi
  | cons n l ih => exact ih (Clocks.work_idle hi)

/-- The clocks of a simulation that has not met an exception. -/
structure Clocks.Sound (now : ℕ → ℝ) (c : Clocks) : Prop where
  idle : c.Idle
  ticking : c.self.ticking = true
  start : c.self.start = now 0
  dur : c.self.duration = 0
  reads : 1 ≤ c.reads
  looping : 0 ≤ c.looping.duration
  fourier : 0 ≤ c.fourier.duration
  hdf5 : 0 ≤ c.hdf5.duration
  sum : c.looping.duration + c.fourier.duration + c.hdf5.duration ≤ now (c.reads - 1) - now 0

theorem Clocks.Sound.work {now : ℕ → ℝ} (hm : Monotone now) {c : Clocks} (h : Clocks.Sound now c) {n : ClockName} (hn : n ≠ .self) :
    Clocks.Sound now (c.work now n) := by
  have e1 : now c.reads ≤ now (c.reads + 1) := hm (by omega)
  have e2 : now (c.reads - 1) ≤ now c.reads := hm (by omega)
  obtain ⟨h1, h2, h3, h4, h5, h6, h7, h8, h9⟩ := h
  cases n with
  | self => exact absurd rfl hn
  | fourier =>
    refine ⟨Clocks.work_idle h1, h2, h3, h4, ?_, h6, ?_, h8, ?_⟩
    · show 1 ≤ c.reads + 1 + 1; omega
    · show 0 ≤ c.fourier.duration + (now (c.reads + 1) - now c.reads); linarith
    · show c.looping.duration + (c.fourier.duration + (now (c.reads + 1) - now c.reads)) + c.hdf5.duration ≤ now (c.reads + 1) - now 0
      linarith
  | looping =>
    refine ⟨Clocks.work_idle h1, h2, h3, h4, ?_, ?_, h7, h8, ?_⟩
    · show 1 ≤ c.reads + 1 + 1; omega
    · show 0 ≤ c.looping.duration + (now (c.reads + 1) - now c.reads); linarith
    · show c.looping.duration + (now (c.reads + 1) - now c.reads) + c.fourier.duration + c.hdf5.duration ≤ now (c.reads + 1) - now 0
      linarith
  | hdf5 =>
    refine ⟨Clocks.work_idle h1, h2, h3, h4, ?_, h6, h7, ?_, ?_⟩
    · show 1 ≤ c.reads + 1 + 1; omega
    · show 0 ≤ c.hdf5.duration + (now (c.reads + 1) - now c.reads); linarith
    · show c.looping.duration + c.fourier.duration + (c.hdf5.duration + (now (c.reads + 1) - now c.reads)) ≤ now (c.reads + 1) - now 0
      linarith

theorem Clocks.Sound.works {now : ℕ → ℝ} (hm : Monotone now) {c c' : Clocks} (h : Clocks.Sound now c) (hw : Works now c c') :
    Clocks.Sound now c' := by
  obtain ⟨l, hl, rfl⟩ := hw
  induction l generalizing c with
  | nil => exact h
  | cons n l ih => exact ih (h.work hm (hl n (by simp))) (fun k hk => hl k (by simp [hk]))

theorem Clocks.make_sound (now : ℕ → ℝ) : ∃ c, Clocks.make now = .ok c ∧ Clocks.Sound now c :=
  ⟨_, rfl, ⟨rfl, rfl, rfl⟩, rfl, rfl, rfl, le_refl _, le_refl _, le_refl _, le_refl _, by
    show (0 : ℝ) + 0 + 0 ≤ now 0 - now 0; simp⟩

theorem Clocks.Sound.report {now : ℕ → ℝ} (hm : Monotone now) {c : Clocks} (h : Clocks.Sound now c) :
    ∃ R, c.report now = .ok R ∧ Accounts R (now c.reads - now 0) := by
  have e2 : now (c.reads - 1) ≤ now c.reads := hm (by omega)
  have hs := Clocks.stop_ok (now := now) (c := c) (n := .self) h.ticking
  refine ⟨⟨c.looping.duration, c.fourier.duration, c.hdf5.duration, c.self.duration + (now c.reads - c.self.start)
    - c.hdf5.duration - c.fourier.duration - c.looping.duration, c.self.duration + (now c.reads - c.self.start)⟩, ?_, ?_⟩
  · unfold Clocks.report
    rw [hs]; rfl
  · have := h.sum
    refine ⟨h.looping, h.fourier, h.hdf5, ?_, ?_, ?_⟩ <;> simp only [h.start, h.dur] <;> linarith

/-! ## One call -/

theorem Sim.writeField_idle (now : ℕ → ℝ) (C : Fields) (s : Sim K) (h : s.clocks.hdf5.ticking = false) :
    s.writeField now C = tryM (s.file.writeField s.core.f C) { s with clocks := s.clocks.started now .hdf5 } fun file =>
      .ok { s with file := file, clocks := s.clocks.work now .hdf5 } := by
  have b1 := Clocks.begin_ok (now := now) (n := .hdf5) h
  have b2 := Clocks.stop_ok (now := now) (Clocks.started_ticking now s.clocks .hdf5)
  change _ = Except.ok (s.clocks.work now .hdf5) at b2
  unfold Sim.writeField
  rw [b1]
  simp only [tryM, b2]

theorem update_works {now : ℕ → ℝ} {s s' : Sim K} (h : s.clocks.Idle) (he : s.update now = .ok s') : Works now s.clocks s'.clocks := by
  rw [Sim.update_idle now s h] at he
  obtain ⟨c, -, he⟩ := tryM_ok he
  obtain ⟨_, -, he⟩ := tryM_ok he
  obtain ⟨_, -, he⟩ := tryM_ok he
  obtain ⟨_, -, he⟩ := tryM_ok he
  obtain ⟨_, -, he⟩ := tryM_ok he
  cases he
  exact ((Works.one now _ (by decide)).trans (Works.one now _ (by decide))).trans (Works.one now _ (by decide))

theorem writeField_works {now : ℕ → ℝ} {C : Fields} {s s' : Sim K} (h : s.clocks.hdf5.ticking = false) (he : s.writeField now C = .ok s') :
    Works now s.clocks s'.clocks ∧ s'.clocks.hdf5.ticking = false := by
  rw [Sim.writeField_idle now C s h] at he
  obtain ⟨c, -, he⟩ := tryM_ok he
  cases he
  exact ⟨Works.one now _ (by decide), rfl⟩

theorem writeMonitor_eq (now : ℕ → ℝ) {s : Sim K} (h : s.clocks.hdf5.ticking = false) :
    s.step now .writeMonitor = .ok { s with clocks := s.clocks.work now .hdf5 } := by
  have b1 := Clocks.begin_ok (now := now) (n := .hdf5) h
  have b2 := Clocks.stop_ok (now := now) (Clocks.started_ticking now s.clocks .hdf5)
  change _ = Except.ok (s.clocks.work now .hdf5) at b2
  unfold Sim.step
  simp only [b1, b2, tryM]

theorem andThen_ok {σ : Type} {r : Res σ} {k : σ → Res σ} {s' : σ} (h : r.andThen k = .ok s') : ∃ s, r = .ok s ∧ k s = .ok s' := by
  cases r with
  | ok s => exact ⟨s, rfl, h⟩
  | threw m s => cases h
  | ub u => cases h

/-- A call that ends normally runs the clocks for complete periods only. -/
theorem step_works {now : ℕ → ℝ} {s s' : Sim K} (h : s.clocks.Idle) (op : Op K) (he : s.step now op = .ok s') :
    Works now s.clocks s'.clocks := by
  cases op with
  | update => exact update_works h he
  | writeField C => exact (writeField_works h.2.2 he).1
  | writeE => exact (writeField_works h.2.2 he).1
  | writeH =>
    obtain ⟨s1, h1, h2⟩ := andThen_ok he
    have w := writeField_works h.2.2 h1
    exact w.1.trans (writeField_works w.2 h2).1
  | writeMonitor =>
    rw [writeMonitor_eq now h.2.2] at he
    cases he
    exact Works.one now _ (by decide)
  | addObject o =>
    obtain ⟨c, -, h1⟩ := tryM_ok he
    cases h1
    dsimp only
    split <;> exact Works.refl _ _
  | addSource x => cases he; exact Works.refl _ _
  | addMonitor m => obtain ⟨c, -, h1⟩ := tryM_ok he; cases h1; exact Works.refl _ _
  | addTimeMonitor m => obtain ⟨c, -, h1⟩ := tryM_ok he; cases h1; exact Works.refl _ _
  | clearFields => cases he; exact Works.refl _ _
  | clearMaterials => obtain ⟨c, -, h1⟩ := tryM_ok he; cases h1; exact Works.refl _ _
  | updateMaterialGrid => obtain ⟨c, -, h1⟩ := tryM_ok he; cases h1; exact Works.refl _ _
  | removeMonitors => cases he; exact Works.refl _ _
  | setTfsf vol tp => cases he; exact Works.refl _ _
  | pose i p => cases he; exact Works.refl _ _
  | writeTimeMonitor i =>
    unfold Sim.step at he
    simp only at he
    split at he
    · cases he; exact Works.refl _ _
    · obtain ⟨c, -, h1⟩ := tryM_ok he; cases h1; exact Works.refl _ _
  | subtract i o =>
    unfold Sim.step at he
    simp only at he
    split at he
    · cases he; exact Works.refl _ _
    · obtain ⟨c, -, h1⟩ := tryM_ok he; cases h1; exact Works.refl _ _

theorem tryM_threw {σ β : Type} {P : String → Prop} {x : M β} (hx : Throws P x) {s s' : σ} {k : β → Res σ} {m : String}
    (h : tryM x s k = .threw m s') : P m ∨ ∃ b, k b = .threw m s' := by
  unfold tryM at h
  split at h
  · exact Or.inr ⟨_, h⟩
  · cases h; exact Or.inl (hx m rfl)
  · cases h

theorem notClock_field : ¬ ClockError fieldMsg := by unfold ClockError fieldMsg startMsg stopMsg; decide
theorem notClock_surf : ¬ ClockError surfMsg := by unfold ClockError surfMsg startMsg stopMsg; decide
theorem notClock_map : ¬ ClockError "map::at" := by unfold ClockError startMsg stopMsg; decide
theorem notClock_hdf5 : ¬ ClockError "HDF5 error" := by unfold ClockError startMsg stopMsg; decide

theorem update_no_clock_error {now : ℕ → ℝ} {s s' : Sim K} (h : s.clocks.Idle) {m : String} (he : s.update now = .threw m s') :
    ¬ ClockError m := by
  rw [Sim.update_idle now s h] at he
  rcases tryM_threw (P := fun m => ¬ ClockError m) (Throws.stageE _) he with he | ⟨c, he⟩
  · exact he
  have hp := Throws.pulseTry (P := fun m => ¬ ClockError m) notClock_field notClock_surf c.g c.t s.srcs c.f
  dsimp only at he
  rcases tryM_threw (P := fun m => ¬ ClockError m) (by
      intro m hm
      refine hp m ?_
      cases e : (pulseTry c.g c.t s.srcs c.f).err with
      | none => rw [e] at hm; cases hm
      | some f => rw [e] at hm; cases hm; rfl) he with he | ⟨_, he⟩
  · exact he
  rcases tryM_threw (P := fun m => ¬ ClockError m) (Throws.mapM' (fun a => Throws.monitor notClock_field notClock_surf _ _ _ a) _) he with he | ⟨_, he⟩
  · exact he
  rcases tryM_threw (P := fun m => ¬ ClockError m) (Throws.stageH _) he with he | ⟨_, he⟩
  · exact he
  rcases tryM_threw (P := fun m => ¬ ClockError m) (Throws.writeReady notClock_field notClock_surf notClock_hdf5 _ _ _ _) he with he | ⟨_, he⟩
  · exact he
  · cases he

theorem writeField_no_clock_error {now : ℕ → ℝ} {C : Fields} {s s' : Sim K} (h : s.clocks.hdf5.ticking = false) {m : String}
    (he : s.writeField now C = .threw m s') : ¬ ClockError m := by
  rw [Sim.writeField_idle now C s h] at he
  rcases tryM_threw (P := fun m => ¬ ClockError m) (Throws.fileWrite notClock_field notClock_hdf5 _ _ _) he with he | ⟨_, he⟩
  · exact he
  · cases he

/-- No call complains about a clock when the clocks are stopped; for calls other than `update` the clock for the output is enough. -/
theorem step_no_clock_error' {now : ℕ → ℝ} {s s' : Sim K} (h : s.clocks.hdf5.ticking = false) (op : Op K)
    (hu : op = .update → s.clocks.Idle) {m : String} (he : s.step now op = .threw m s') :
    ¬ ClockError m := by
  cases op with
  | update => exact update_no_clock_error (hu rfl) he
  | writeField C => exact writeField_no_clock_error h he
  | writeE => exact writeField_no_clock_error h he
  | writeH =>
    change (s.writeField now .Hx).andThen _ = _ at he
    cases e : s.writeField now .Hx with
    | ub u => rw [e] at he; cases he
    | threw m1 s1 => rw [e] at he; cases he; exact writeField_no_clock_error h e
    | ok s1 => rw [e] at he; exact writeField_no_clock_error (writeField_works h e).2 he
  | writeMonitor => rw [writeMonitor_eq now h] at he; cases he
  | addObject o =>
    rcases tryM_threw (P := fun m => ¬ ClockError m) (Throws.insertObject _ _) he with he | ⟨_, he⟩
    · exact he
    · cases he
  | addSource x => cases he
  | addMonitor m =>
    rcases tryM_threw (P := fun m => ¬ ClockError m) (Throws.setF notClock_surf _ _) he with he | ⟨_, he⟩
    · exact he
    · cases he
  | addTimeMonitor m =>
    rcases tryM_threw (P := fun m => ¬ ClockError m) (Throws.tmonSetF notClock_hdf5 _ _) he with he | ⟨_, he⟩
    · exact he
    · cases he
  | clearFields => cases he
  | clearMaterials =>
    rcases tryM_threw (P := fun m => ¬ ClockError m) (Throws.clearMaterials _ _) he with he | ⟨_, he⟩
    · exact he
    · cases he
  | updateMaterialGrid =>
    rcases tryM_threw (P := fun m => ¬ ClockError m) (Throws.updateGrid notClock_map _ _) he with he | ⟨_, he⟩
    · exact he
    · cases he
  | removeMonitors => cases he
  | setTfsf vol tp => cases he
  | pose i p => cases he
  | writeTimeMonitor i =>
    unfold Sim.step at he
    simp only at he
    split at he
    · cases he
    · rcases tryM_threw (P := fun m => ¬ ClockError m) (Throws.writeT notClock_field notClock_surf notClock_hdf5 _ _ _ _) he with he | ⟨_, he⟩
      · exact he
      · cases he
  | subtract i o =>
    unfold Sim.step at he
    simp only at he
    split at he
    · cases he
    · rcases tryM_threw (P := fun m => ¬ ClockError m) (Throws.monSub notClock_map _ _) he with he | ⟨_, he⟩
      · exact he
      · cases he

theorem step_no_clock_error {now : ℕ → ℝ} {s s' : Sim K} (h : s.clocks.Idle) (op : Op K) {m : String} (he : s.step now op = .threw m s') :
    ¬ ClockError m := step_no_clock_error' h.2.2 op (fun _ => h) he

theorem runOk_sound {now : ℕ → ℝ} (hm : Monotone now) : ∀ (ops : List (Op K)) {s s' : Sim K}, Clocks.Sound now s.clocks →
    s.runOk now ops = .ok s' → Clocks.Sound now s'.clocks
  | [], s, s', h, he => by cases he; exact h
  | op :: l, s, s', h, he => by
    unfold Sim.runOk at he
    split at he
    · rename_i s1 h1
      exact runOk_sound hm l (h.works hm (step_works h.idle op h1)) he
    · cases he
    · cases he

theorem make_clocks {now : ℕ → ℝ} {g : Grid K} {fn : String} {s : Sim K} (h : Sim.make now g fn = .ok s) : Clocks.Sound now s.clocks := by
  obtain ⟨ck, h1, h2⟩ := Clocks.make_sound now
  unfold Sim.make at h
  rw [h1, Except.ok_bind] at h
  obtain ⟨c, -, h⟩ := (Except.bind_ok ..).mp h
  split at h
  · cases h
  · cases h; exact h2

/-! ## C48 -/

/-- **C48.** After every history of successful calls on a new simulation the clocks for work are stopped, the next call — whichever
it is — raises no error of a clock, and destroying the simulation displays figures that account for its whole life. -/
theorem C48_clocks (now : ℕ → ℝ) (hm : Monotone now) (g : Grid K) (fn : String) (s0 s : Sim K) (ops : List (Op K))
    (h0 : Sim.make now g fn = .ok s0) (hr : s0.runOk now ops = .ok s) :
    s.clocks.Idle ∧ (∀ op m s', s.step now op = .threw m s' → ¬ ClockError m) ∧
      ∃ R, s.clocks.report now = .ok R ∧ Accounts R (now s.clocks.reads - now 0) := by
  have hs := make_clocks h0
  have := runOk_sound hm ops hs hr
  exact ⟨this.idle, fun op m s' he => step_no_clock_error this.idle op he, this.report hm⟩

/-- An unsuccessful history ends at the first exception, which is not the complaint of a clock. -/
theorem C48_no_clock_error (now : ℕ → ℝ) (g : Grid K) (fn : String) (s0 : Sim K) (ops : List (Op K))
    (h0 : Sim.make now g fn = .ok s0) (m : String) (hr : s0.runOk now ops = .error (.exn m)) : ¬ ClockError m := by
  have hs := (make_clocks h0).idle
  clear h0
  induction ops generalizing s0 with
  | nil => cases hr
  | cons op l ih =>
    unfold Sim.runOk at hr
    split at hr
    · rename_i s1 h1
      exact ih s1 hr ((step_works hs op h1).idle hs)
    · rename_i h1; cases hr; exact step_no_clock_error hs op h1
    · cases hr

/-! ## C51 -/

theorem make_named (now : ℕ → ℝ) {g : Grid K} (hx : g.T + 1 ≤ g.Nx) (hy : g.T + 1 ≤ g.Ny) {fn : String} (hf : fn ≠ "") :
    ∃ s, Sim.make now g fn = .ok s ∧ s.core.WF ∧ s.core.g = g ∧ s.core.tStep = 0 ∧ s.core.t = 0 ∧ s.core.tfsf = none ∧ Core.make g = .ok s.core ∧
      s.srcs = [] ∧ s.mons = [] ∧ s.tmons = [] ∧ s.objs = [] ∧ Clocks.Sound now s.clocks := by
  obtain ⟨ck, h1, h2⟩ := Clocks.make_sound now
  obtain ⟨c, h3, h4, h5, h6, h7, h8⟩ := Core.make_ok hx hy
  refine ⟨⟨c, [], [], [], [], [], ⟨[], []⟩, ck⟩, ?_, h4, h5, h6, h7, h8, h3, rfl, rfl, rfl, rfl, h2⟩
  unfold Sim.make
  rw [h1]; simp only [Except.ok_bind]
  rw [h3]; simp only [Except.ok_bind]
  rw [if_neg hf]; rfl

/-- **C51 is false.** A simulation constructed with the empty file name is never obtained: the constructor dereferences the null
pointer to the output file. -/
theorem C51_false (now : ℕ → ℝ) (g : Grid K) :
    (∀ s, Sim.make now g "" ≠ .ok s) ∧ (g.T + 1 ≤ g.Nx → g.T + 1 ≤ g.Ny → Sim.make now g "" = .error (.ub .null)) := by
  obtain ⟨ck, h1, -⟩ := Clocks.make_sound now
  constructor
  · intro s h
    unfold Sim.make at h
    rw [h1, Except.ok_bind] at h
    obtain ⟨c, -, h⟩ := (Except.bind_ok ..).mp h
    rw [if_pos rfl] at h
    cases h
  · intro hx hy
    obtain ⟨c, h3, -⟩ := Core.make_ok hx hy
    unfold Sim.make
    rw [h1]; simp only [Except.ok_bind]
    rw [h3, Except.ok_bind]; simp only [if_true]

theorem pulseTry_nil (g : Grid K) (t : K) (f : Flds K) : pulseTry g t [] f = ⟨[], f, none⟩ := rfl

/-- One update of a simulation without sources and monitors. -/
theorem bare_update (now : ℕ → ℝ) {s : Sim K} (hw : s.core.WF) (hg : s.core.g.Wide) (hi : s.clocks.Idle) (h1 : s.srcs = []) (h2 : s.mons = [])
    (h3 : s.tmons = []) : ∃ s', s.update now = .ok s' ∧ s'.core.WF ∧ s'.core.g = s.core.g ∧ s'.core.tStep = s.core.tStep + 1 ∧
      s'.srcs = [] ∧ s'.mons = [] ∧ s'.tmons = [] ∧ s'.clocks.Idle := by
  obtain ⟨c, e1, w1, g1, -, n1, -⟩ := Core.stageE_ok hw hg
  obtain ⟨c2, e2, w2, g2, -, n2, -⟩ := Core.stageH_ok (c := { c with f := c.f }) w1 (by rw [show ({ c with f := c.f } : Core K).g = s.core.g from g1]; exact hg)
  rw [Sim.update_idle now s hi, e1]
  simp only [tryM, h1, pulseTry_nil, h2, h3, mapM', e2, writeReady]
  refine ⟨_, rfl, w2, g2.trans g1, n2.trans n1, rfl, rfl, rfl, ?_⟩
  exact Clocks.work_idle (Clocks.work_idle (Clocks.work_idle hi))

/-- **C51, with a file name** (partial: the claim for the empty file name is false, `C51_false`). The simulation is constructed and every number
of updates succeeds. -/
theorem C51_named_partial (now : ℕ → ℝ) (g : Grid K) (hx : g.T + 2 ≤ g.Nx) (hy : g.T + 2 ≤ g.Ny) (fn : String) (hf : fn ≠ "") (n : ℕ) :
    ∃ s0 s, Sim.make now g fn = .ok s0 ∧ s0.runOk now (List.replicate n .update) = .ok s ∧ s.core.tStep = n ∧ s.core.g = g := by
  obtain ⟨s0, h0, w, hg, hn, -, -, -, a1, a2, a3, -, hs⟩ := make_named now (g := g) (by omega) (by omega) hf
  have key : ∀ (n : ℕ) (s : Sim K), s.core.WF → s.core.g = g → s.clocks.Idle → s.srcs = [] → s.mons = [] → s.tmons = [] →
      ∃ s', s.runOk now (List.replicate n .update) = .ok s' ∧ s'.core.tStep = s.core.tStep + n ∧ s'.core.g = g := by
    intro n
    induction n with
    | zero => intro s _ hg _ _ _ _; exact ⟨s, rfl, by simp, hg⟩
    | succ n ih =>
      intro s w hg hi b1 b2 b3
      obtain ⟨s1, e1, w1, g1, n1, c1, c2, c3, i1⟩ := bare_update now w (by rw [hg]; exact ⟨hx, hy⟩) hi b1 b2 b3
      obtain ⟨s2, e2, n2, g2⟩ := ih s1 w1 (g1.trans hg) i1 c1 c2 c3
      refine ⟨s2, ?_, by rw [n2, n1]; push_cast; omega, g2⟩
      rw [List.replicate_succ]
      unfold Sim.runOk
      rw [show s.step now .update = .ok s1 from e1]
      exact e2
  obtain ⟨s, e, n1, g1⟩ := key n s0 w hg hs.idle a1 a2 a3
  exact ⟨s0, s, h0, e, by rw [n1, hn]; simp, g1⟩

/-- The hypotheses of `C48_clocks` are met by a history of three updates and an output on the grid `gEx`, with the clock showing
`k` seconds at its `k`-th reading. -/
example : ∃ s0 s : Sim ℝ, Monotone (fun k : ℕ => (k : ℝ)) ∧ Sim.make (fun k => (k : ℝ)) gEx "out.h5" = .ok s0 ∧
    s0.runOk (fun k => (k : ℝ)) (List.replicate 3 .update) = .ok s ∧ s.core.tStep = 3 := by
  obtain ⟨s0, s, h1, h2, h3, -⟩ := C51_named_partial (fun k : ℕ => (k : ℝ)) gEx gEx_wide.nx gEx_wide.ny "out.h5" (by decide) 3
  exact ⟨s0, s, fun a b h => Nat.cast_le.mpr h, h1, h2, by simpa using h3⟩

/-! ## C49 -/

/-- When a source makes `update` throw, the clock for the loops keeps running: the next `update` throws the complaint of the clock, does not touch
the fields, and yet advances the time. -/
theorem C49_stuck (now : ℕ → ℝ) (s : Sim K) (hi : s.clocks.Idle) (c : Core K) (he : s.core.stageE = .ok c) (m : String)
    (hp : (pulseTry c.g c.t s.srcs c.f).err = some (.exn m)) :
    ∃ s', s.update now = .threw m s' ∧ s'.core.tStep = c.tStep ∧
      ∀ n : ℕ, ∃ s'', s'.runOk now (List.replicate n .update) = (if n = 0 then .ok s' else .error (.exn startMsg)) ∧
        s'.run now (List.replicate n .update) = .ok s'' ∧ s''.core.tStep = s'.core.tStep + n ∧ s''.core.f = s'.core.f := by
  have hu : s.update now = .threw m { s with clocks := s.clocks.started now .looping, core := { c with f := (pulseTry c.g c.t s.srcs c.f).f }, srcs := (pulseTry c.g c.t s.srcs c.f).srcs } := by
    rw [Sim.update_idle now s hi, he]
    simp only [tryM, hp]
  refine ⟨_, hu, rfl, fun n => ?_⟩
  have key : ∀ (s : Sim K), s.clocks.looping.ticking = true → s.update now = .threw startMsg { s with core := s.core.tick } := by
    intro s hs
    unfold Sim.update
    rw [Clocks.begin_fail (n := .looping) hs]
    rfl
  have loop : ∀ (n : ℕ) (s : Sim K), s.clocks.looping.ticking = true → ∃ s'', s.run now (List.replicate n .update) = .ok s'' ∧
      s''.core.tStep = s.core.tStep + n ∧ s''.core.f = s.core.f := by
    intro n
    induction n with
    | zero => intro s _; exact ⟨s, rfl, by simp, rfl⟩
    | succ n ih =>
      intro s hs
      obtain ⟨s2, e1, e2, e3⟩ := ih { s with core := s.core.tick } hs
      refine ⟨s2, ?_, ?_, e3⟩
      · rw [List.replicate_succ]
        unfold Sim.run
        rw [show s.step now .update = _ from key s hs]
        exact e1
      · rw [e2]; show s.core.tStep + 1 + _ = _; push_cast; omega
  obtain ⟨s2, e1, e2, e3⟩ := loop n { s with clocks := s.clocks.started now .looping, core := { c with f := (pulseTry c.g c.t s.srcs c.f).f }, srcs := (pulseTry c.g c.t s.srcs c.f).srcs } rfl
  refine ⟨s2, ?_, e1, e2, e3⟩
  cases n with
  | zero => rfl
  | succ n =>
    rw [if_neg (by omega), List.replicate_succ]
    unfold Sim.runOk
    rw [show Sim.step now _ .update = _ from key _ rfl]

/-- What the claim asks for: whichever call comes next, no clock complains. -/
def Usable (now : ℕ → ℝ) (s : Sim K) : Prop := ∀ op m s', s.step now op = .threw m s' → ¬ ClockError m

/-- A point source of an invalid component. -/
noncomputable def badSource : Source ℝ := ⟨"source_0", .point .E ⟨5, 5⟩, TimeProfile.continuous 1⟩

/-- **C49 is false.** A new simulation with a source of component `fields::E`: `update` throws, and afterwards so does every `update`. -/
theorem C49_false (now : ℕ → ℝ) : ¬ ∀ (s0 s s' : Sim ℝ) (src : Source ℝ) (m : String), Sim.make now gEx "out.h5" = .ok s0 →
    s0.step now (.addSource src) = .ok s → s.update now = .threw m s' → Usable now s' := by
  intro h
  obtain ⟨s0, h0, w, hg, -, -, -, -, a1, -, -, -, hs⟩ := make_named now (g := gEx) (by have := gEx_wide.nx; omega) (by have := gEx_wide.ny; omega) (fn := "out.h5") (by decide)
  obtain ⟨c, e1, -⟩ := Core.stageE_ok w (by rw [hg]; exact gEx_wide)
  obtain ⟨s', u1, -, u2⟩ := C49_stuck now { s0 with srcs := s0.srcs ++ [badSource] } hs.idle c e1 fieldMsg (by rw [a1]; rfl)
  have hu := h s0 _ s' badSource fieldMsg h0 rfl u1
  obtain ⟨-, u3, -⟩ := u2 1
  simp only [List.replicate_one, one_ne_zero, if_false] at u3
  unfold Sim.runOk at u3
  split at u3
  · cases u3
  · rename_i m s1 he
    cases u3
    exact hu .update _ _ he (Or.inl rfl)
  · cases u3

/-- **C49, the calls other than `update`** (partial: `update` itself is unusable, `C49_stuck`). After an `update` left by the exception of a source
no other call complains about a clock. -/
theorem C49_others_partial (now : ℕ → ℝ) (s s' : Sim K) (hi : s.clocks.Idle) (c : Core K) (he : s.core.stageE = .ok c) (m : String)
    (hp : (pulseTry c.g c.t s.srcs c.f).err = some (.exn m)) (hu : s.update now = .threw m s') :
    s'.file = s.file ∧ s'.mons = s.mons ∧ s'.tmons = s.tmons ∧
      ∀ op, op ≠ .update → ∀ m2 s2, s'.step now op = .threw m2 s2 → ¬ ClockError m2 := by
  rw [Sim.update_idle now s hi, he] at hu
  simp only [tryM, hp, Res.threw.injEq] at hu
  obtain ⟨-, rfl⟩ := hu
  exact ⟨rfl, rfl, rfl, fun op hop m2 s2 h2 => step_no_clock_error' (by exact hi.2.2) op (fun e => absurd e hop) h2⟩

end Qbox.Props
