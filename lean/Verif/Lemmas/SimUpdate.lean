import Verif.Model.Sim
import Verif.Lemmas.Loops

/-! # The parts of `Field2D::update`, and the clocks -/

namespace Qbox
open Scalar

variable {K : Type} [Scalar K]

/-- the clock `n` after `begin` -/
def Clocks.started (now : ℕ → ℝ) (c : Clocks) (n : ClockName) : Clocks :=
  { c.set n { c.get n with start := now c.reads, ticking := true } with reads := c.reads + 1 }

/-- the clock `n` after `stop` -/
noncomputable def Clocks.stopped (now : ℕ → ℝ) (c : Clocks) (n : ClockName) : Clocks :=
  { c.set n { c.get n with duration := (c.get n).duration + (now c.reads - (c.get n).start), ticking := false } with reads := c.reads + 1 }

/-- The clocks for work are not ticking. -/
def Clocks.Idle (c : Clocks) : Prop := c.fourier.ticking = false ∧ c.looping.ticking = false ∧ c.hdf5.ticking = false

theorem Clocks.begin_ok {now : ℕ → ℝ} {c : Clocks} {n : ClockName} (h : (c.get n).ticking = false) :
    c.begin now n = .ok (c.started now n) := by
  unfold Clocks.begin; simp only [h, Bool.false_eq_true, if_false]; rfl

theorem Clocks.begin_fail {now : ℕ → ℝ} {c : Clocks} {n : ClockName} (h : (c.get n).ticking = true) :
    c.begin now n = .error (.exn startMsg) := by
  unfold Clocks.begin; simp only [h, if_true]

theorem Clocks.stop_ok {now : ℕ → ℝ} {c : Clocks} {n : ClockName} (h : (c.get n).ticking = true) :
    c.stop now n = .ok (c.stopped now n) := by
  unfold Clocks.stop; simp only [h, if_true]; rfl

@[simp] theorem Clocks.get_set_self (c : Clocks) (n : ClockName) (t : Timer) : (c.set n t).get n = t := by cases n <;> rfl

theorem Clocks.get_set_ne (c : Clocks) {n m : ClockName} (t : Timer) (h : m ≠ n) : (c.set n t).get m = c.get m := by
  cases n <;> cases m <;> first | rfl | exact absurd rfl h

theorem Clocks.get_reads (c : Clocks) (r : ℕ) (n : ClockName) : ({ c with reads := r } : Clocks).get n = c.get n := by cases n <;> rfl

/-- one period of work on the clock `n` -/
noncomputable def Clocks.work (now : ℕ → ℝ) (c : Clocks) (n : ClockName) : Clocks := (c.started now n).stopped now n

theorem Clocks.started_ticking (now : ℕ → ℝ) (c : Clocks) (n : ClockName) : ((c.started now n).get n).ticking = true := by
  cases n <;> rfl

theorem Clocks.work_idle {now : ℕ → ℝ} {c : Clocks} {n : ClockName} (h : c.Idle) : (c.work now n).Idle := by
  obtain ⟨h1, h2, h3⟩ := h
  cases n <;> refine ⟨?_, ?_, ?_⟩ <;> first | rfl | assumption

theorem Clocks.Idle.get {c : Clocks} (h : c.Idle) {n : ClockName} (hn : n ≠ .self) : (c.get n).ticking = false := by
  obtain ⟨h1, h2, h3⟩ := h
  cases n
  · exact h1
  · exact h2
  · exact h3
  · exact absurd rfl hn

/-- the clocks after a complete `update` -/
noncomputable def Clocks.afterUpdate (now : ℕ → ℝ) (c : Clocks) : Clocks :=
  ((c.work now .looping).work now .fourier).work now .looping

/-- `update` when the clocks are idle: the clocks never interfere. -/
theorem Sim.update_idle (now : ℕ → ℝ) (s : Sim K) (h : s.clocks.Idle) :
    s.update now =
      tryM s.core.stageE { s with clocks := s.clocks.started now .looping } fun c =>
      let r := pulseTry c.g c.t s.srcs c.f
      let s1 : Sim K := { s with clocks := s.clocks.started now .looping, core := { c with f := r.f }, srcs := r.srcs }
      tryM (match r.err with | none => .ok () | some e => .error e) s1 fun _ =>
      tryM (mapM' (Monitor.update c.g r.f c.t) s.mons) { s1 with clocks := (s.clocks.work now .looping).started now .fourier } fun mons =>
      tryM ({ c with f := r.f } : Core K).stageH { s1 with clocks := ((s.clocks.work now .looping).work now .fourier).started now .looping, mons := mons } fun c2 =>
      let left := writeReadyLeft c2.g c2.f s.tmons s.file
      tryM (writeReady c2.g c2.f s.tmons s.file) { s1 with clocks := s.clocks.afterUpdate now, mons := mons, core := c2, tmons := left.1, file := left.2 } fun q =>
      .ok { s1 with clocks := s.clocks.afterUpdate now, mons := mons, core := c2, tmons := q.1, file := q.2 } := by
  have i1 := Clocks.work_idle (now := now) (n := .looping) h
  have i2 := Clocks.work_idle (now := now) (n := .fourier) i1
  have b1 := Clocks.begin_ok (now := now) (h.get (n := .looping) (by decide))
  have b2 := Clocks.stop_ok (now := now) (Clocks.started_ticking now s.clocks .looping)
  have b3 := Clocks.begin_ok (now := now) (i1.get (n := .fourier) (by decide))
  have b4 := Clocks.stop_ok (now := now) (Clocks.started_ticking now (s.clocks.work now .looping) .fourier)
  have b5 := Clocks.begin_ok (now := now) (i2.get (n := .looping) (by decide))
  have b6 := Clocks.stop_ok (now := now) (Clocks.started_ticking now ((s.clocks.work now .looping).work now .fourier) .looping)
  change _ = Except.ok (s.clocks.work now .looping) at b2
  change _ = Except.ok ((s.clocks.work now .looping).work now .fourier) at b4
  change _ = Except.ok (s.clocks.afterUpdate now) at b6
  unfold Sim.update
  rw [b1]
  simp only [tryM, b2, b3]
  cases s.core.stageE with
  | error e => rfl
  | ok c =>
    simp only
    cases (pulseTry c.g c.t s.srcs c.f).err with
    | some e => rfl
    | none =>
      simp only
      cases mapM' (Monitor.update c.g (pulseTry c.g c.t s.srcs c.f).f c.t) s.mons with
      | error e => rfl
      | ok mons =>
        simp only [b4, b5]
        cases ({ c with f := (pulseTry c.g c.t s.srcs c.f).f } : Core K).stageH with
        | error e => rfl
        | ok c2 => simp only [b6]

/-- What an `update` that ends normally has done. -/
structure Updated (s s' : Sim K) (c : Core K) (r : Pulsed K) : Prop where
  stageE : s.core.stageE = .ok c
  pulse : pulseTry c.g c.t s.srcs c.f = r
  err : r.err = none
  mons : mapM' (Monitor.update c.g r.f c.t) s.mons = .ok s'.mons
  stageH : ({ c with f := r.f } : Core K).stageH = .ok s'.core
  files : writeReady s'.core.g s'.core.f s.tmons s.file = .ok (s'.tmons, s'.file)
  srcs : s'.srcs = r.srcs
  objs : s'.objs = s.objs
  mats : s'.mats = s.mats

theorem tryM_ok {σ β : Type} {x : M β} {s s' : σ} {k : β → Res σ} (h : tryM x s k = .ok s') : ∃ b, x = .ok b ∧ k b = .ok s' := by
  unfold tryM at h
  split at h
  · exact ⟨_, rfl, h⟩
  · cases h
  · cases h

theorem Sim.update_parts {now : ℕ → ℝ} {s s' : Sim K} (h : s.update now = .ok s') : ∃ c r, Updated s s' c r := by
  unfold Sim.update at h
  obtain ⟨ck, -, h⟩ := tryM_ok h
  obtain ⟨c, h1, h⟩ := tryM_ok h
  obtain ⟨_, h2, h⟩ := tryM_ok h
  obtain ⟨ck2, -, h⟩ := tryM_ok h
  obtain ⟨ck3, -, h⟩ := tryM_ok h
  obtain ⟨mons, h3, h⟩ := tryM_ok h
  obtain ⟨ck4, -, h⟩ := tryM_ok h
  obtain ⟨ck5, -, h⟩ := tryM_ok h
  obtain ⟨c2, h4, h⟩ := tryM_ok h
  obtain ⟨ck6, -, h⟩ := tryM_ok h
  obtain ⟨q, h5, h⟩ := tryM_ok h
  simp only [Res.ok.injEq] at h
  subst h
  refine ⟨c, _, h1, rfl, ?_, h3, h4, h5, rfl, rfl, rfl⟩
  cases e : (pulseTry c.g c.t s.srcs c.f).err with
  | none => rfl
  | some e' => rw [e] at h2; cases h2

end Qbox
