import Verif.Lemmas.WatchRun
import Verif.Props.LinearProps

/-! # The physical part of a history of calls -/

namespace Qbox
open Scalar Spec Props

set_option linter.unusedSectionVars false

section
variable {K : Type} [Scalar K]

theorem pulseTry_none {g : Grid K} {t : K} : ∀ (l : List (Source K)) (f : Flds K), (pulseTry g t l f).err = none →
    pulseAll g t l f = .ok ((pulseTry g t l f).srcs, (pulseTry g t l f).f)
  | [], f, _ => rfl
  | s :: l, f, h => by
    unfold pulseTry at h ⊢
    unfold pulseAll
    cases e : (s.pulse g t f).2 with
    | error e' => simp only [e] at h; cases h
    | ok f' =>
      simp only [e] at h ⊢
      rw [Except.ok_bind, pulseTry_none l f' h]
      rfl

/-- An `update` that ends normally does to the physical state what `Core.update` does. -/
theorem Sim.update_core {now : ℕ → ℝ} {s s' : Sim K} (h : s.update now = .ok s') : s.core.update s.srcs = .ok (s'.core, s'.srcs) := by
  obtain ⟨c, r, U⟩ := Sim.update_parts h
  unfold Core.update
  have hr := U.pulse
  have he := U.err
  rw [← hr] at he
  have hp := pulseTry_none _ _ he
  rw [hr] at hp
  rw [U.stageE, Except.ok_bind, hp, Except.ok_bind]
  simp only
  rw [U.stageH, Except.ok_bind, U.srcs]
  rfl

theorem runOk_append (now : ℕ → ℝ) : ∀ (l k : List (Op K)) (s : Sim K), s.runOk now (l ++ k) = (s.runOk now l >>= fun s => s.runOk now k)
  | [], k, s => rfl
  | op :: l, k, s => by
    rw [List.cons_append, Sim.runOk, Sim.runOk]
    cases e : s.step now op with
    | ok s1 => exact runOk_append now l k s1
    | threw m s1 => rfl
    | ub u => rfl

/-- Without time monitors, with idle clocks and everything inside the domain, `update` ends normally. -/
theorem Sim.Safe.update_ok (now : ℕ → ℝ) {g : Grid K} (hg : g.Wide) {objs : List (Object K)} {s : Sim K} (h : s.Safe False g objs)
    (hi : s.clocks.Idle) (ht : s.tmons = []) : ∃ s', s.update now = .ok s' ∧ s'.Safe False g objs ∧ s'.clocks.Idle ∧ s'.tmons = [] := by
  obtain ⟨c, e1, w1, g1, -⟩ := Core.stageE_ok h.wf (by rw [h.grid]; exact hg)
  have gg : c.g = g := g1.trans h.grid
  obtain ⟨srcs', f', e2, d2, -, hs2, -⟩ := pulseAll_ok (g := c.g) c.t s.srcs c.f (by rw [gg]; exact h.srcs) w1.f
  have e3 := pulseTry_of_all _ _ _ _ e2
  have e4 := mapM'_ready_or (step := Monitor.update c.g f' c.t) (Q := Monitor.Ready False g) s.mons (fun m hm => by
    have := Monitor.update_ready (B := False) (g := c.g) d2 c.t (m := m) (by rw [gg]; exact h.mons m hm)
    rwa [gg] at this ⊢)
  have w2 : ({ c with f := f' } : Core K).WF := { w1 with f := d2 }
  obtain ⟨c2, e5, w5, g5, -⟩ := Core.stageH_ok (c := { c with f := f' }) w2 (by rw [show ({ c with f := f' } : Core K).g = g from gg]; exact hg)
  rcases e4 with ⟨mons, e4, -⟩ | ⟨hb, -⟩
  · have hu : s.update now = .ok { s with clocks := s.clocks.afterUpdate now, mons := mons, core := c2, srcs := srcs', tmons := [], file := s.file } := by
      rw [Sim.update_idle now s hi, e1]
      simp only [tryM, e3, e4, e5, ht, writeReady]
    refine ⟨_, hu, ?_, Clocks.work_idle (Clocks.work_idle (Clocks.work_idle hi)), rfl⟩
    have := h.update now hg
    rw [hu] at this
    exact this
  · exact hb.elim

end

/-- Calls that step, build or clear, and do not write output. -/
def NoOutput {K : Type} : Op K → Prop
  | .addTimeMonitor _ | .writeField _ | .writeE | .writeH | .writeMonitor | .writeTimeMonitor _ | .subtract _ _ => False
  | _ => True

/-- Inside the domain and without output no call throws. -/
theorem step_plain (now : ℕ → ℝ) {g : Grid ℝ} (hg : g.Wide) (hd : 0 < g.dx) (objs : List (Object ℝ)) (op : Op ℝ) (l : List (Op ℝ))
    (hi : Inside False g objs (op :: l)) {s : Sim ℝ} (h : s.Safe False g objs) (hc : s.clocks.Idle) (ht : s.tmons = []) (hn : NoOutput op) :
    ∃ s' objs', s.step now op = .ok s' ∧ Inside False g objs' l ∧ s'.Safe False g objs' ∧ s'.clocks.Idle ∧ s'.tmons = [] := by
  have hgood := step_keeps now hg hd objs op l hi h
  have fin : ∀ s', s.step now op = .ok s' → s'.clocks.Idle → s'.tmons = [] →
      ∃ s' objs', s.step now op = .ok s' ∧ Inside False g objs' l ∧ s'.Safe False g objs' ∧ s'.clocks.Idle ∧ s'.tmons = [] := by
    intro s' e h1 h2
    rw [e] at hgood
    obtain ⟨o, i1, i2⟩ := hgood
    exact ⟨s', o, e, i1, i2, h1, h2⟩
  cases op with
  | update =>
    obtain ⟨s', e, -, h1, h2⟩ := h.update_ok now hg hc ht
    exact fin s' e h1 h2
  | addObject o =>
    obtain ⟨ho, hl⟩ := hi
    obtain ⟨c, e1, w1, g1, -⟩ := Core.insertObject_ok h.wf (o := o) (by rw [h.grid]; exact ho)
    by_cases hm : o.mat.name ∈ s.mats
    · exact fin { s with core := c, objs := s.objs ++ [o] } (by unfold Sim.step; simp only [if_pos hm, e1, tryM]) hc ht
    · exact fin { s with mats := s.mats ++ [o.mat.name], core := c, objs := s.objs ++ [o] } (by unfold Sim.step; simp only [if_neg hm, e1, tryM]) hc ht
  | addSource x => exact fin _ rfl hc ht
  | addMonitor m =>
    obtain ⟨hm, hl⟩ := hi
    obtain ⟨m', e, r⟩ := attached (B := False) g hd hm
    refine fin { s with mons := s.mons ++ [m'] } ?_ hc ht
    show tryM (m.setF s.core.g) s _ = _
    rw [h.grid, e]; rfl
  | addTimeMonitor m => exact hn.elim
  | clearFields => exact fin _ rfl hc ht
  | clearMaterials =>
    have e := clearMaterials_closed (g := s.core.g) h.wf.f
    have : ∃ f, s.step now .clearMaterials = .ok { s with core := { s.core with f := f } } := by
      refine ⟨s.core.f.paint (.simple vacuum) s.core.g.dt (fun _ _ => true) (rect 0 s.core.g.Nx 0 s.core.g.Ny), ?_⟩
      show tryM (Qbox.clearMaterials s.core.g s.core.f) s _ = _
      rw [e]; rfl
    obtain ⟨f, hf⟩ := this
    exact fin { s with core := { s.core with f := f } } hf hc ht
  | updateMaterialGrid =>
    obtain ⟨ho, hl⟩ := hi
    obtain ⟨c, e, -⟩ := Core.updateMaterialGrid_ok h.wf s.objs (by rw [h.grid, h.objs]; exact ho) h.pols
    refine fin { s with core := c } (by show tryM _ _ _ = _; rw [e]; rfl) hc ht
  | removeMonitors => exact fin _ rfl hc ht
  | setTfsf vol tp => exact fin _ rfl hc ht
  | writeField C => exact hn.elim
  | writeE => exact hn.elim
  | writeH => exact hn.elim
  | writeMonitor => exact hn.elim
  | pose i p => exact fin _ rfl hc ht
  | writeTimeMonitor i => exact hn.elim
  | subtract i o => exact hn.elim

theorem runOk_plain (now : ℕ → ℝ) {g : Grid ℝ} (hg : g.Wide) (hd : 0 < g.dx) : ∀ (ops : List (Op ℝ)) (objs : List (Object ℝ)) (s : Sim ℝ),
    Inside False g objs ops → s.Safe False g objs → s.clocks.Idle → s.tmons = [] → (∀ op ∈ ops, NoOutput op) →
    ∃ s' objs', s.runOk now ops = .ok s' ∧ s'.Safe False g objs' ∧ s'.clocks.Idle ∧ s'.tmons = []
  | [], objs, s, _, h, hc, ht, _ => ⟨s, objs, rfl, h, hc, ht⟩
  | op :: l, objs, s, hi, h, hc, ht, hn => by
    obtain ⟨s1, objs1, e, i1, h1, c1, t1⟩ := step_plain now hg hd objs op l hi h hc ht (hn op (by simp))
    obtain ⟨s2, objs2, e2, r⟩ := runOk_plain now hg hd l objs1 s1 i1 h1 c1 t1 (fun o ho => hn o (by simp [ho]))
    refine ⟨s2, objs2, ?_, r⟩
    unfold Sim.runOk
    simp only [e]
    exact e2

end Qbox
