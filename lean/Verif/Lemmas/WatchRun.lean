import Verif.Spec.WatchSpec
import Verif.Props.SafetyProps

/-! # Histories as the monitors see them -/

namespace Qbox
open Scalar Spec Props

set_option linter.unusedSectionVars false

section
variable {K : Type} [Scalar K]

/-- Updates of a monitor, one after the other. -/
def Monitor.runs (g : Grid K) : List (Flds K × K) → Monitor K → M (Monitor K)
  | [], m => .ok m
  | (f, t) :: l, m => do
    let m ← m.update g f t
    Monitor.runs g l m

theorem Core.stageH_Ez {a b : Core K} (h : a.stageH = .ok b) : b.f.Ez = a.f.Ez := by
  unfold Core.stageH at h
  simp only [Except.bind_ok] at h
  obtain ⟨_, -, _, -, ⟨_, _, _⟩, -, _, -, h⟩ := h
  cases h
  rfl

theorem Core.stageE_H {a b : Core K} (h : a.stageE = .ok b) : b.f.Hx = a.f.Hx ∧ b.f.Hy = a.f.Hy := by
  unfold Core.stageE at h
  simp only [Except.bind_ok] at h
  obtain ⟨_, -, ⟨_, _⟩, -, ⟨_, _⟩, -, ⟨_, _⟩, -, ⟨_, _⟩, -, _, -, h⟩ := h
  cases h
  exact ⟨rfl, rfl⟩

theorem mapM'_get {α : Type} {step : α → M α} : ∀ {l l' : List α}, mapM' step l = .ok l' → ∀ (i : ℕ) (a : α), l[i]? = some a →
    ∃ a', step a = .ok a' ∧ l'[i]? = some a'
  | [], _, _, i, a, ha => by simp at ha
  | b :: l, l', h, i, a, ha => by
    unfold mapM' at h
    obtain ⟨b', h1, h⟩ := (Except.bind_ok ..).mp h
    obtain ⟨k, h2, h⟩ := (Except.bind_ok ..).mp h
    cases h
    cases i with
    | zero => simp only [List.getElem?_cons_zero, Option.some.injEq] at ha; subst ha; exact ⟨b', h1, rfl⟩
    | succ i => exact mapM'_get h2 i a (by simpa using ha)

/-- A call other than `update` keeps the monitor that it leaves. -/
theorem step_mons (now : ℕ → ℝ) (s s' : Sim K) (op : Op K) (k : ℕ) (hl : Leaves k op) (ho : isUpdate op = false) (h : s.step now op = .ok s')
    (m : Monitor K) (hm : s.mons[k]? = some m) : s'.mons[k]? = some m := by
  have wf : ∀ (C : Fields) (s s' : Sim K), s.writeField now C = .ok s' → s'.mons = s.mons := by
    intro C s s' h
    have := Sim.writeField_core now C s
    rw [h] at this
    exact this.2.2.2.2.1
  cases op with
  | update => cases ho
  | addObject o =>
    unfold Sim.step at h
    by_cases hm' : o.mat.name ∈ s.mats
    · simp only [if_pos hm'] at h
      obtain ⟨c, -, h⟩ := tryM_ok h
      cases h; exact hm
    · simp only [if_neg hm'] at h
      obtain ⟨c, -, h⟩ := tryM_ok h
      cases h; exact hm
  | addSource x => cases h; exact hm
  | addMonitor x =>
    obtain ⟨c, -, h⟩ := tryM_ok h
    cases h
    show (s.mons ++ [c])[k]? = some m
    rw [List.getElem?_append_left (by rw [List.getElem?_eq_some_iff] at hm; exact hm.1)]
    exact hm
  | addTimeMonitor x =>
    obtain ⟨c, -, h⟩ := tryM_ok h
    cases h; exact hm
  | clearFields => cases h; exact hm
  | clearMaterials =>
    obtain ⟨c, -, h⟩ := tryM_ok h
    cases h; exact hm
  | updateMaterialGrid =>
    obtain ⟨c, -, h⟩ := tryM_ok h
    cases h; exact hm
  | removeMonitors => exact hl.elim
  | setTfsf vol tp => cases h; exact hm
  | writeField C => rw [wf _ _ _ h]; exact hm
  | writeE => rw [wf _ _ _ h]; exact hm
  | writeH =>
    unfold Sim.step Res.andThen at h
    cases e : s.writeField now .Hx with
    | ok s1 => simp only [e] at h; rw [wf _ _ _ h, wf _ _ _ e]; exact hm
    | threw a b => simp only [e] at h; cases h
    | ub u => simp only [e] at h; cases h
  | writeMonitor =>
    obtain ⟨ck, -, h⟩ := tryM_ok h
    obtain ⟨ck, -, h⟩ := tryM_ok h
    cases h; exact hm
  | pose i p => cases h; exact hm
  | writeTimeMonitor i =>
    unfold Sim.step at h
    cases hi : s.tmons[i]? with
    | none => simp only [hi] at h; cases h; exact hm
    | some x =>
      simp only [hi] at h
      obtain ⟨c, -, h⟩ := tryM_ok h
      cases h; exact hm
  | subtract i o =>
    have hl : i ≠ k := hl
    unfold Sim.step at h
    cases hi : s.mons[i]? with
    | none => simp only [hi] at h; cases h; exact hm
    | some x =>
      simp only [hi] at h
      obtain ⟨c, -, h⟩ := tryM_ok h
      cases h
      show (s.mons.set i c)[k]? = some m
      rw [List.getElem?_set_ne hl]
      exact hm

end

theorem update_shown {now : ℕ → ℝ} {g : Grid ℝ} (hg : g.Wide) {B : Prop} {objs : List (Object ℝ)} {s s' : Sim ℝ} (h : s.Safe B g objs)
    (hu : s.update now = .ok s') : ∃ q, Shown s s' q ∧ mapM' (Monitor.update g q.1 q.2) s.mons = .ok s'.mons := by
  obtain ⟨c, r, U⟩ := Sim.update_parts hu
  obtain ⟨c', e1, w1, g1, -⟩ := Core.stageE_ok h.wf (by rw [h.grid]; exact hg)
  rw [U.stageE] at e1
  cases e1
  obtain ⟨k1, -, k3, -⟩ := Core.stageE_keep U.stageE
  obtain ⟨kx, ky⟩ := Core.stageE_H U.stageE
  obtain ⟨-, -, t3⟩ := Core.stageH_keep U.stageH
  obtain ⟨l, f, p1, p2, -, p4⟩ := C31_sources_add_up c.g c.t s.srcs c.f (by rw [g1, h.grid]; exact h.srcs) w1.f
  have hr : r.f = f := by rw [← U.pulse, pulseTry_of_all _ _ _ _ p1]
  have ht : c.t = s'.core.t := t3.symm
  refine ⟨(r.f, c.t), ⟨ht, ?_, ?_, ?_, ?_⟩, ?_⟩
  · simp only [hr]; rw [← k1]; exact p2
  · exact (Core.stageH_Ez U.stageH).symm
  · intro i j
    simp only [hr]
    rw [← k1, ← kx, ← ht]
    exact p4 .Hx (by simp [Fields.IsComp]) i j
  · intro i j
    simp only [hr]
    rw [← k1, ← ky, ← ht]
    exact p4 .Hy (by simp [Fields.IsComp]) i j
  · rw [← h.grid, ← k1]; exact U.mons

/-- A history inside the domain: what its updates show, and what becomes of a monitor that is there all along. -/
theorem runOk_watch (now : ℕ → ℝ) {g : Grid ℝ} (hg : g.Wide) (hd : 0 < g.dx) {B : Prop} : ∀ (ops : List (Op ℝ)) (objs : List (Object ℝ)) (s s' : Sim ℝ),
    Inside B g objs ops → s.Safe B g objs → s.runOk now ops = .ok s' → ∃ qs, Watch now s ops qs s' ∧
      ∀ (k : ℕ) (m : Monitor ℝ), s.mons[k]? = some m → (∀ op ∈ ops, Leaves k op) → ∃ m', Monitor.runs g qs m = .ok m' ∧ s'.mons[k]? = some m'
  | [], _, s, s', _, _, h => by cases h; exact ⟨[], .nil _, fun k m hm _ => ⟨m, rfl, hm⟩⟩
  | op :: l, objs, s, s', hi, hs, h => by
    have hg' := step_keeps now hg hd objs op l hi hs
    unfold Sim.runOk at h
    cases e : s.step now op with
    | threw a b => simp only [e] at h; cases h
    | ub u => simp only [e] at h; cases h
    | ok s1 =>
      simp only [e] at h
      rw [e] at hg'
      obtain ⟨objs1, i1, h1⟩ := hg'
      obtain ⟨qs, w, hm⟩ := runOk_watch now hg hd l objs1 s1 s' i1 h1 h
      cases ho : isUpdate op with
      | false =>
        exact ⟨qs, .other ho e w, fun k m hk hl => hm k m (step_mons now s s1 op k (hl op (by simp)) ho e m hk) (fun o h => hl o (by simp [h]))⟩
      | true =>
        obtain rfl : op = .update := by cases op <;> first | rfl | cases ho
        obtain ⟨q, hq, em⟩ := update_shown hg hs e
        refine ⟨q :: qs, .update e hq w, fun k m hk hl => ?_⟩
        obtain ⟨m1, e1, k1⟩ := mapM'_get em k m hk
        obtain ⟨m2, e2, k2⟩ := hm k m1 k1 (fun o h => hl o (by simp [h]))
        refine ⟨m2, ?_, k2⟩
        show (Monitor.update g q.1 q.2 m >>= fun m => Monitor.runs g qs m) = _
        rw [e1, Except.ok_bind, e2]

/-- A history inside the domain can be cut anywhere. -/
theorem runOk_safe (now : ℕ → ℝ) {g : Grid ℝ} (hg : g.Wide) (hd : 0 < g.dx) {B : Prop} : ∀ (ops rest : List (Op ℝ)) (objs : List (Object ℝ)) (s s' : Sim ℝ),
    Inside B g objs (ops ++ rest) → s.Safe B g objs → s.runOk now ops = .ok s' → ∃ objs', Inside B g objs' rest ∧ s'.Safe B g objs'
  | [], _, objs, s, s', hi, hs, h => by cases h; exact ⟨objs, hi, hs⟩
  | op :: l, rest, objs, s, s', hi, hs, h => by
    have hg' := step_keeps now hg hd objs op (l ++ rest) hi hs
    unfold Sim.runOk at h
    cases e : s.step now op with
    | threw a b => simp only [e] at h; cases h
    | ub u => simp only [e] at h; cases h
    | ok s1 =>
      simp only [e] at h
      rw [e] at hg'
      obtain ⟨objs1, i1, h1⟩ := hg'
      exact runOk_safe now hg hd l rest objs1 s1 s' i1 h1 h

theorem Spec.Watch.length {now : ℕ → ℝ} {s s' : Sim ℝ} {ops : List (Op ℝ)} {qs : List (Flds ℝ × ℝ)} (h : Watch now s ops qs s') :
    qs.length = ops.countP isUpdate := by
  induction h with
  | nil => rfl
  | update _ _ _ ih => rw [List.length_cons, ih, List.countP_cons_of_pos (by rfl)]
  | other ho _ _ ih => rw [ih, List.countP_cons_of_neg (by simp [ho])]

theorem Spec.Watch.grid {now : ℕ → ℝ} {s s' : Sim ℝ} {ops : List (Op ℝ)} {qs : List (Flds ℝ × ℝ)} (h : Watch now s ops qs s') :
    s'.core.g = s.core.g ∧ ∀ q ∈ qs, q.1.Dims s.core.g.Nx s.core.g.Ny := by
  induction h with
  | nil => exact ⟨rfl, by simp⟩
  | @update s s1 s' l qs q e hq _ ih =>
    have := step_time now s .update
    rw [e] at this
    have hg : s1.core.g = s.core.g := this.1
    refine ⟨ih.1.trans hg, fun p hp => ?_⟩
    rcases List.mem_cons.mp hp with rfl | hp
    · exact hq.dims
    · rw [← hg]; exact ih.2 p hp
  | @other s s1 s' op l qs ho e _ ih =>
    have := step_time now s op
    rw [e] at this
    have hg : s1.core.g = s.core.g := this.1
    rw [← hg]
    exact ih

/-- Without `clear_fields` the updates happen one step after the other. -/
theorem Spec.Watch.times {now : ℕ → ℝ} {s s' : Sim ℝ} {ops : List (Op ℝ)} {qs : List (Flds ℝ × ℝ)} (h : Watch now s ops qs s')
    (hc : ∀ op ∈ ops, isClear op = false) : qs.map Prod.snd = (List.range qs.length).map fun k : ℕ => s.core.t + (k + 1) * s.core.g.dt := by
  induction h with
  | nil => rfl
  | @update s s1 s' l qs q e hq _ ih =>
    have := step_time now s .update
    rw [e] at this
    obtain ⟨hg, -, ht⟩ := this
    simp only [isClear, isUpdate, Bool.false_eq_true, if_false, if_true] at ht
    rw [List.map_cons, List.length_cons, List.range_succ_eq_map, List.map_cons, List.map_map, ih (fun o ho => hc o (by simp [ho])), hq.time, ht, hg]
    congr 1
    · simp
    · refine List.map_congr_left fun k _ => ?_
      simp only [Function.comp, Nat.succ_eq_add_one, Nat.cast_add, Nat.cast_one]
      ring
  | @other s s1 s' op l qs ho e _ ih =>
    have := step_time now s op
    rw [e] at this
    obtain ⟨hg, -, ht⟩ := this
    simp only [hc op (by simp), ho, Bool.false_eq_true, if_false] at ht
    rw [ih (fun o ho => hc o (by simp [ho])), hg, ht]

/-- Without `clear_fields` no update happens at the time of the one before it. -/
theorem Spec.Watch.distinct {now : ℕ → ℝ} {s s' : Sim ℝ} {ops : List (Op ℝ)} {qs : List (Flds ℝ × ℝ)} (h : Watch now s ops qs s')
    (hc : ∀ op ∈ ops, isClear op = false) (hdt : 0 < s.core.g.dt) : ∀ p, p < s.core.t + s.core.g.dt →
    List.IsChain (fun a b : ℝ => eqb a b = false) (p :: qs.map Prod.snd) := by
  induction h with
  | nil => intro p _; simp
  | @update s s1 s' l qs q e hq _ ih =>
    intro p hp
    have := step_time now s .update
    rw [e] at this
    obtain ⟨hg, -, ht⟩ := this
    simp only [isClear, isUpdate, Bool.false_eq_true, if_false, if_true] at ht
    rw [List.map_cons, List.isChain_cons_cons]
    refine ⟨?_, ih (fun o ho => hc o (by simp [ho])) (by rw [hg]; exact hdt) _ (by rw [hq.time, hg]; linarith)⟩
    simp only [eqb_real, decide_eq_false_iff_not, hq.time, ht]
    exact ne_of_lt hp
  | @other s s1 s' op l qs ho e _ ih =>
    have := step_time now s op
    rw [e] at this
    obtain ⟨hg, -, ht⟩ := this
    simp only [hc op (by simp), ho, Bool.false_eq_true, if_false] at ht
    rw [← hg, ← ht]
    exact ih (fun o ho => hc o (by simp [ho])) (by rw [hg]; exact hdt)

/-- The time is never negative. -/
theorem runOk_time (now : ℕ → ℝ) : ∀ (ops : List (Op ℝ)) (s s' : Sim ℝ), 0 < s.core.g.dt → 0 ≤ s.core.t → s.runOk now ops = .ok s' → 0 ≤ s'.core.t
  | [], s, s', _, h0, h => by cases h; exact h0
  | op :: l, s, s', hd, h0, h => by
    have := step_time now s op
    unfold Sim.runOk at h
    cases e : s.step now op with
    | threw a b => simp only [e] at h; cases h
    | ub u => simp only [e] at h; cases h
    | ok s1 =>
      simp only [e] at h
      rw [e] at this
      obtain ⟨hg, -, ht⟩ := this
      refine runOk_time now l s1 s' (by rw [hg]; exact hd) ?_ h
      rw [ht]
      split_ifs <;> linarith

end Qbox
