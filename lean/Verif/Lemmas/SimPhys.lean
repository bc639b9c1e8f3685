import Verif.Lemmas.SimCore
import Verif.Spec.RestartSpec

/-! # The physical part of a simulation under a history of calls -/

namespace Qbox
open Scalar Spec

set_option linter.unusedSectionVars false

variable {K : Type} [Scalar K]

/-- What decides about the later fields. -/
structure Phys (K : Type) where
  core : Core K
  srcs : List (Source K)
  objs : List (Object K)

def Sim.phys (s : Sim K) : Phys K := ⟨s.core, s.srcs, s.objs⟩

/-- The effect of a call on the physical part, if it ends normally. -/
def Phys.step (p : Phys K) : Op K → M (Phys K)
  | .update => do
    let (c, l) ← p.core.update p.srcs
    pure ⟨c, l, p.objs⟩
  | .addObject o => do
    let c ← p.core.insertObject o
    pure ⟨c, p.srcs, p.objs ++ [o]⟩
  | .addSource x => .ok { p with srcs := p.srcs ++ [x] }
  | .clearFields => .ok { p with core := p.core.clearFields }
  | .clearMaterials => do
    let f ← Qbox.clearMaterials p.core.g p.core.f
    pure { p with core := { p.core with f := f } }
  | .updateMaterialGrid => do
    let c ← p.core.updateMaterialGrid p.objs
    pure { p with core := c }
  | .setTfsf vol tp => .ok { p with core := p.core.setTfsf vol tp }
  | .pose i q => .ok { p with objs := p.objs.modify i (fun o => o.pose q) }
  | _ => .ok p

def Phys.run : Phys K → List (Op K) → M (Phys K)
  | p, [] => .ok p
  | p, op :: l => do
    let p ← p.step op
    p.run l

theorem Sim.step_phys {now : ℕ → ℝ} {s s' : Sim K} {op : Op K} (h : s.step now op = .ok s') : s.phys.step op = .ok s'.phys := by
  have wf : ∀ (C : Fields) (s s' : Sim K), s.writeField now C = .ok s' → s.phys = s'.phys := by
    intro C s s' h
    have := Sim.writeField_core now C s
    rw [h] at this
    unfold Sim.phys
    rw [this.1, this.2.1, this.2.2.1]
  cases op with
  | update =>
    have h1 := Sim.update_core h
    obtain ⟨c, r, U⟩ := Sim.update_parts h
    show (do let (c, l) ← s.core.update s.srcs; pure (⟨c, l, s.objs⟩ : Phys K)) = _
    rw [h1, ← U.objs]
    rfl
  | addObject o =>
    show (do let c ← s.core.insertObject o; pure (⟨c, s.srcs, s.objs ++ [o]⟩ : Phys K)) = _
    unfold Sim.step at h
    by_cases hm' : o.mat.name ∈ s.mats
    · simp only [if_pos hm'] at h
      obtain ⟨c, e, h⟩ := tryM_ok h
      cases h; rw [e]; rfl
    · simp only [if_neg hm'] at h
      obtain ⟨c, e, h⟩ := tryM_ok h
      cases h; rw [e]; rfl
  | addSource x => cases h; rfl
  | addMonitor x =>
    obtain ⟨c, -, h⟩ := tryM_ok h
    cases h; rfl
  | addTimeMonitor x =>
    obtain ⟨c, -, h⟩ := tryM_ok h
    cases h; rfl
  | clearFields => cases h; rfl
  | clearMaterials =>
    obtain ⟨c, e, h⟩ := tryM_ok h
    cases h
    show (do let f ← Qbox.clearMaterials s.core.g s.core.f; pure _) = _
    rw [e]; rfl
  | updateMaterialGrid =>
    obtain ⟨c, e, h⟩ := tryM_ok h
    cases h
    show (do let c ← s.core.updateMaterialGrid s.objs; pure _) = _
    rw [e]; rfl
  | removeMonitors => cases h; rfl
  | setTfsf vol tp => cases h; rfl
  | writeField C => exact congrArg Except.ok (wf _ _ _ h)
  | writeE => exact congrArg Except.ok (wf _ _ _ h)
  | writeH =>
    unfold Sim.step Res.andThen at h
    cases e : s.writeField now .Hx with
    | ok s1 => simp only [e] at h; exact congrArg Except.ok ((wf _ _ _ e).trans (wf _ _ _ h))
    | threw a b => simp only [e] at h; cases h
    | ub u => simp only [e] at h; cases h
  | writeMonitor =>
    obtain ⟨ck, -, h⟩ := tryM_ok h
    obtain ⟨ck, -, h⟩ := tryM_ok h
    cases h; rfl
  | pose i p => cases h; rfl
  | writeTimeMonitor i =>
    unfold Sim.step at h
    cases hi : s.tmons[i]? with
    | none => simp only [hi] at h; cases h; rfl
    | some x =>
      simp only [hi] at h
      obtain ⟨c, -, h⟩ := tryM_ok h
      cases h; rfl
  | subtract i o =>
    unfold Sim.step at h
    cases hi : s.mons[i]? with
    | none => simp only [hi] at h; cases h; rfl
    | some x =>
      simp only [hi] at h
      obtain ⟨c, -, h⟩ := tryM_ok h
      cases h; rfl

theorem Phys.step_observes (p : Phys K) {op : Op K} (h : observes op = true) : p.step op = .ok p := by
  cases op <;> first | rfl | cases h

theorem Sim.run_phys {now : ℕ → ℝ} : ∀ (ops : List (Op K)) (s s' : Sim K), s.runOk now ops = .ok s' → s.phys.run (physical ops) = .ok s'.phys
  | [], s, s', h => by cases h; rfl
  | op :: l, s, s', h => by
    unfold Sim.runOk at h
    cases e : s.step now op with
    | threw m s1 => simp only [e] at h; cases h
    | ub u => simp only [e] at h; cases h
    | ok s1 =>
      simp only [e] at h
      have h1 := Sim.step_phys e
      have h2 := Sim.run_phys l s1 s' h
      unfold physical at h2 ⊢
      cases ho : observes op with
      | true =>
        rw [Phys.step_observes _ ho] at h1
        rw [List.filter_cons_of_neg (by simp [ho]), Except.ok.inj h1]
        exact h2
      | false =>
        rw [List.filter_cons_of_pos (by simp [ho])]
        unfold Phys.run
        rw [h1]
        exact h2

theorem Phys.run_append : ∀ (l k : List (Op K)) (p : Phys K), p.run (l ++ k) = (p.run l >>= fun p => p.run k)
  | [], k, p => rfl
  | op :: l, k, p => by
    rw [List.cons_append, Phys.run, Phys.run]
    cases e : p.step op with
    | error e => rfl
    | ok p1 => exact Phys.run_append l k p1

end Qbox
