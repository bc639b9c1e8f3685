import Verif.Lemmas.SimUpdate
import Verif.Lemmas.Throws
import Verif.Lemmas.MatGrid

/-! # What the public calls leave alone -/

namespace Qbox
open Scalar

variable {K : Type} [Scalar K]

/-- What holds of the state whenever the call ends, normally or with an exception. -/
def Res.All {σ : Type} (P : σ → Prop) : Res σ → Prop
  | .ok s => P s
  | .threw _ s => P s
  | .ub _ => True

theorem tryM_all {σ β : Type} {P : σ → Prop} {x : M β} {s : σ} {k : β → Res σ} (hs : P s) (hk : ∀ b, x = .ok b → (k b).All P) :
    (tryM x s k).All P := by
  unfold tryM
  split
  · exact hk _ rfl
  · exact hs
  · trivial

theorem tryM_all_nothrow {σ β : Type} {P : σ → Prop} {x : M β} (hx : Throws (fun _ => False) x) {s : σ} {k : β → Res σ}
    (hk : ∀ b, x = .ok b → (k b).All P) : (tryM x s k).All P := by
  unfold tryM
  split
  · exact hk _ rfl
  · exact absurd rfl (hx _)
  · trivial

theorem Res.All.imp {σ : Type} {P Q : σ → Prop} {r : Res σ} (h : r.All P) (hpq : ∀ s, P s → Q s) : r.All Q := by
  cases r with
  | ok s => exact hpq s h
  | threw m s => exact hpq s h
  | ub u => trivial

theorem Core.stageE_keep {c c' : Core K} (h : c.stageE = .ok c') : c'.g = c.g ∧ c'.tStep = c.tStep + 1 ∧ c'.t = c.t + c.g.dt ∧
    c'.tfsf = c.tfsf := by
  unfold Core.stageE at h
  simp only [Except.bind_ok] at h
  obtain ⟨_, -, ⟨_, _⟩, -, ⟨_, _⟩, -, ⟨_, _⟩, -, ⟨_, _⟩, -, _, -, h⟩ := h
  cases h
  exact ⟨rfl, rfl, rfl, rfl⟩

theorem Core.stageH_keep {c c' : Core K} (h : c.stageH = .ok c') : c'.g = c.g ∧ c'.tStep = c.tStep ∧ c'.t = c.t := by
  unfold Core.stageH at h
  simp only [Except.bind_ok] at h
  obtain ⟨_, -, _, -, ⟨_, _, _⟩, -, _, -, h⟩ := h
  cases h
  exact ⟨rfl, rfl, rfl⟩

/-- Same grid, step counter and time. -/
structure Core.SameTime (c c' : Core K) : Prop where
  g : c'.g = c.g
  tStep : c'.tStep = c.tStep
  t : c'.t = c.t

theorem Core.insertObject_keep {c c' : Core K} {o : Object K} (h : c.insertObject o = .ok c') : c.SameTime c' := by
  unfold Core.insertObject at h
  obtain ⟨f, -, h⟩ := (Except.bind_ok ..).mp h
  split at h
  · cases h; exact ⟨rfl, rfl, rfl⟩
  all_goals
    obtain ⟨l, -, h⟩ := (Except.bind_ok ..).mp h
    cases h; exact ⟨rfl, rfl, rfl⟩

theorem Core.updatePolGrid_keep {c c' : Core K} {o : Object K} (h : c.updatePolGrid o = .ok c') : c.SameTime c' := by
  unfold Core.updatePolGrid at h
  split at h
  · cases h; exact ⟨rfl, rfl, rfl⟩
  all_goals
    obtain ⟨l, -, h⟩ := (Except.bind_ok ..).mp h
    cases h; exact ⟨rfl, rfl, rfl⟩

theorem Core.updateMaterialGrid_keep {c c' : Core K} {l : List (Object K)} (h : c.updateMaterialGrid l = .ok c') : c.SameTime c' := by
  unfold Core.updateMaterialGrid at h
  obtain ⟨f, -, h⟩ := (Except.bind_ok ..).mp h
  have key : ∀ (l : List (Object K)) (c c' : Core K), forList l c (fun o c => do
      let f ← paintObject c.g o c.f
      ({ c with f := f }).updatePolGrid o) = .ok c' → c.SameTime c' := by
    intro l
    induction l with
    | nil => intro c c' h; cases h; exact ⟨rfl, rfl, rfl⟩
    | cons o l ih =>
      intro c c' h
      rw [forList_cons] at h
      obtain ⟨c1, h1, h2⟩ := (Except.bind_ok ..).mp h
      obtain ⟨f, -, h1⟩ := (Except.bind_ok ..).mp h1
      have a := Core.updatePolGrid_keep h1
      have b := ih _ _ h2
      exact ⟨b.g.trans a.g, b.tStep.trans a.tStep, b.t.trans a.t⟩
  have := key l _ _ h
  exact ⟨this.g, this.tStep, this.t⟩

/-- However `update` ends, it has advanced the time. -/
theorem Sim.update_time (now : ℕ → ℝ) (s : Sim K) : (s.update now).All fun s' =>
    s'.core.g = s.core.g ∧ s'.core.tStep = s.core.tStep + 1 ∧ s'.core.t = s.core.t + s.core.g.dt := by
  unfold Sim.update
  refine tryM_all ⟨rfl, rfl, rfl⟩ fun ck _ => ?_
  refine tryM_all_nothrow (Throws.stageE _) fun c hc => ?_
  obtain ⟨g1, n1, t1, -⟩ := Core.stageE_keep hc
  refine tryM_all ⟨g1, n1, t1⟩ fun _ _ => ?_
  refine tryM_all ⟨g1, n1, t1⟩ fun _ _ => ?_
  refine tryM_all ⟨g1, n1, t1⟩ fun _ _ => ?_
  refine tryM_all ⟨g1, n1, t1⟩ fun _ _ => ?_
  refine tryM_all ⟨g1, n1, t1⟩ fun _ _ => ?_
  refine tryM_all ⟨g1, n1, t1⟩ fun _ _ => ?_
  refine tryM_all ⟨g1, n1, t1⟩ fun c2 hc2 => ?_
  obtain ⟨g2, n2, t2⟩ := Core.stageH_keep hc2
  have q : c2.g = s.core.g ∧ c2.tStep = s.core.tStep + 1 ∧ c2.t = s.core.t + s.core.g.dt := ⟨g2.trans g1, n2.trans n1, t2.trans t1⟩
  refine tryM_all q fun _ _ => ?_
  refine tryM_all q fun _ _ => ?_
  exact q

theorem Sim.writeField_core (now : ℕ → ℝ) (C : Fields) (s : Sim K) : (s.writeField now C).All fun s' =>
    s'.core = s.core ∧ s'.objs = s.objs ∧ s'.srcs = s.srcs ∧ s'.mats = s.mats ∧ s'.mons = s.mons ∧ s'.tmons = s.tmons := by
  unfold Sim.writeField
  have q : s.core = s.core ∧ s.objs = s.objs ∧ s.srcs = s.srcs ∧ s.mats = s.mats ∧ s.mons = s.mons ∧ s.tmons = s.tmons := ⟨rfl, rfl, rfl, rfl, rfl, rfl⟩
  refine tryM_all q fun _ _ => ?_
  refine tryM_all q fun _ _ => ?_
  refine tryM_all q fun _ _ => ?_
  exact q

theorem Res.All.andThen {σ : Type} {P : σ → Prop} {r : Res σ} {k : σ → Res σ} (h : r.All P) (hk : ∀ s, P s → (k s).All P) : (r.andThen k).All P := by
  cases r with
  | ok s => exact hk s h
  | threw m s => exact h
  | ub u => trivial

end Qbox
