import Verif.Lemmas.FileClean

/-! # The recorded poses of a moving object -/

namespace Qbox
open Scalar Spec

set_option linter.unusedSectionVars false

variable {K : Type} [Scalar K]

/-- Everything is still there, unchanged. -/
def Exact (w w' : World K) : Prop := ∀ p n, w.tree.at p = some n → w'.tree.at p = some n

/-- The objects keep their places. -/
def Places (w w' : World K) : Prop :=
  (∀ (i : ℕ) (o : Object K), w.sim.objs[i]? = some o → w'.sim.objs[i]? = some o) ∧ ∀ (i : ℕ) (b : Bool), w.dyn[i]? = some b → w'.dyn[i]? = some b

theorem World.addObject_exact (dyn : Bool) (o : Object K) (w : World K) : (w.addObject dyn o).Each fun w' => Exact w w' ∧ Places w w' := by
  unfold World.addObject
  dsimp only
  have h0 : Exact w (if !(w.sim.mats.contains o.mat.name) then { w with sim := { w.sim with mats := w.sim.mats ++ [o.mat.name] } } else w) ∧
      Places w (if !(w.sim.mats.contains o.mat.name) then { w with sim := { w.sim with mats := w.sim.mats ++ [o.mat.name] } } else w) := by
    split
    · exact ⟨fun _ _ h => h, fun _ _ h => h, fun _ _ h => h⟩
    · exact ⟨fun _ _ h => h, fun _ _ h => h, fun _ _ h => h⟩
  have wr : ∀ {w1 : World K} {es : List (Path × H5Obj K)} {k : World K → Res (World K)}, Exact w w1 ∧ Places w w1 →
      (∀ w2 : World K, Exact w w2 ∧ Places w w2 → (k w2).Each fun w' => Exact w w' ∧ Places w w') →
      (w1.write es k).Each fun w' => Exact w w' ∧ Places w w' := by
    intro w1 es k h1 h
    have h2 : Exact w { w1 with tree := (w1.tree.puts es).1 } ∧ Places w { w1 with tree := (w1.tree.puts es).1 } :=
      ⟨fun p n hp => Tree.puts_keep _ (h1.1 p n hp), h1.2⟩
    exact World.write_each (fun _ => h2) (fun _ => h _ h2)
  refine wr h0 fun w1 h1 => tryM_each h1 fun c _ => wr ⟨h1.1, h1.2⟩ fun w2 h2 => ⟨h2.1, fun i x hx => ?_, fun i x hx => ?_⟩
  · have := h2.2.1 i x hx
    dsimp only
    rw [List.getElem?_append_left (by
      by_contra hc
      rw [List.getElem?_eq_none (by omega)] at this; cases this)]
    exact this
  · have := h2.2.2 i x hx
    dsimp only
    rw [List.getElem?_append_left (by
      by_contra hc
      rw [List.getElem?_eq_none (by omega)] at this; cases this)]
    exact this

/-- The pose of object number `i` after a call. -/
def poseAfter (i : ℕ) (s : V2 K × K) : Call K → V2 K × K
  | .op (.pose k p) => if k = i then moved s p else s
  | _ => s

theorem trajectory_cons (i : ℕ) (s : V2 K × K) (c : Call K) (l : List (Call K)) :
    trajectory i s (c :: l) = trajectory i s [c] ++ trajectory i (poseAfter i s c) l := by
  cases c with
  | op o => cases o <;> simp [trajectory, poseAfter]
  | writeCurrent k => simp [trajectory, poseAfter]
  | _ => simp [trajectory, poseAfter]

theorem moved_pose (o : Object K) (p : PoseOp K) : ((o.pose p).pos, (o.pose p).theta) = moved (o.pos, o.theta) p := by
  cases p <;> rfl

/-- One call. -/
theorem World.step_track (now : ℕ → ℝ) (c : Call K) {w : World K} {ms : List (Material K)} (hi : FileInv ms w) {i : ℕ} {o : Object K}
    (ho : w.sim.objs[i]? = some o) (hd : w.dyn[i]? = some true) {l : List (V2 K × K)} (hl : HasPoses w.tree o l) :
    (w.step now c).Each fun w' => ∃ o', w'.sim.objs[i]? = some o' ∧ w'.dyn[i]? = some true ∧ o'.path true = o.path true ∧
      (o'.pos, o'.theta) = poseAfter i (o.pos, o.theta) c ∧ HasPoses w'.tree o (l ++ trajectory i (o.pos, o.theta) [c]) := by
  have hp : objectGroup true o = o.path true := rfl
  cases hc : added c with
  | some x =>
    have hpa : poseAfter i (o.pos, o.theta) c = (o.pos, o.theta) := by
      cases c with
      | op y => cases y <;> first | rfl | cases hc
      | _ => first | rfl | cases hc
    have htr : trajectory i (o.pos, o.theta) [c] = [] := by
      cases c with
      | op y => cases y <;> first | rfl | cases hc
      | _ => first | rfl | cases hc
    rw [hpa, htr, List.append_nil]
    have key : ∀ dyn, (w.addObject dyn x).Each fun w' => ∃ o', w'.sim.objs[i]? = some o' ∧ w'.dyn[i]? = some true ∧ o'.path true = o.path true ∧
        (o'.pos, o'.theta) = (o.pos, o.theta) ∧ HasPoses w'.tree o l := fun dyn =>
      Res.Each.mono (fun w' h => ⟨o, h.2.1 i o ho, h.2.2 i true hd, rfl, rfl, h.1 _ _ hl.1, h.1 _ _ hl.2⟩) (w.addObject_exact dyn x)
    cases c with
    | op y =>
      cases y with
      | addObject x' => cases hc; exact key false
      | _ => cases hc
    | addDynamic x' => cases hc; exact key true
    | _ => cases hc
  | none =>
    by_cases hw : ∃ k, c = .writeCurrent k
    · obtain ⟨k, rfl⟩ := hw
      unfold World.step
      dsimp only
      split
      · next x hx hk =>
        obtain ⟨t, h1, h2, ⟨r1, h3, h4⟩, r2, h5, h6⟩ := World.writeCurrent_ok hi.dyn hx hk
        rw [h1]
        refine ⟨o, ho, hd, rfl, rfl, ?_⟩
        by_cases hki : k = i
        · subst hki
          rw [ho] at hx; cases hx
          unfold HasPoses at hl ⊢
          rw [hp] at hl ⊢
          rw [h3, h5] at hl
          obtain ⟨e1, e2⟩ := hl
          simp only [Option.some.injEq, H5Obj.series.injEq] at e1 e2
          rw [h4, h6, e1, e2]
          simp [trajectory, V2.list]
        · have hne := hi.dyn.dist i k o x ho hx hd hk (Ne.symm hki)
          have htr : trajectory i (o.pos, o.theta) [Call.writeCurrent k] = [] := by simp [trajectory, hki]
          rw [htr, List.append_nil]
          unfold HasPoses at hl ⊢
          rw [hp] at hl ⊢
          have far : ∀ a b : String, o.path true ++ [a] ≠ x.path true ++ [b] := by
            intro a b e
            exact hne (List.append_inj_left e rfl)
          rw [h2 _ (far _ _) (far _ _), h2 _ (far _ _) (far _ _)]
          exact hl
      · next hno =>
        refine ⟨o, ho, hd, rfl, rfl, ?_⟩
        by_cases hki : k = i
        · subst hki
          exact absurd hd (hno o ho)
        · have htr : trajectory i (o.pos, o.theta) [Call.writeCurrent k] = [] := by simp [trajectory, hki]
          rw [htr, List.append_nil]
          exact hl
    · have hoff : ∀ a : String, Off c.roots (objectGroup true o ++ [a]) := by
        intro a r hr l' e
        have e1 : "dynamic_objects" = r := (List.cons.inj e).1
        cases c with
        | op x => cases x <;> simp [Call.roots, added] at hr hc <;> (rw [hr] at e1; exact absurd e1 (by decide))
        | addDynamic => cases hc
        | writeCurrent k => exact hw ⟨k, rfl⟩
        | _ => simp [Call.roots] at hr; rw [hr] at e1; exact absurd e1 (by decide)
      have htr : trajectory i (o.pos, o.theta) [c] = [] := by
        cases c with
        | op x => cases x <;> rfl
        | writeCurrent k => exact absurd ⟨k, rfl⟩ hw
        | _ => rfl
      rw [htr, List.append_nil]
      refine Res.Each.mono ?_ ((w.step_off now c).and (w.step_lists now c hc))
      rintro w' ⟨h2, h3, h4, h5⟩
      have hl' : HasPoses w'.tree o l := by
        unfold HasPoses at hl ⊢
        rw [h2 _ (hoff _), h2 _ (hoff _)]
        exact hl
      rw [h4, h5]
      by_cases hps : ∃ k p, c = .op (.pose k p)
      · obtain ⟨k, p, rfl⟩ := hps
        change ∃ o', (w.sim.objs.modify k (fun o => o.pose p))[i]? = some o' ∧ _
        rw [List.getElem?_modify, ho]
        refine ⟨_, rfl, hd, ?_, ?_, hl'⟩
        · split
          · exact Object.pose_path ..
          · rfl
        · change _ = if k = i then moved (o.pos, o.theta) p else (o.pos, o.theta)
          split
          · exact moved_pose o p
          · rfl
      · have e1 : posed w.sim.objs c = w.sim.objs := by
          unfold posed
          split
          · next k p => exact absurd ⟨k, p, rfl⟩ hps
          · rfl
        have e2 : poseAfter i (o.pos, o.theta) c = (o.pos, o.theta) := by
          unfold poseAfter
          split
          · next k p => exact absurd ⟨k, p, rfl⟩ hps
          · rfl
        rw [e1, e2]
        exact ⟨o, ho, hd, rfl, rfl, hl'⟩

/-- A program. -/
theorem World.run_track {now : ℕ → ℝ} : ∀ {cs : List (Call K)} {w w' : World K} {ms : List (Material K)}, FileInv ms w → ∀ {i : ℕ} {o : Object K},
    w.sim.objs[i]? = some o → w.dyn[i]? = some true → ∀ {l : List (V2 K × K)}, HasPoses w.tree o l → w.run now cs = .ok w' →
    HasPoses w'.tree o (l ++ trajectory i (o.pos, o.theta) cs)
  | [], w, w', ms, _, i, o, _, _, l, hl, e => by cases e; simpa [trajectory] using hl
  | c :: cs, w, w', ms, hi, i, o, ho, hd, l, hl, e => by
    have h1 := World.step_inv now c hi
    have h2 := World.step_track now c hi ho hd hl
    rw [trajectory_cons, ← List.append_assoc]
    have move : ∀ {w1 : World K} {o' : Object K} {l : List (V2 K × K)}, o'.path true = o.path true → (HasPoses w1.tree o l ↔ HasPoses w1.tree o' l) := by
      intro w1 o' l h
      have : objectGroup true o' = objectGroup true o := h
      unfold HasPoses
      rw [this]
    unfold World.run at e
    cases hs : w.step now c with
    | ok w1 =>
      rw [hs] at h1 h2 e
      obtain ⟨o', a1, a2, a3, a4, a5⟩ := h2
      have := World.run_track h1 a1 a2 ((move a3).mp a5) e
      rw [a4] at this
      exact (move a3).mpr this
    | threw m w1 =>
      rw [hs] at h1 h2 e
      obtain ⟨o', a1, a2, a3, a4, a5⟩ := h2
      have := World.run_track h1 a1 a2 ((move a3).mp a5) e
      rw [a4] at this
      exact (move a3).mpr this
    | ub u => rw [hs] at e; cases e

/-- What a successful addition has written. -/
theorem World.addObject_wrote {dyn : Bool} {o : Object K} {w w' : World K} (h : w.addObject dyn o = .ok w') :
    (∀ e ∈ o.entries dyn, w'.tree.at e.1 = some e.2) ∧ w'.sim.objs = w.sim.objs ++ [o] ∧ w'.dyn = w.dyn ++ [dyn] ∧
    ∃ t : Tree K, (t.puts (o.entries dyn)).2 = true ∧ ∀ p n, w.tree.at p = some n → t.at p = some n := by
  unfold World.addObject at h
  dsimp only at h
  have key : ∀ w1 : World K, w1.sim.objs = w.sim.objs → w1.dyn = w.dyn → (∀ p n, w.tree.at p = some n → w1.tree.at p = some n) →
      (tryM (w1.sim.core.insertObject o) w1 fun c =>
      World.write { sim := { w1.sim with core := c }, dyn := w1.dyn, tree := w1.tree } (o.entries dyn)
        fun w => .ok { sim := { w.sim with objs := w.sim.objs ++ [o] }, dyn := w.dyn ++ [dyn], tree := w.tree }) = .ok w' →
      (∀ e ∈ o.entries dyn, w'.tree.at e.1 = some e.2) ∧ w'.sim.objs = w.sim.objs ++ [o] ∧ w'.dyn = w.dyn ++ [dyn] ∧
      ∃ t : Tree K, (t.puts (o.entries dyn)).2 = true ∧ ∀ p n, w.tree.at p = some n → t.at p = some n := by
    intro w1 h1 h2 h3 h
    obtain ⟨c, -, h⟩ := tryM_ok h
    obtain ⟨hp, h⟩ := World.write_ok h
    cases h
    refine ⟨fun e he => Tree.puts_mem _ hp e he, ?_, ?_, _, hp, h3⟩
    · dsimp only; rw [h1]
    · dsimp only; rw [h2]
  obtain ⟨-, h⟩ := World.write_ok h
  refine key _ ?_ ?_ ?_ h
  · dsimp only; split <;> rfl
  · dsimp only; split <;> rfl
  · intro p n hn
    dsimp only
    apply Tree.puts_keep
    split <;> exact hn

end Qbox
