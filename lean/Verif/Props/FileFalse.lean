import Verif.Props.FileProps
import Verif.Props.RestartFalse

/-!
# C63 and C65: where they fail, and programs that meet the hypotheses
-/

namespace Qbox.Props
open Qbox Scalar Spec

/-- A disc with a name. -/
noncomputable def named (n : String) (m : Material ℝ) (x y : ℝ) : Object ℝ := { disc m x y with name := n }

theorem named_safe (n : String) (m : Material ℝ) {x y : ℝ} (hx : x ≤ 17) (hy : 2 ≤ y) : (named n m x y).Safe gEx :=
  safe_of_clear gEx_lawful (disc_clear m hx hy)

/-- glass -/
noncomputable def glass : Material ℝ := ⟨"m", .simple ⟨2, 1, 0⟩⟩

/-- another material with the same name -/
noncomputable def otherGlass : Material ℝ := ⟨"m", .simple ⟨3, 1, 0⟩⟩

theorem runOk_cons {K : Type} [Scalar K] {now : ℕ → ℝ} {w w' : World K} {c : Call K} {l : List (Call K)} (h : w.runOk now (c :: l) = .ok w') :
    ∃ w1, w.step now c = .ok w1 ∧ w1.runOk now l = .ok w' := by
  rw [World.runOk] at h
  cases e : w.step now c with
  | ok w1 => rw [e] at h; exact ⟨w1, rfl, h⟩
  | threw m w1 => rw [e] at h; cases h
  | ub u => rw [e] at h; cases h

/-- Two discs. -/
theorem two_discs (now : ℕ → ℝ) (m1 m2 : Material ℝ) : ∃ w0 w1 w2, World.make now gEx "out" = .ok w0 ∧
    w0.step now (addCall false (named "a" m1 5 5)) = .ok w1 ∧ w1.step now (addCall false (named "b" m2 12 12)) = .ok w2 := by
  obtain ⟨w0, w, h0, h⟩ := C66_completes now gEx gEx_wide (by rw [gEx_dx]; norm_num) "out" (by simp)
    [.op (.addObject (named "a" m1 5 5)), .op (.addObject (named "b" m2 12 12))]
    ⟨named_safe _ _ (by norm_num) (by norm_num), named_safe _ _ (by norm_num) (by norm_num), trivial⟩ trivial
    (by simp [DistinctNames, claims, objectGroup, named])
    (by simp [PlainNames, named, disc, Geometry.cylinder]) (by simp [NoResults])
  obtain ⟨w1, h1, h⟩ := runOk_cons h
  obtain ⟨w2, h2, h⟩ := runOk_cons h
  exact ⟨w0, w1, w2, h0, h1, h2⟩

/-- **C63, as one would like it.** -/
def C63_statement : Prop := ∀ (now : ℕ → ℝ) (g : Grid ℝ) (fn : String) (pre post : List (Call ℝ)) (dyn : Bool) (o : Object ℝ) (w0 w1 w2 w3 : World ℝ),
  Story now g fn pre dyn o post w0 w1 w2 w3 →
  HasShape w3.tree dyn o ∧ (dyn = false → HasPose w3.tree o) ∧ HasMaterial w3.tree o.mat

/-- **C63 is false**: of two materials with the same name only the first is written. -/
theorem C63_false : ¬ C63_statement := by
  intro H
  obtain ⟨w0, w1, w2, h0, h1, h2⟩ := two_discs (fun _ => 0) glass otherGlass
  have st : Story (fun _ => 0) gEx "out" [addCall false (named "a" glass 5 5)] false (named "b" otherGlass 12 12) [] w0 w1 w2 w2 :=
    ⟨h0, by rw [World.run, h1]; rfl, h2, rfl⟩
  obtain ⟨-, -, a⟩ := H _ _ _ _ _ _ _ _ _ _ _ st
  obtain ⟨-, -, m, hm, b⟩ := C63_first _ _ _ _ _ _ _ _ _ _ _ st
  obtain rfl : m = glass := by
    have : firstNamed (matsOf ([addCall false (named "a" glass 5 5)] ++ [addCall false (named "b" otherGlass 12 12)])) "m" = some glass := by
      simp [firstNamed, matsOf, added, addCall, named, disc, glass]
    exact (Option.some.inj (this.symm.trans hm)).symm
  have a := a.2.1
  have b := b.2.1
  change w2.tree.at ["materials", "m", "eps"] = some (.nums [3]) at a
  change w2.tree.at ["materials", "m", "eps"] = some (.nums [2]) at b
  rw [a] at b
  simp at b

/-- A program that meets the hypotheses of C63 and C64: a disc that cannot move and one that is moved, turned and recorded twice. -/
noncomputable def journey : List (Call ℝ) :=
  [.op .update, .op (.pose 1 (.move ⟨-2, 0⟩)), .writeCurrent 1, .op .update, .op .updateMaterialGrid, .op (.pose 1 (.rotate 1)), .writeCurrent 1]

/-- C64, for that program: the file has three poses. -/
example (now : ℕ → ℝ) : ∃ w0 w1 w2 w3, Story now gEx "out" [.op (.addObject (named "a" glass 5 5))] true (named "b" water 12 12) journey w0 w1 w2 w3 ∧
    NamesMaterials [.op (.addObject (named "a" glass 5 5)), addCall true (named "b" water 12 12)] ∧
    HasPoses w3.tree (named "b" water 12 12) [(⟨12, 12⟩, 0), (⟨10, 12⟩, 0), (⟨10, 12⟩, 1)] := by
  obtain ⟨w0, w, h0, h⟩ := C66_completes now gEx gEx_wide (by rw [gEx_dx]; norm_num) "out" (by simp)
    (.op (.addObject (named "a" glass 5 5)) :: .addDynamic (named "b" water 12 12) :: journey)
    ⟨named_safe _ _ (by norm_num) (by norm_num), named_safe _ _ (by norm_num) (by norm_num), by
      intro o ho
      simp only [List.nil_append, List.cons_append, List.modify_succ_cons, List.modify_zero_cons, List.mem_cons, List.not_mem_nil, or_false] at ho
      rcases ho with rfl | rfl
      · exact named_safe _ _ (by norm_num) (by norm_num)
      · exact named_safe "b" water (x := 12 + -2) (y := 12 + 0) (by norm_num) (by norm_num), trivial⟩ trivial
    (by simp [DistinctNames, claims, objectGroup, named, journey])
    (by simp [PlainNames, named, disc, Geometry.cylinder, journey]) (by simp [NoResults, journey])
  obtain ⟨w1, h1, h⟩ := runOk_cons h
  obtain ⟨w2, h2, h⟩ := runOk_cons h
  have st : Story now gEx "out" [.op (.addObject (named "a" glass 5 5))] true (named "b" water 12 12) journey w0 w1 w2 w :=
    ⟨h0, by rw [World.run, h1]; rfl, h2, World.runOk_run h⟩
  refine ⟨w0, w1, w2, w, st, ?_, ?_⟩
  · intro c hc c' hc' o o' ho ho' hn
    simp only [List.mem_cons, List.not_mem_nil, or_false] at hc hc'
    rcases hc with rfl | rfl <;> rcases hc' with rfl | rfl <;> simp only [addCall, added, if_true] at ho ho' <;> cases ho <;> cases ho' <;>
      first | rfl | (exact absurd hn (by simp [named, disc, glass, water]))
  · have := C64_trajectory _ _ _ _ _ _ _ _ _ _ st
    have e : w1.sim.objs.length = 1 := by
      change w0.addObject false _ = _ at h1
      obtain ⟨-, h1, -⟩ := World.addObject_wrote h1
      have e0 : w0.sim.objs = [] := by
        have := World.make_sim h0
        unfold Sim.make at this
        obtain ⟨ck, -, this⟩ := (Except.bind_ok ..).mp this
        obtain ⟨c, -, this⟩ := (Except.bind_ok ..).mp this
        split_ifs at this
        rw [← Except.ok.inj this]
      rw [h1, e0]; rfl
    rw [e] at this
    have t : trajectory 1 ((named "b" water 12 12).pos, (named "b" water 12 12).theta) journey = [(⟨10, 12⟩, 0), (⟨10, 12⟩, 1)] := by
      simp [trajectory, journey, moved, named, disc]
      norm_num
    rw [t] at this
    exact this

/-- **C65, as one would like it**: a call that throws leaves the simulation as it was. -/
def C65_statement : Prop := ∀ (now : ℕ → ℝ) (g : Grid ℝ) (fn : String) (w0 w w' : World ℝ) (cs : List (Call ℝ)) (c : Call ℝ) (m : String),
  World.make now g fn = .ok w0 → w0.run now cs = .ok w → w.step now c = .threw m w' → w'.sim.core = w.sim.core

theorem named_within (n : String) (m : Material ℝ) : TopAt [named n m 12 12] (gEx.toReal ⟨12, 12⟩) (named n m 12 12) := by
  refine ⟨[], [], rfl, ?_, by simp⟩
  change (disc m 12 12).inside _ = true
  rw [disc_inside]
  simp only [Grid.toReal, gEx_dx, ofInt_real]
  norm_num

/-- A second disc with the name of the first, in its place, of another material: the call throws and the medium changes. -/
theorem C65_second_disc (now : ℕ → ℝ) : ∃ w0 w1 w2 m, World.make now gEx "out" = .ok w0 ∧
    w0.step now (addCall false (named "a" glass 12 12)) = .ok w1 ∧ w1.step now (addCall false (named "a" otherGlass 12 12)) = .threw m w2 ∧
    HasMedium w1.sim.core.f glass.kind gEx.dt 12 12 ∧ HasMedium w2.sim.core.f otherGlass.kind gEx.dt 12 12 ∧ w2.sim.objs = w1.sim.objs := by
  obtain ⟨w0, w1, h0, h1⟩ : ∃ w0 w1, World.make now gEx "out" = .ok w0 ∧ w0.step now (addCall false (named "a" glass 12 12)) = .ok w1 := by
    obtain ⟨w0, w, h0, h⟩ := C66_completes now gEx gEx_wide (by rw [gEx_dx]; norm_num) "out" (by simp)
      [addCall false (named "a" glass 12 12)] ⟨named_safe _ _ (by norm_num) (by norm_num), trivial⟩ trivial
      (by simp [DistinctNames, claims, addCall]) (by simp [PlainNames, named, disc, Geometry.cylinder, addCall]) (by simp [NoResults, addCall])
    obtain ⟨w1, h1, -⟩ := runOk_cons h
    exact ⟨w0, w1, h0, h1⟩
  obtain ⟨s0, e0, hs⟩ := make_safe now False gEx gEx_wide "out" (by decide)
  have hw := World.make_sim h0
  rw [e0] at hw
  have hw : s0 = w0.sim := Except.ok.inj hw
  rw [hw] at hs
  have i1 := World.step_inv now (addCall false (named "a" glass 12 12)) (World.make_inv h0)
  rw [h1] at i1
  have hm : (named "a" otherGlass 12 12).mat.name ∈ w1.sim.mats := (i1.mat.used _).mpr ⟨glass, by simp [matsOf, added, addCall, named, disc], rfl⟩
  have hg : w0.sim.core.g = gEx := hs.grid
  have clear : ∀ m, ∀ o ∈ [named "a" m 12 12], ClearOfUnguardedEdges gEx o := by
    intro m o ho
    rw [List.mem_singleton.mp ho]
    exact disc_clear m (by norm_num) (by norm_num)
  have sound : ∀ m, ∀ o ∈ [named "a" m 12 12], BoxSound o := by
    intro m o ho
    rw [List.mem_singleton.mp ho]
    exact disc_sound m 12 12
  have r1 : w0.sim.runOk now (simOps [addCall false (named "a" glass 12 12)]) = .ok w1.sim :=
    World.runOk_sim (by rw [World.runOk, h1]; rfl)
  have c1 : w0.sim.core.insertObject (named "a" glass 12 12) = .ok w1.sim.core := by
    change w0.sim.runOk now [.addObject (named "a" glass 12 12)] = _ at r1
    rw [Sim.runOk] at r1
    cases e : w0.sim.step now (.addObject (named "a" glass 12 12)) with
    | threw m s => rw [e] at r1; cases r1
    | ub u => rw [e] at r1; cases r1
    | ok s =>
      rw [e] at r1
      have r1 := Except.ok.inj r1
      unfold Sim.step at e
      dsimp only at e
      obtain ⟨c, hc, e⟩ := tryM_ok e
      rw [← r1, ← Res.ok.inj e]
      split_ifs at hc <;> exact hc
  obtain ⟨d1, k1, wf1, m1⟩ := C09_adding w0.sim.core (by rw [hg]; exact gEx_lawful) hs.wf [named "a" glass 12 12] (sound _)
    (by rw [hg]; exact clear _)
  rw [forList_cons, c1] at k1
  have : d1 = w1.sim.core := (Except.ok.inj k1).symm
  rw [this] at wf1 m1
  have g1 : w1.sim.core.g = gEx := by
    obtain ⟨c', e, -, g', -⟩ := Core.insertObject_ok hs.wf (o := named "a" glass 12 12) (by rw [hg]; exact named_safe _ _ (by norm_num) (by norm_num))
    rw [c1] at e
    rw [Except.ok.inj e, g', hg]
  obtain ⟨d2, k2, -, m2⟩ := C09_adding w1.sim.core (by rw [g1]; exact gEx_lawful) wf1 [named "a" otherGlass 12 12] (sound _)
    (by rw [g1]; exact clear _)
  have c2 : w1.sim.core.insertObject (named "a" otherGlass 12 12) = .ok d2 := by
    rw [forList_cons] at k2
    obtain ⟨c, hc, k2⟩ := (Except.bind_ok ..).mp k2
    exact hc.trans k2
  cases h2 : w1.step now (addCall false (named "a" otherGlass 12 12)) with
  | ok w2 => exact absurd h2 (C68_object now false _ _ w0 w1 w1 w2 [] h1 rfl rfl rfl)
  | ub u =>
    exfalso
    rw [addCall_step] at h2
    unfold World.addObject at h2
    dsimp only at h2
    have hc : w1.sim.mats.contains (named "a" otherGlass 12 12).mat.name = true := by simpa using hm
    simp only [hc, Bool.not_true, Bool.false_eq_true, if_false] at h2
    change tryM (w1.sim.core.insertObject _) w1 _ = _ at h2
    rw [c2] at h2
    unfold tryM World.write at h2
    dsimp only at h2
    split at h2 <;> cases h2
  | threw m w2 =>
    obtain ⟨a1, a2⟩ := C65_object_painted now w1 w2 false _ m d2 c2 hm h2
    have x := (m2 12 12 (by norm_num) (by rw [g1, gEx_Nx]; norm_num) (by norm_num) (by rw [g1, gEx_Ny]; norm_num)).1 _
      (by rw [g1]; exact named_within "a" otherGlass)
    have y := (m1 12 12 (by norm_num) (by rw [hg, gEx_Nx]; norm_num) (by norm_num) (by rw [hg, gEx_Ny]; norm_num)).1 _
      (by rw [hg]; exact named_within "a" glass)
    rw [g1, ← a1] at x
    rw [hg] at y
    exact ⟨w0, w1, w2, m, h0, h1, h2, y, x, a2⟩

/-- **C65 is false.** -/
theorem C65_false : ¬ C65_statement := by
  intro H
  obtain ⟨w0, w1, w2, m, h0, h1, h2, x, y, -⟩ := C65_second_disc (fun _ => 0)
  have e := H _ gEx "out" w0 w1 w2 [addCall false (named "a" glass 12 12)] _ m h0 (by rw [World.run, h1]; rfl) h2
  have x := x.Cb
  have y := y.Cb
  rw [e, x] at y
  simp [glass, otherGlass, MatKind.Cb, Simple.Cb, gEx_dt] at y
  norm_num at y

end Qbox.Props
