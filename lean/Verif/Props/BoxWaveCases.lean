import Verif.Props.BoxWaveProps
import Verif.Props.FluxWaveCases

/-! # Programs that write the energy leaving a box (C97) -/

namespace Qbox.Props
open Qbox Scalar Spec

theorem boxMake_ok (name : String) (a b : V2 ℝ) (tag : DftTag) (freq : List ℝ) : ∃ m0, BoxMon.make name (Vol.make a b) tag freq = .ok m0 := by
  choose s hs using boxFace_make a b
  have e0 : (Vol.make a b).getSurface .y_bottom = .ok (s 0) := hs 0
  have e1 : (Vol.make a b).getSurface .x_top = .ok (s 1) := hs 1
  have e2 : (Vol.make a b).getSurface .y_top = .ok (s 2) := hs 2
  have e3 : (Vol.make a b).getSurface .x_bottom = .ok (s 3) := hs 3
  unfold BoxMon.make
  simp only [e0, e1, e2, e3, Except.ok_bind]
  exact ⟨_, rfl⟩

theorem boxMake_claims {name : String} {v : Vol ℝ} {tag : DftTag} {freq : List ℝ} {m0 : BoxMon ℝ} (hm0 : BoxMon.make name v tag freq = .ok m0) :
    (claims (Call.op (.addMonitor (.box m0)))).Nodup ∧ (∀ p ∈ claims (Call.op (.addMonitor (.box m0))), p.head? = some "monitors") ∧ m0.fourier.acc = [] := by
  unfold BoxMon.make at hm0
  obtain ⟨x1, -, hm0⟩ := (Except.bind_ok ..).mp hm0
  obtain ⟨x2, -, hm0⟩ := (Except.bind_ok ..).mp hm0
  obtain ⟨x3, -, hm0⟩ := (Except.bind_ok ..).mp hm0
  obtain ⟨x4, -, hm0⟩ := (Except.bind_ok ..).mp hm0
  cases hm0
  have e : ∀ u v : String, name ++ u = name ++ v ↔ u = v := fun u v => ⟨fun h => by
    have := congrArg String.toList h
    rw [String.toList_append, String.toList_append] at this
    exact String.toList_inj.mp (List.append_cancel_left this), fun h => by rw [h]⟩
  refine ⟨?_, ?_, rfl⟩
  · simp [claims, SurfMon.make, e]
  · simp [claims]

/-- The results that box monitors give in all histories: the flux, and if they record all components, force and torque. -/
def BoxGives (tag : DftTag) (qty : Quantity ℝ) : Prop := qty = .flux ∨ tag = .all ∧ (qty = .force ∨ ∃ c, qty = .torque c)

theorem box_computes (g : Grid ℝ) (hg : 0 < g.dx) (name : String) (a b : V2 ℝ) (tag : DftTag) (ht : tag = .all ∨ tag = .tangent) (freq : List ℝ) (m0 : BoxMon ℝ)
    (hm0 : BoxMon.make name (Vol.make a b) tag freq = .ok m0) (hx : (g.toGrid a).x < (g.toGrid b).x) (hy : (g.toGrid a).y < (g.toGrid b).y)
    (ha : InnerNode g (g.toGrid a)) (hb : InnerNode g (g.toGrid b)) (hab : a.x < b.x) (qs : List (Flds ℝ × ℝ)) (hq : ∀ q ∈ qs, q.1.Dims g.Nx g.Ny)
    (m1 m2 : Monitor ℝ) (e1 : (Monitor.box m0).setF g = .ok m1) (e2 : Monitor.runs g qs m1 = .ok m2) (qty : Quantity ℝ) (hqt : BoxGives tag qty) :
    ∃ M v, m2 = .box M ∧ Monitor.compute g (.box M) qty = some (.ok v) := by
  have hgf : ∀ f, g.toGrid (boxFace a b f).1 ≠ g.toGrid (boxFace a b f).2.1 := by
    intro f e
    have e1 := congrArg V2.x e
    have e2 := congrArg V2.y e
    simp only [Grid.toGrid, roundI_real] at hx hy e1 e2
    fin_cases f <;> simp [boxFace] at e1 e2 <;> omega
  have h1 : ∀ f, InnerNode g (g.toGrid (boxFace a b f).1) := by
    intro f
    obtain ⟨a1, a2, a3, a4⟩ := ha
    obtain ⟨b1, b2, b3, b4⟩ := hb
    fin_cases f <;> refine ⟨?_, ?_, ?_, ?_⟩ <;> assumption
  have h2 : ∀ f, InnerNode g (g.toGrid (boxFace a b f).2.1) := by
    intro f
    obtain ⟨a1, a2, a3, a4⟩ := ha
    obtain ⟨b1, b2, b3, b4⟩ := hb
    fin_cases f <;> refine ⟨?_, ?_, ?_, ?_⟩ <;> assumption
  choose s hs using boxFace_make a b
  choose is hi _ _ _ using fun f => toGridS_make g _ _ _ (s f) (hs f) (hgf f)
  choose ss hf ht' using fun f => surf_finds g hg _ _ _ (s f) (hs f) (hgf f) (h1 f) (h2 f) (is f) (hi f) tag qs hq
  obtain ⟨nx, hnx⟩ : ∃ nx : ℕ, (g.toGrid b).x - (g.toGrid a).x = nx := ⟨((g.toGrid b).x - (g.toGrid a).x).toNat, by omega⟩
  obtain ⟨ny, hny⟩ : ∃ ny : ℕ, (g.toGrid b).y - (g.toGrid a).y = ny := ⟨((g.toGrid b).y - (g.toGrid a).y).toNat, by omega⟩
  have hcc : ∀ f, cells g (boxFace a b f).1 (boxFace a b f).2.1 = faceCount nx ny f := by
    intro f
    simp only [Grid.toGrid, roundI_real] at hnx hny
    fin_cases f <;> simp [cells, boxFace, faceCount, Grid.toGrid] <;> omega
  obtain ⟨m0', M1, M, r0, r1, r2, -, -, r6, r7⟩ := box_recorded g name a b hx hy tag ht freq qs ss nx ny hnx hny (by
    intro f s' is' hs' hi'
    obtain rfl := Except.ok.inj (hs'.symm.trans (hs f))
    obtain rfl := Except.ok.inj (hi'.symm.trans (hi f))
    rw [← hcc]
    exact hf f)
  obtain rfl := Except.ok.inj (r0.symm.trans hm0)
  obtain ⟨S, r5, -⟩ := C41_box g M a b hab nx ny _ _ r6
  have : m1 = .box M1 := by
    unfold Monitor.setF at e1
    simp only [r1, Except.ok_bind] at e1
    exact (Except.ok.inj e1).symm
  subst this
  rw [runs_box, r2] at e2
  have hab' : a.y < b.y := by
    by_contra c
    have := div_le_div_of_nonneg_right (not_lt.mp c) hg.le
    simp only [Grid.toGrid, roundI_real] at hy
    exact absurd hy (not_lt.mpr (roundAway_mono this))
  rcases hqt with rfl | ⟨rfl, rfl | ⟨c, rfl⟩⟩
  · exact ⟨M, _, (Except.ok.inj e2).symm, by simp only [Monitor.compute, r5]; rfl⟩
  · obtain ⟨S, r8, -⟩ := C42_box_force g M a b hab hab' nx ny _ _ (r7 rfl)
    exact ⟨M, _, (Except.ok.inj e2).symm, by simp only [Monitor.compute, r8]; rfl⟩
  · obtain ⟨S, r8, -⟩ := C42_box_torque g M a b hab hab' nx ny _ _ (r7 rfl)
    exact ⟨M, _, (Except.ok.inj e2).symm, by simp only [Monitor.compute, r8]; rfl⟩

theorem op_of_simOps {op : Op ℝ} : ∀ (cs : List (Call ℝ)), (∀ c ∈ cs, (∃ o, c = .op (.addObject o)) ∨ (∃ s, c = .op (.addSource s)) ∨ ∃ v tp, c = .op (.setTfsf v tp)) →
    op ∈ simOps cs → Call.op op ∈ cs
  | [], _, h => by cases h
  | c :: l, hk, h => by
    have ih := op_of_simOps (op := op) l (fun c hc => hk c (List.mem_cons_of_mem _ hc))
    rcases hk c (List.mem_cons_self ..) with ⟨o, rfl⟩ | ⟨o, rfl⟩ | ⟨v, tp, rfl⟩ <;> (
      simp only [simOps, List.mem_cons] at h
      rcases h with rfl | h
      · exact List.mem_cons_self ..
      · exact List.mem_cons_of_mem _ (ih h))

/-- Programs that write a result of a box exist: `cs1` is any list of calls that add objects that are safe and sources that fit and set an incident wave that fits, the box is two nodes
away from the walls. The names have to be different, as they have to be in all programs (C66, C68). -/
theorem box_writes (now : ℕ → ℝ) (g : Grid ℝ) (hw : g.Wide) (hl : Lawful g) (cs1 : List (Call ℝ))
    (safe : ∀ l, (∀ ob, Inside False g ob l) → Inside False g [] (simOps cs1 ++ l))
    (kind : ∀ c ∈ cs1, (∃ o, c = .op (.addObject o)) ∨ (∃ s, c = .op (.addSource s)) ∨ ∃ v tp, c = .op (.setTfsf v tp)) (name : String) (a b : V2 ℝ) (tag : DftTag)
    (htag : tag = .all ∨ tag = .tangent) (freq : List ℝ) (n : ℕ) (hdx : g.dx ≤ 1)
    (hx : 2 ≤ (g.toGrid a).x ∧ (g.toGrid a).x < (g.toGrid b).x ∧ (g.toGrid b).x ≤ g.Nx - 2)
    (hy : 2 ≤ (g.toGrid a).y ∧ (g.toGrid a).y < (g.toGrid b).y ∧ (g.toGrid b).y ≤ g.Ny - 2)
    (hd : DistinctNames cs1) (hp : ∀ c ∈ cs1, PlainNames c) (qty : Quantity ℝ) (hqt : BoxGives tag qty) :
    ∃ m0 w1 w2 w3, BoxMon.make name (Vol.make a b) tag freq = .ok m0 ∧ Watched now g cs1 (.box m0) (List.replicate n (.op .update)) w1 w2 ∧
      w2.step now (.report w1.sim.mons.length qty) = .ok w3 ∧ Advances (simOps (List.replicate n (.op .update) : List (Call ℝ))) ∧
      n = (simOps (List.replicate n (.op .update) : List (Call ℝ))).countP isUpdate := by
  have dt0 : 0 < g.dt := by rw [hl.dt]; linarith [hl.dx]
  obtain ⟨x1, x2, x3⟩ := hx
  obtain ⟨y1, y2, y3⟩ := hy
  have ia : InnerNode g (g.toGrid a) := inner_of_two ⟨x1, by omega⟩ ⟨y1, by omega⟩ hdx
  have ib : InnerNode g (g.toGrid b) := inner_of_two ⟨by omega, x3⟩ ⟨by omega, y3⟩ hdx
  have hab : a.x < b.x := by
    by_contra c
    have := div_le_div_of_nonneg_right (not_lt.mp c) hl.dx.le
    simp only [Grid.toGrid, roundI_real] at x2
    exact absurd x2 (not_lt.mpr (roundAway_mono this))
  obtain ⟨m0, hm0⟩ := boxMake_ok name a b tag freq
  have hn := boxMake_name hm0
  set mon : Monitor ℝ := .box m0 with hmon
  have ins : Inside False g [] (simOps cs1 ++ .addMonitor mon :: List.replicate n .update) := by
    refine safe (.addMonitor mon :: List.replicate n .update) fun ob => ?_
    exact ⟨.box name a b tag freq m0 hm0 x2 y2 ia ib, inside_steps g ob n⟩
  have calls : simOps (cs1 ++ .op (.addMonitor mon) :: List.replicate n (.op .update)) =
      simOps cs1 ++ .addMonitor mon :: List.replicate n .update := by
    rw [simOps_append]
    simp only [simOps]
    rw [simOps_updates]
  have cl0 : (List.replicate n (Call.op (K := ℝ) .update)).flatMap claims = [] := claims_updates n
  obtain ⟨cl1, cl2, cl3⟩ := boxMake_claims hm0
  have new : ∀ p ∈ claims (Call.op (.addMonitor mon)), p ∉ cs1.flatMap claims := by
    intro p hp h
    have hp := cl2 p hp
    obtain ⟨c, h1, h2⟩ := List.mem_flatMap.mp h
    rcases kind c h1 with ⟨o, rfl⟩ | ⟨o, rfl⟩ | ⟨v, tp, rfl⟩
    · rw [List.mem_singleton.mp h2] at hp
      unfold objectGroup at hp
      exact absurd (Option.some.inj hp) (by decide)
    · rw [List.mem_singleton.mp h2] at hp
      exact absurd (Option.some.inj hp) (by decide)
    · rw [List.mem_singleton.mp h2] at hp
      exact absurd (Option.some.inj hp) (by decide)
  obtain ⟨w0, w2, h0, h2⟩ := C66_completes now g hw hl.dx "out" (by decide) (cs1 ++ .op (.addMonitor mon) :: List.replicate n (.op .update))
    (by rw [calls]; exact ins)
    (by
      rw [calls]
      refine proper_plain _ _ fun op ho => ?_
      simp only [List.mem_append, List.mem_cons, List.mem_replicate] at ho
      rcases ho with ho | rfl | ⟨-, rfl⟩
      · rcases kind _ (op_of_simOps cs1 kind ho) with ⟨o, e⟩ | ⟨o, e⟩ | ⟨v, tp, e⟩ <;> cases e <;> simp
      · simp
      · simp)
    (by
      unfold DistinctNames at hd ⊢
      rw [List.flatMap_append, List.flatMap_cons, cl0, List.append_nil]
      exact List.nodup_append.mpr ⟨hd, cl1, fun p hp q hq e => new q hq (e ▸ hp)⟩)
    (by
      intro c hcm
      rcases List.mem_append.mp hcm with hcm | hcm
      · exact hp c hcm
      · rcases List.mem_cons.mp hcm with rfl | hcm
        · trivial
        · rw [(List.mem_replicate.mp hcm).2]; trivial)
    (by
      intro c hcm
      rcases List.mem_append.mp hcm with hcm | hcm
      · rcases kind c hcm with ⟨o, rfl⟩ | ⟨o, rfl⟩ | ⟨v, tp, rfl⟩ <;> trivial
      · rcases List.mem_cons.mp hcm with rfl | hcm
        · trivial
        · rw [(List.mem_replicate.mp hcm).2]; trivial)
  have hrun := World.runOk_run h2
  rw [World.runOk_append] at h2
  obtain ⟨w1, h1, h2⟩ := (Except.bind_ok ..).mp h2
  have watched : Watched now g cs1 mon (List.replicate n (.op .update)) w1 w2 := by
    refine ⟨hw, hl.dx, dt0, ⟨"out", w0, by decide, h0, h1⟩, h2, ?_, ?_⟩
    · rw [simOps_updates]; exact ins
    · intro op ho
      rw [simOps_updates] at ho
      rw [(List.mem_replicate.mp ho).2]
      trivial
  have comp : Computable w2 (.report w1.sim.mons.length qty) := by
    intro m x hm hx
    obtain ⟨s2, qs, m1, m2, -, -, -, hq, e1, -, e2, hm', -⟩ := Qbox.Props.attaches watched.attaches
    obtain ⟨M, v, r1, r2⟩ := box_computes g hl.dx name a b tag htag freq m0 hm0 x2 y2 ia ib hab qs hq m1 m2 e1 e2 qty hqt
    subst r1
    rw [hm'] at hm
    obtain rfl := Option.some.inj hm
    rw [watched.grid, r2] at hx
    exact ⟨_, (Option.some.inj hx).symm⟩
  obtain ⟨w3, h3, -⟩ := C95_first now g "out" w0 w2 _ h0 (by
      intro m hm
      rcases List.mem_append.mp hm with hm | hm
      · rcases kind _ hm with ⟨o, e⟩ | ⟨o, e⟩ | ⟨v, tp, e⟩ <;> cases e
      · rcases List.mem_cons.mp hm with e | hm
        · cases e; show m0.fourier.acc.map Prod.fst = []; rw [cl3]; rfl
        · cases (List.mem_replicate.mp hm).2) hrun (.report w1.sim.mons.length qty) comp (by
      intro pre c' post wp e _ q hq _
      have hcm : c' ∈ cs1 ++ .op (.addMonitor mon) :: List.replicate n (.op .update) := by rw [e]; simp
      rcases List.mem_append.mp hcm with hcm | hcm
      · rcases kind c' hcm with ⟨o, rfl⟩ | ⟨o, rfl⟩ | ⟨v, tp, rfl⟩ <;> simp [results] at hq
      · rcases List.mem_cons.mp hcm with rfl | hcm
        · simp [results] at hq
        · rw [(List.mem_replicate.mp hcm).2] at hq; simp [results] at hq)
  refine ⟨m0, w1, w2, w3, hm0, watched, h3, ?_, ?_⟩
  · intro op ho
    rw [simOps_updates] at ho
    exact .inr (List.mem_replicate.mp ho).2
  · rw [simOps_updates, List.countP_replicate]
    rfl

/-- Programs that write the flux of a box exist. -/
theorem box_program (now : ℕ → ℝ) (g : Grid ℝ) (hw : g.Wide) (hl : Lawful g) (hT : g.T = 0) (cs1 : List (Call ℝ))
    (safe : ∀ l, (∀ ob, Inside False g ob l) → Inside False g [] (simOps cs1 ++ l))
    (kind : ∀ c ∈ cs1, (∃ o, c = .op (.addObject o)) ∨ (∃ s, c = .op (.addSource s)) ∨ ∃ v tp, c = .op (.setTfsf v tp)) (name : String) (a b : V2 ℝ) (tag : DftTag)
    (htag : tag = .all ∨ tag = .tangent) (freq : List ℝ) (n : ℕ) (hdx : g.dx ≤ 1)
    (hx : 2 ≤ (g.toGrid a).x ∧ (g.toGrid a).x < (g.toGrid b).x ∧ (g.toGrid b).x ≤ g.Nx - 2)
    (hy : 2 ≤ (g.toGrid a).y ∧ (g.toGrid a).y < (g.toGrid b).y ∧ (g.toGrid b).y ≤ g.Ny - 2)
    (hd : DistinctNames cs1) (hp : ∀ c ∈ cs1, PlainNames c) :
    ∃ w4, BoxReport now g cs1 (List.replicate n (.op .update)) [] name a b tag freq n w4 := by
  obtain ⟨m0, w1, w2, w3, h1, h2, h3, h4, h5⟩ := box_writes now g hw hl cs1 safe kind name a b tag htag freq n hdx hx hy hd hp .flux (.inl rfl)
  exact ⟨w3, hl, hT, hdx, hw, h4, h5, htag, hx, hy, m0, w1, w2, w3, h1, h2, h3, rfl⟩

/-- Such programs exist: any objects clear of the edges, any sources that fit, any box two nodes away from the walls, any number of steps. The names have to be
different, as they have to be in all programs (C66, C68). -/
theorem C97_program (now : ℕ → ℝ) (g : Grid ℝ) (hw : g.Wide) (hl : Lawful g) (hT : g.T = 0) (objs : List (Object ℝ)) (hc : ∀ o ∈ objs, ClearOfUnguardedEdges g o)
    (srcs : List (Source ℝ)) (fits : ∀ s ∈ srcs, Fits g s) (name : String) (a b : V2 ℝ) (tag : DftTag)
    (htag : tag = .all ∨ tag = .tangent) (freq : List ℝ) (n : ℕ) (hdx : g.dx ≤ 1)
    (hx : 2 ≤ (g.toGrid a).x ∧ (g.toGrid a).x < (g.toGrid b).x ∧ (g.toGrid b).x ≤ g.Nx - 2)
    (hy : 2 ≤ (g.toGrid a).y ∧ (g.toGrid a).y < (g.toGrid b).y ∧ (g.toGrid b).y ≤ g.Ny - 2)
    (hd : DistinctNames (furnish objs srcs)) (hp : ∀ c ∈ furnish objs srcs, PlainNames c) :
    ∃ w4, BoxWritten now g (furnish objs srcs) (List.replicate n (.op .update)) [] name a b tag freq n w4 := by
  obtain ⟨w4, h⟩ := box_program now g hw hl hT (furnish objs srcs) (fun l h => by
      rw [simOps_furnish]
      exact inside_furnish hl srcs fits l h objs [] hc)
    (fun c hcm => by
      rcases List.mem_append.mp hcm with hcm | hcm
      · obtain ⟨o, -, rfl⟩ := List.mem_map.mp hcm; exact .inl ⟨o, rfl⟩
      · obtain ⟨o, -, rfl⟩ := List.mem_map.mp hcm; exact .inr (.inl ⟨o, rfl⟩)) name a b tag htag freq n hdx hx hy hd hp
  refine ⟨w4, h, ?_⟩
  intro op ho
  rw [simOps_furnish] at ho
  rcases List.mem_append.mp ho with ho | ho
  · obtain ⟨o, -, rfl⟩ := List.mem_map.mp ho
    exact .inr (.inl ⟨o, rfl⟩)
  · obtain ⟨o, -, rfl⟩ := List.mem_map.mp ho
    exact .inr (.inr ⟨o, rfl⟩)

/-- The names of the objects and sources of the lamp are different. -/
theorem lamp_names : DistinctNames (furnish [lampDisc] lampSources) ∧ ∀ c ∈ furnish [lampDisc] lampSources, PlainNames c := by
  constructor
  · unfold DistinctNames furnish
    rw [List.flatMap_append, List.flatMap_map, List.flatMap_map]
    refine List.nodup_append.mpr ⟨List.nodup_singleton _, renamed_claims _ 0, fun p hp q hq e => ?_⟩
    obtain ⟨o, -, hp⟩ := List.mem_flatMap.mp hp
    obtain ⟨s, -, hq⟩ := List.mem_flatMap.mp hq
    rw [List.mem_singleton.mp hp, List.mem_singleton.mp hq] at e
    exact absurd (List.cons.inj e).1 (by decide)
  · intro c hc
    rcases List.mem_append.mp hc with hc | hc
    · obtain ⟨o, ho, rfl⟩ := List.mem_map.mp hc
      rw [List.mem_singleton.mp ho]
      unfold PlainNames lampDisc disc
      decide
    · obtain ⟨s, hs, rfl⟩ := List.mem_map.mp hc
      obtain ⟨⟨r, h1, -, h2⟩, -⟩ := renamed_mem hs
      obtain ⟨p, -, rfl⟩ := List.mem_map.mp h1
      have e : s.tp.params = [] := by rw [← h2]; rfl
      show ("position" :: "p1" :: "p2" :: "sign" :: s.tp.params.map (·.1)).Nodup
      rw [e]
      decide

/-- A non-trivial case of `C97_simple`: the lamp at the conducting dielectric disc, with the energy that leaves the box between the nodes (3, 4) and (14, 12). -/
example (now : ℕ → ℝ) (freq : List ℝ) (n : ℕ) : ∃ w4,
    BoxWritten now gOpen (furnish [lampDisc] lampSources) (List.replicate n (.op .update)) [] "v" ⟨((3 : ℤ) : ℝ), ((4 : ℤ) : ℝ)⟩ ⟨((14 : ℤ) : ℝ), ((12 : ℤ) : ℝ)⟩  .tangent freq n w4 ∧
    HoldsBoxFlux w4 gOpen "v" ⟨((3 : ℤ) : ℝ), ((4 : ℤ) : ℝ)⟩ ⟨((14 : ℤ) : ℝ), ((12 : ℤ) : ℝ)⟩  freq lamp (n * gOpen.dt)
      (boxFlowError gOpen ⟨3, 4⟩ ⟨14, 12⟩ 1 (n * gOpen.dt) (restError (fun _ _ => True) gOpen 1 3 + n * gOpen.dt * drivenError (fun _ _ => True) gOpen 1 3 1 0)) := by
  have hl : Lawful gOpen := gOpen_lawful
  have nn := Nat.cast_nonneg (α := ℝ) n
  have hd : gOpen.dt = 1 / 2 := by rw [hl.dt, gOpen_dx]
  have fits : ∀ s ∈ lampSources, Fits gOpen s := renamed_fits (radiators_fit hl _ _ _ _)
  have carry : Spec.Carries gOpen lampSources discEps discSig lampJ (n + 1) 0 := by
    refine renamed_carry (radiators_carry hl lampJ (fun i j _ => ?_) fun m i j _ _ => ?_)
    · rcases discEps_cases (i * gOpen.dx) (j * gOpen.dx) with ⟨e1, e2⟩ | ⟨e1, e2⟩ <;> rw [e1, e2] <;> norm_num
    · rw [show ((m : ℝ) + 1) * gOpen.dt + - (gOpen.dt / 2) = (m + 1 / 2) * gOpen.dt by ring, sub_self, abs_zero]
  obtain ⟨w4, h⟩ := C97_program now gOpen gOpen_wide hl gOpen_T [lampDisc] lampDisc_clear lampSources fits "v" ⟨((3 : ℤ) : ℝ), ((4 : ℤ) : ℝ)⟩ ⟨((14 : ℤ) : ℝ), ((12 : ℤ) : ℝ)⟩  .tangent (.inr rfl) freq n
    (by rw [gOpen_dx]) (by rw [gOpen_node, gOpen_node, gOpen_Nx]; decide) (by rw [gOpen_node, gOpen_node, gOpen_Ny]; decide)
    lamp_names.1 lamp_names.2
  rw [← gOpen_node 3 4, ← gOpen_node 14 12]
  refine ⟨w4, h, C97_simple h [lampDisc] lampSources (objectsOf_furnish _ _).1 (objectsOf_furnish _ _).2 ?_ lampDisc_clear ?_ 3 1 ⟨by norm_num, ?_⟩ ⟨by norm_num, ?_⟩ discEps discSig
    lampDisc_medium lamp (fun _ _ => True) lampJ (n + 1) 1 0 (lamp_smooth _ _) (lamp_steady _ _) (lamp_even _ _) (lamp_driven _ _) (lampJ_at_most _ _) (lamp_walls _) (lamp_rest _) fits le_rfl carry
    (by rw [hd]; linarith)⟩
  · intro o ho
    rw [List.mem_singleton.mp ho]
    exact disc_sound _ _ _
  · intro o ho
    rw [List.mem_singleton.mp ho]
    exact ⟨⟨3, 1, 1⟩, rfl, by norm_num, by norm_num⟩
  · intro o ho m hm
    rw [List.mem_singleton.mp ho] at hm
    cases hm
    exact le_rfl
  · intro o ho m hm
    rw [List.mem_singleton.mp ho] at hm
    cases hm
    norm_num

end Qbox.Props
