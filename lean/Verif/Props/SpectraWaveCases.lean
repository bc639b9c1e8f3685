import Verif.Props.SpectraWaveProps
import Verif.Props.ResultProps
import Verif.Props.DrivenWaveCases

/-! # Programs that write the spectra of a wave (C94, C95) -/

namespace Qbox.Props
open Qbox Scalar Spec

/-- The calls that add objects and sources. -/
def furnish (objs : List (Object ℝ)) (srcs : List (Source ℝ)) : List (Call ℝ) := objs.map (fun o => .op (.addObject o)) ++ srcs.map fun s => .op (.addSource s)

theorem simOps_map {α : Type} (l : List α) (f : α → Op ℝ) : simOps (l.map fun x => .op (f x)) = l.map f := by
  induction l with
  | nil => rfl
  | cons x l ih => simp only [List.map_cons, simOps]; rw [ih]

theorem simOps_furnish (objs : List (Object ℝ)) (srcs : List (Source ℝ)) : simOps (furnish objs srcs) = objs.map .addObject ++ srcs.map .addSource := by
  unfold furnish
  rw [simOps_append, simOps_map, simOps_map]

theorem simOps_updates (n : ℕ) : simOps (List.replicate n (Call.op (K := ℝ) .update)) = List.replicate n .update := by
  induction n with
  | zero => rfl
  | succ n ih => simp only [List.replicate_succ, simOps]; rw [ih]

theorem objectsOf_furnish (objs : List (Object ℝ)) (srcs : List (Source ℝ)) : objectsOf (simOps (furnish objs srcs)) = objs ∧ sourcesOf (simOps (furnish objs srcs)) = srcs := by
  rw [simOps_furnish]
  induction objs with
  | nil =>
    rw [List.map_nil, List.nil_append]
    constructor
    · induction srcs with
      | nil => rfl
      | cons s l ih => exact ih
    · induction srcs with
      | nil => rfl
      | cons s l ih => exact congrArg (s :: ·) ih
  | cons o l ih => exact ⟨congrArg (o :: ·) ih.1, ih.2⟩

theorem inside_steps (g : Grid ℝ) (ob : List (Object ℝ)) (n : ℕ) : Inside False g ob (List.replicate n .update) := by
  induction n with
  | zero => trivial
  | succ n ih => exact ih

theorem claims_updates (n : ℕ) : (List.replicate n (Call.op (K := ℝ) .update)).flatMap claims = [] := by
  induction n with
  | zero => rfl
  | succ n ih => rw [List.replicate_succ, List.flatMap_cons, ih]; rfl

theorem inside_furnish {g : Grid ℝ} (hl : Lawful g) (srcs : List (Source ℝ)) (fits : ∀ s ∈ srcs, Fits g s) (ops : List (Op ℝ)) (ho : ∀ ob, Inside False g ob ops) :
    ∀ (objs ob : List (Object ℝ)), (∀ o ∈ objs, ClearOfUnguardedEdges g o) → Inside False g ob (objs.map .addObject ++ srcs.map .addSource ++ ops)
  | [], ob, _ => by
    rw [List.map_nil, List.nil_append]
    induction srcs with
    | nil => exact ho ob
    | cons s l ih => exact ⟨fits s (by simp), ih fun s hs => fits s (by simp [hs])⟩
  | o :: objs, ob, hc => ⟨safe_of_clear hl (hc o (by simp)), inside_furnish hl srcs fits ops ho objs _ fun o ho => hc o (by simp [ho])⟩

theorem proper_plain : ∀ (ops : List (Op ℝ)) (u : List String),
    (∀ op ∈ ops, op = .update ∨ (∃ o, op = .addObject o) ∨ (∃ s, op = .addSource s) ∨ (∃ m, op = .addMonitor m) ∨ ∃ v tp, op = .setTfsf v tp) → Proper u ops
  | [], _, _ => trivial
  | op :: l, u, h => by
    have ih := proper_plain l u fun o ho => h o (by simp [ho])
    rcases h op (by simp) with rfl | ⟨o, rfl⟩ | ⟨o, rfl⟩ | ⟨o, rfl⟩ | ⟨v, tp, rfl⟩ <;> exact ih

/-- Such programs exist: any objects clear of the edges, any sources that fit, any volume among the nodes that an update changes, any number of steps. The names have to be
different, as they have to be in all programs (C66, C68). -/
theorem C94_program (now : ℕ → ℝ) (g : Grid ℝ) (hw : g.Wide) (hl : Lawful g) (hT : g.T = 0) (objs : List (Object ℝ)) (hc : ∀ o ∈ objs, ClearOfUnguardedEdges g o)
    (srcs : List (Source ℝ)) (fits : ∀ s ∈ srcs, Fits g s) (name : String) (a b : V2 ℝ) (tag : DftTag) (freq : List ℝ) (n : ℕ)
    (hx : (g.toGrid a).x ≤ (g.toGrid b).x) (hy : (g.toGrid a).y ≤ (g.toGrid b).y)
    (hR : ∀ i j, (Box.mk (g.toGrid a).x (g.toGrid b).x (g.toGrid a).y (g.toGrid b).y).Mem i j → (updatedNodes g).Mem i j)
    (hd : DistinctNames (furnish objs srcs)) (hp : ∀ c ∈ furnish objs srcs, PlainNames c) :
    ∃ w4, VolumeWritten now g (furnish objs srcs) (List.replicate n (.op .update)) [] name a b tag freq n w4 := by
  have dt0 : 0 < g.dt := by rw [hl.dt]; linarith [hl.dx]
  set mon : Monitor ℝ := .vol (.make name (Vol.make a b) tag freq) with hmon
  have ia : InGrid g (g.toGrid a) := by
    have := hR (g.toGrid a).x (g.toGrid a).y ⟨⟨le_rfl, hx⟩, le_rfl, hy⟩
    unfold Box.Mem updatedNodes at this
    simp only at this
    exact ⟨by omega, by omega, by omega, by omega⟩
  have ib : InGrid g (g.toGrid b) := by
    have := hR (g.toGrid b).x (g.toGrid b).y ⟨⟨hx, le_rfl⟩, hy, le_rfl⟩
    unfold Box.Mem updatedNodes at this
    simp only at this
    exact ⟨by omega, by omega, by omega, by omega⟩
  have ins : Inside False g [] (simOps (furnish objs srcs) ++ .addMonitor mon :: List.replicate n .update) := by
    rw [simOps_furnish]
    refine inside_furnish hl srcs fits (.addMonitor mon :: List.replicate n .update) (fun ob => ?_) objs [] hc
    exact ⟨.vol name a b tag freq ia ib hx hy, inside_steps g ob n⟩
  have calls : simOps (furnish objs srcs ++ .op (.addMonitor mon) :: List.replicate n (.op .update)) =
      simOps (furnish objs srcs) ++ .addMonitor mon :: List.replicate n .update := by
    rw [simOps_append]
    simp only [simOps]
    rw [simOps_updates]
  have cl0 : (List.replicate n (Call.op (K := ℝ) .update)).flatMap claims = [] := claims_updates n
  have new : ["monitors", "volume_monitor", name] ∉ (furnish objs srcs).flatMap claims := by
    intro h
    obtain ⟨c, h1, h2⟩ := List.mem_flatMap.mp h
    unfold furnish at h1
    rcases List.mem_append.mp h1 with h1 | h1
    · obtain ⟨o, -, rfl⟩ := List.mem_map.mp h1
      have := List.mem_singleton.mp h2
      unfold objectGroup at this
      exact absurd (List.cons.inj this).1 (by decide)
    · obtain ⟨o, -, rfl⟩ := List.mem_map.mp h1
      have := List.mem_singleton.mp h2
      exact absurd (List.cons.inj this).1 (by decide)
  obtain ⟨w0, w2, h0, h2⟩ := C66_completes now g hw hl.dx "out" (by decide) (furnish objs srcs ++ .op (.addMonitor mon) :: List.replicate n (.op .update))
    (by rw [calls]; exact ins)
    (by
      rw [calls, simOps_furnish]
      refine proper_plain _ _ fun op ho => ?_
      simp only [List.mem_append, List.mem_map, List.mem_cons, List.mem_replicate] at ho
      rcases ho with (⟨o, -, rfl⟩ | ⟨s, -, rfl⟩) | rfl | ⟨-, rfl⟩ <;> simp)
    (by
      unfold DistinctNames at hd ⊢
      rw [List.flatMap_append, List.flatMap_cons, cl0, List.append_nil]
      exact List.nodup_append.mpr ⟨hd, List.nodup_singleton _, fun p hp q hq e => new ((List.mem_singleton.mp hq).symm.trans e.symm ▸ hp)⟩)
    (by
      intro c hcm
      rcases List.mem_append.mp hcm with hcm | hcm
      · exact hp c hcm
      · rcases List.mem_cons.mp hcm with rfl | hcm
        · trivial
        · rw [(List.mem_replicate.mp hcm).2]; trivial)
    (by
      intro c hcm
      rcases List.mem_append.mp hcm with hcm | hcm
      · rcases List.mem_append.mp hcm with hcm | hcm <;> (obtain ⟨o, -, rfl⟩ := List.mem_map.mp hcm; trivial)
      · rcases List.mem_cons.mp hcm with rfl | hcm
        · trivial
        · rw [(List.mem_replicate.mp hcm).2]; trivial)
  have hrun := World.runOk_run h2
  rw [World.runOk_append] at h2
  obtain ⟨w1, h1, h2⟩ := (Except.bind_ok ..).mp h2
  obtain ⟨w3, h3, -⟩ := C95_first now g "out" w0 w2 _ h0 (by
      intro m hm
      rcases List.mem_append.mp hm with hm | hm
      · rcases List.mem_append.mp hm with hm | hm <;> (obtain ⟨o, -, e⟩ := List.mem_map.mp hm; cases e)
      · rcases List.mem_cons.mp hm with e | hm
        · cases e; rfl
        · cases (List.mem_replicate.mp hm).2) hrun (.writeSpectra w1.sim.mons.length) trivial (by
      intro pre c' post wp e _ q hq _
      have hcm : c' ∈ furnish objs srcs ++ .op (.addMonitor mon) :: List.replicate n (.op .update) := by rw [e]; simp
      rcases List.mem_append.mp hcm with hcm | hcm
      · rcases List.mem_append.mp hcm with hcm | hcm <;> (obtain ⟨o, -, rfl⟩ := List.mem_map.mp hcm; simp [results] at hq)
      · rcases List.mem_cons.mp hcm with rfl | hcm
        · simp [results] at hq
        · rw [(List.mem_replicate.mp hcm).2] at hq; simp [results] at hq)
  refine ⟨w3, hl, hT, hw, ?_, ?_, ?_, hx, hy, hR, w1, w2, w3, ⟨hw, hl.dx, dt0, ⟨"out", w0, by decide, h0, h1⟩, h2, ?_, ?_⟩, h3, rfl⟩
  · intro op ho
    rw [simOps_furnish] at ho
    rcases List.mem_append.mp ho with ho | ho
    · obtain ⟨o, -, rfl⟩ := List.mem_map.mp ho
      exact .inr (.inl ⟨o, rfl⟩)
    · obtain ⟨o, -, rfl⟩ := List.mem_map.mp ho
      exact .inr (.inr ⟨o, rfl⟩)
  · intro op ho
    rw [simOps_updates] at ho
    exact .inr (List.mem_replicate.mp ho).2
  · rw [simOps_updates, List.countP_replicate]
    rfl
  · rw [simOps_updates]; exact ins
  · intro op ho
    rw [simOps_updates] at ho
    rw [(List.mem_replicate.mp ho).2]
    trivial

/-- The same sources with names `""`, `"a"`, `"aa"`, and so on, beginning at `k`. -/
def renamed : ℕ → List (Source ℝ) → List (Source ℝ)
  | _, [] => []
  | k, s :: l => ⟨String.ofList (List.replicate k 'a'), s.kind, s.tp⟩ :: renamed (k + 1) l

theorem renamed_mem {s : Source ℝ} : ∀ {l : List (Source ℝ)} {k : ℕ}, s ∈ renamed k l → (∃ r ∈ l, r.kind = s.kind ∧ r.tp = s.tp) ∧ ∃ m, k ≤ m ∧ s.name = String.ofList (List.replicate m 'a')
  | [], k, h => by cases h
  | r :: l, k, h => by
    rcases List.mem_cons.mp h with rfl | h
    · exact ⟨⟨r, by simp, rfl, rfl⟩, k, le_rfl, rfl⟩
    · obtain ⟨⟨r', h1, h2⟩, m, h3, h4⟩ := renamed_mem h
      exact ⟨⟨r', by simp [h1], h2⟩, m, by omega, h4⟩

theorem renamed_nodup : ∀ (l : List (Source ℝ)) (k : ℕ), ((renamed k l).map fun s => s.name).Nodup
  | [], _ => List.nodup_nil
  | r :: l, k => by
    refine List.nodup_cons.mpr ⟨fun h => ?_, renamed_nodup l (k + 1)⟩
    obtain ⟨s, h1, h2⟩ := List.mem_map.mp h
    obtain ⟨-, m, h3, h4⟩ := renamed_mem h1
    have e : String.ofList (List.replicate m 'a') = String.ofList (List.replicate k 'a') := h4.symm.trans h2
    have := congrArg List.length (String.ofList_injective e)
    rw [List.length_replicate, List.length_replicate] at this
    omega

theorem renamed_claims (l : List (Source ℝ)) (k : ℕ) : ((renamed k l).flatMap fun s => claims (.op (.addSource s))).Nodup := by
  refine List.Nodup.of_map (fun p : Path => p[2]?) ?_
  have : ∀ l : List (Source ℝ), (l.flatMap fun s => claims (.op (.addSource s))).map (fun p : Path => p[2]?) = (l.map fun s => s.name).map some := by
    intro l
    induction l with
    | nil => rfl
    | cons s l ih => rw [List.flatMap_cons, List.map_append, ih]; rfl
  rw [this]
  exact (renamed_nodup l k).map (Option.some_injective _)

theorem renamed_fits {g : Grid ℝ} {l : List (Source ℝ)} {k : ℕ} (h : ∀ s ∈ l, Fits g s) : ∀ s ∈ renamed k l, Fits g s := by
  intro s hs
  obtain ⟨⟨r, h1, h2, -⟩, -⟩ := renamed_mem hs
  have := h r h1
  unfold Fits at this ⊢
  rw [← h2]
  exact this

theorem renamed_drives {g : Grid ℝ} {r s : Source ℝ} (h : r.kind = s.kind) {C : Fields} {p : V2 ℤ} : Drives g s C p ↔ Drives g r C p := by
  unfold Drives
  rw [h]

theorem renamed_added (g : Grid ℝ) (t : ℝ) (i j : ℤ) : ∀ (l : List (Source ℝ)) (k : ℕ), addedE g (renamed k l) t i j = addedE g l t i j
  | [], _ => rfl
  | r :: l, k => by
    have := renamed_added g t i j l (k + 1)
    unfold addedE at this ⊢
    rw [renamed, List.map_cons, List.map_cons, List.sum_cons, List.sum_cons, this]
    rfl

theorem renamed_carry {g : Grid ℝ} {l : List (Source ℝ)} {k : ℕ} {eps sig : ℝ → ℝ → ℝ} {J : ℝ → ℝ → ℝ → ℝ} {τ δ : ℝ} (h : Spec.Carries g l eps sig J τ δ) :
    Spec.Carries g (renamed k l) eps sig J τ δ := by
  constructor
  · intro s hs C i j hd
    obtain ⟨⟨r, h1, h2, -⟩, -⟩ := renamed_mem hs
    exact h.electric r h1 C i j ((renamed_drives h2).mp hd)
  · intro n i j h1 h2 h3 h4 h5
    rw [renamed_added]
    exact h.node n i j h1 h2 h3 h4 h5

theorem gOpen_node (i j : ℤ) : gOpen.toGrid (⟨(i : ℝ), (j : ℝ)⟩ : V2 ℝ) = ⟨i, j⟩ := by
  simp [Grid.toGrid, gOpen, Grid.make, roundAway_int]

/-- The sources of `DrivenWaveCases` with different names. -/
noncomputable def lampSources : List (Source ℝ) := renamed 0 (radiators gOpen discEps discSig lampJ (- (gOpen.dt / 2)))

/-- A non-trivial case of `C94_simple`: the lamp at the conducting dielectric disc, with the spectra of its field between the nodes (2, 3) and (7, 9). -/
example (now : ℕ → ℝ) (tag : DftTag) (freq : List ℝ) (n : ℕ) : ∃ w4,
    VolumeWritten now gOpen (furnish [lampDisc] lampSources) (List.replicate n (.op .update)) [] "v" ⟨((2 : ℤ) : ℝ), ((3 : ℤ) : ℝ)⟩ ⟨((7 : ℤ) : ℝ), ((9 : ℤ) : ℝ)⟩ tag freq n w4 ∧
    HoldsSpectra w4 gOpen "v" ⟨((2 : ℤ) : ℝ), ((3 : ℤ) : ℝ)⟩ ⟨((7 : ℤ) : ℝ), ((9 : ℤ) : ℝ)⟩ tag freq lamp (n * gOpen.dt)
      (spectralError gOpen 1 (n * gOpen.dt) (restError (fun _ _ => True) gOpen 1 3 + n * gOpen.dt * drivenError (fun _ _ => True) gOpen 1 3 1 0)) := by
  have hl : Lawful gOpen := gOpen_lawful
  have nn := Nat.cast_nonneg (α := ℝ) n
  have hd : gOpen.dt = 1 / 2 := by rw [hl.dt, gOpen_dx]
  have fits : ∀ s ∈ lampSources, Fits gOpen s := renamed_fits (radiators_fit hl _ _ _ _)
  have carry : Spec.Carries gOpen lampSources discEps discSig lampJ (n + 1) 0 := by
    refine renamed_carry (radiators_carry hl lampJ (fun i j _ => ?_) fun m i j _ _ => ?_)
    · rcases discEps_cases (i * gOpen.dx) (j * gOpen.dx) with ⟨e1, e2⟩ | ⟨e1, e2⟩ <;> rw [e1, e2] <;> norm_num
    · rw [show ((m : ℝ) + 1) * gOpen.dt + - (gOpen.dt / 2) = (m + 1 / 2) * gOpen.dt by ring, sub_self, abs_zero]
  obtain ⟨w4, h⟩ := C94_program now gOpen gOpen_wide hl gOpen_T [lampDisc] lampDisc_clear lampSources fits "v" ⟨((2 : ℤ) : ℝ), ((3 : ℤ) : ℝ)⟩ ⟨((7 : ℤ) : ℝ), ((9 : ℤ) : ℝ)⟩ tag freq n
    (by rw [gOpen_node, gOpen_node]; norm_num) (by rw [gOpen_node, gOpen_node]; norm_num)
    (by
      intro i j h
      rw [gOpen_node, gOpen_node] at h
      unfold Box.Mem updatedNodes at *
      rw [gOpen_Nx, gOpen_Ny]
      simp only at *
      omega)
    (by
      unfold DistinctNames furnish
      rw [List.flatMap_append, List.flatMap_map, List.flatMap_map]
      refine List.nodup_append.mpr ⟨List.nodup_singleton _, renamed_claims _ 0, fun p hp q hq e => ?_⟩
      obtain ⟨o, -, hp⟩ := List.mem_flatMap.mp hp
      obtain ⟨s, -, hq⟩ := List.mem_flatMap.mp hq
      rw [List.mem_singleton.mp hp, List.mem_singleton.mp hq] at e
      exact absurd (List.cons.inj e).1 (by decide))
    (by
      intro c hc
      rcases List.mem_append.mp hc with hc | hc
      · obtain ⟨o, ho, rfl⟩ := List.mem_map.mp hc
        rw [List.mem_singleton.mp ho]
        unfold PlainNames lampDisc disc
        decide
      · obtain ⟨s, hs, rfl⟩ := List.mem_map.mp hc
        obtain ⟨⟨r, h1, -, h2⟩, -⟩ := renamed_mem hs
        obtain ⟨p, -, rfl⟩ := List.mem_map.mp h1
        have e : s.tp.params = [] := by rw [← h2]; rfl
        show ("position" :: "p1" :: "p2" :: "sign" :: s.tp.params.map (·.1)).Nodup
        rw [e]
        decide)
  refine ⟨w4, h, C94_simple h [lampDisc] lampSources (objectsOf_furnish _ _).1 (objectsOf_furnish _ _).2 ?_ lampDisc_clear ?_ 3 1 ⟨by norm_num, ?_⟩ ⟨by norm_num, ?_⟩ discEps discSig
    lampDisc_medium lamp (fun _ _ => True) lampJ (n + 1) 1 0 (lamp_smooth _ _) (lamp_steady _ _) (lamp_driven _ _) (lampJ_at_most _ _) (lamp_walls _) (lamp_rest _) fits le_rfl carry
    (by rw [hd]; linarith)⟩
  · intro o ho
    rw [List.mem_singleton.mp ho]
    exact disc_sound _ _ _
  · intro o ho
    rw [List.mem_singleton.mp ho]
    exact ⟨⟨3, 1, 1⟩, rfl, by norm_num, by norm_num⟩
  · intro o ho m hm
    rw [List.mem_singleton.mp ho] at hm
    cases hm
    exact le_rfl
  · intro o ho m hm
    rw [List.mem_singleton.mp ho] at hm
    cases hm
    norm_num

end Qbox.Props
