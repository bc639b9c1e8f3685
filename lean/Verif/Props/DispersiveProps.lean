import Verif.Lemmas.Dispersive

/-! # Dispersive objects in a closed domain (C72) -/

namespace Qbox.Props
open Qbox Scalar Spec

/-- **C72** (Debye media of at most two poles, Drude media of at most one), all time: a grid without absorbing layer, filled in any way with passive media, without sources. The energy of
fields and media never grows, and it bounds the field. -/
theorem C72_closed (n : ℕ) (c : Core ℝ) (hc : c.Std) (hT : c.g.T = 0) (ht : c.tfsf = none) (med : ℤ → ℤ → Medium)
    (hp : Dispersive c med (updatedNodes c.g)) (hs : EdgeStill c) (q : FrameQuiet c.f (updatedNodes c.g)) :
    ∃ c', c.run n [] = .ok (c', []) ∧ total c' med (updatedNodes c.g) ≤ total c med (updatedNodes c.g) ∧
      size c.g c'.f (updatedNodes c.g) ≤ 8 * total c med (updatedNodes c.g) := by
  suffices h : ∃ c', c.run n [] = .ok (c', []) ∧ c'.g = c.g ∧ total c' med (updatedNodes c.g) ≤ total c med (updatedNodes c.g) ∧ FrameQuiet c'.f (updatedNodes c.g) by
    obtain ⟨c', r, g', e, q'⟩ := h
    refine ⟨c', r, e, ?_⟩
    have h1 : (updatedNodes c.g).l ≤ (updatedNodes c.g).r + 1 := by have := hc.wide.nx; simp only [updatedNodes]; omega
    have h2 : (updatedNodes c.g).b ≤ (updatedNodes c.g).t + 1 := by have := hc.wide.ny; simp only [updatedNodes]; omega
    have d := C18_definite c.g hc.law (fun i j => (med i j).base) (updatedNodes c.g) h1 h2 (fun i j h => (Medium.Passive.base_eps (hp.passive i j h)).1) c'.f q'
    have st : 0 ≤ c.g.dx ^ 2 * (updatedNodes c.g).sum fun i j => stored c' i j (med i j) := by
      refine mul_nonneg (sq_nonneg _) ?_
      refine le_trans (le_of_eq ?_) ((updatedNodes c.g).sum_le (F := fun _ _ => 0) fun i j h => stored_nonneg (c := c') (by rw [g']; exact hc.dt_pos) (hp.passive i j h))
      unfold Box.sum; simp
    unfold total at e
    rw [g'] at e
    unfold total
    linarith
  induction n generalizing c with
  | zero => exact ⟨c, rfl, rfl, le_rfl, q⟩
  | succ n ih =>
    have h1 : (updatedNodes c.g).l ≤ (updatedNodes c.g).r + 1 := by have := hc.wide.nx; simp only [updatedNodes]; omega
    have h2 : (updatedNodes c.g).b ≤ (updatedNodes c.g).t + 1 := by have := hc.wide.ny; simp only [updatedNodes]; omega
    obtain ⟨c1, l1, E2, E3, E4, f, u, S⟩ := Core.update_step hc [] (by simp)
    obtain rfl : l1 = [] := by have := S.same; cases this; rfl
    obtain ⟨q1, s1, t1, lo⟩ := closed_still hc hT S ht hp.lorentz hs q
    have d1 : Dispersive c1 med (updatedNodes c.g) := ⟨by rw [S.g]; exact hp.beyond,
      fun i j h => (filled_step hc u S ht hp.lorentz (hp.beyond i j h) (hp.passive i j h) (hp.filled i j h)).1, hp.passive, lo⟩
    have q1' := q1
    rw [S.g] at q1'
    have e := total_step hc u S ht h1 h2 hp q q1'
    obtain ⟨c2, v, g2, b1, q2⟩ := ih c1 S.std (by rw [S.g, hT]) t1 (by rw [S.g]; exact d1) s1 q1
    rw [S.g] at b1 q2 g2
    exact ⟨c2, by unfold Core.run; rw [u]; exact v, g2, b1.trans e, q2⟩

/-! ## From objects to media -/

theorem mapSet_keys {α : Type} (n : String) (p : α) : ∀ l : List (String × α), (mapSet n p l).map Prod.fst = l.map Prod.fst
  | [] => rfl
  | (m, q) :: l => by
    unfold mapSet
    split
    · rfl
    · simp [mapSet_keys n p l]

theorem mapInsert_perm {α : Type} (n : String) (p : α) : ∀ l : List (String × α), ((mapInsert n p l).map Prod.fst).Perm (n :: l.map Prod.fst)
  | [] => by simp [mapInsert]
  | (m, q) :: l => by
    unfold mapInsert
    split
    · simp
    · simp only [List.map_cons]
      exact ((mapInsert_perm n p l).cons m).trans (List.Perm.swap n m _)

theorem mapFind_none_keys {α : Type} {n : String} : ∀ {l : List (String × α)}, mapFind n l = none → n ∉ l.map Prod.fst
  | [], _ => by simp
  | (m, q) :: l, h => by
    unfold mapFind at h
    split at h
    · cases h
    · rename_i hn
      simp only [List.map_cons, List.mem_cons, not_or]
      exact ⟨fun e => hn e.symm, mapFind_none_keys h⟩

theorem mapFind_of_mem {α : Type} {n : String} {p : α} : ∀ {l : List (String × α)}, (l.map Prod.fst).Nodup → (n, p) ∈ l → mapFind n l = some p
  | (m, q) :: l, hn, h => by
    rw [List.map_cons, List.nodup_cons] at hn
    unfold mapFind
    rcases List.mem_cons.mp h with e | h
    · cases e; simp
    · split
      · rename_i e
        exact absurd (List.mem_map_of_mem (f := Prod.fst) h) (by simp only; rw [← e]; exact hn.1)
      · exact mapFind_of_mem hn.2 h

theorem addPol_nodup {α : Type} {n : String} {fresh : α} {ins : α → M α} {l l' : List (String × α)} (h : addPol n fresh ins l = .ok l')
    (hn : (l.map Prod.fst).Nodup) : (l'.map Prod.fst).Nodup := by
  unfold addPol at h
  split at h
  · rename_i e
    obtain ⟨p, -, h⟩ := (Except.bind_ok ..).mp h
    cases h
    rw [(mapInsert_perm n p l).nodup_iff, List.nodup_cons]
    exact ⟨mapFind_none_keys e, hn⟩
  · obtain ⟨p, -, h⟩ := (Except.bind_ok ..).mp h
    cases h
    rw [mapSet_keys]; exact hn

/-- Different entries of the maps have different names. -/
structure NamesApart (c : Core ℝ) : Prop where
  debye : (c.debye.map Prod.fst).Nodup
  drude : (c.drude.map Prod.fst).Nodup

theorem NamesApart.insertAll : ∀ (objs : List (Object ℝ)) {c c' : Core ℝ}, NamesApart c → forList objs c (fun o c => c.insertObject o) = .ok c' → NamesApart c'
  | [], c, c', hn, h => by cases h; exact hn
  | o :: l, c, c', hn, h => by
    rw [forList_cons] at h
    obtain ⟨c1, h1, h2⟩ := (Except.bind_ok ..).mp h
    refine NamesApart.insertAll l ?_ h2
    unfold Core.insertObject at h1
    obtain ⟨f, -, h3⟩ := (Except.bind_ok ..).mp h1
    cases hk : o.mat.kind with
    | simple m => rw [hk] at h3; cases h3; exact ⟨hn.1, hn.2⟩
    | debye m =>
      rw [hk] at h3
      obtain ⟨d, e, h3⟩ := (Except.bind_ok ..).mp h3
      cases h3; exact ⟨addPol_nodup e hn.1, hn.2⟩
    | drude m =>
      rw [hk] at h3
      obtain ⟨d, e, h3⟩ := (Except.bind_ok ..).mp h3
      cases h3; exact ⟨hn.1, addPol_nodup e hn.2⟩
    | lorentz m =>
      rw [hk] at h3
      obtain ⟨d, e, h3⟩ := (Except.bind_ok ..).mp h3
      cases h3; exact ⟨hn.1, hn.2⟩

theorem insertAll_lorentz : ∀ (objs : List (Object ℝ)) {c c' : Core ℝ}, (∀ o ∈ objs, PassiveKind o.mat.kind) →
    forList objs c (fun o c => c.insertObject o) = .ok c' → c'.lorentz = c.lorentz
  | [], c, c', _, h => by cases h; rfl
  | o :: l, c, c', hp, h => by
    rw [forList_cons] at h
    obtain ⟨c1, h1, h2⟩ := (Except.bind_ok ..).mp h
    rw [insertAll_lorentz l (fun o' h' => hp o' (by simp [h'])) h2]
    unfold Core.insertObject at h1
    obtain ⟨f, -, h3⟩ := (Except.bind_ok ..).mp h1
    have hpo := hp o (by simp)
    cases hk : o.mat.kind with
    | simple m => rw [hk] at h3; cases h3; rfl
    | debye m =>
      rw [hk] at h3
      obtain ⟨d, e, h3⟩ := (Except.bind_ok ..).mp h3
      cases h3; rfl
    | drude m =>
      rw [hk] at h3
      obtain ⟨d, e, h3⟩ := (Except.bind_ok ..).mp h3
      cases h3; rfl
    | lorentz m => rw [hk] at hpo; exact hpo.elim

theorem insertAll_debye_none : ∀ (objs : List (Object ℝ)) {c c' : Core ℝ} {n : String}, forList objs c (fun o c => c.insertObject o) = .ok c' →
    mapFind n c.debye = none → (∀ o ∈ objs, ¬ o.IsDebye n) → mapFind n c'.debye = none
  | [], c, c', n, h, hn, _ => by cases h; exact hn
  | o :: l, c, c', n, h, hn, ho => by
    rw [forList_cons] at h
    obtain ⟨c1, h1, h2⟩ := (Except.bind_ok ..).mp h
    exact insertAll_debye_none l h2 (insertObject_debye_none h1 hn (ho o (by simp))) fun o' h' => ho o' (by simp [h'])

/-- What is known of every entry after the objects have been added to an empty simulation. -/
theorem debye_entry {c c' : Core ℝ} {objs : List (Object ℝ)} (hf : c.f.Dims c.g.Nx c.g.Ny) (hs : ∀ o ∈ objs, o.Safe c.g) (h0 : c.debye = [])
    (h : forList objs c (fun o c => c.insertObject o) = .ok c') (hn : (c'.debye.map Prod.fst).Nodup) {q : String × DebyePol ℝ} (hq : q ∈ c'.debye) :
    ∃ m, (∃ o ∈ objs, o.mat.kind = .debye m ∧ o.mat.name = q.1) ∧ DebyePol.Painted c.g (fun i j => 0 ≤ i ∧ i < c.g.Nx ∧ 0 ≤ j ∧ j < c.g.Ny ∧
        ∃ o ∈ objs, o.IsDebye q.1 ∧ o.inside (c.g.toReal ⟨i, j⟩) = true) (DebyePol.make c.g m) q.2 := by
  have e : mapFind q.1 c.debye = none := by rw [h0]; rfl
  have f := mapFind_of_mem hn (n := q.1) (p := q.2) hq
  by_cases ho : ∃ o ∈ objs, o.IsDebye q.1
  · obtain ⟨m, P', k1, k2, k3⟩ := insertAll_debye_fresh objs hf hs h e ho
    rw [f] at k2
    cases k2
    exact ⟨m, k1, k3⟩
  · push Not at ho
    have := insertAll_debye_none objs h e ho
    rw [f] at this; cases this

theorem debye_entry_quiet {c c' : Core ℝ} {objs : List (Object ℝ)} (hf : c.f.Dims c.g.Nx c.g.Ny) (hs : ∀ o ∈ objs, o.Safe c.g) (h0 : c.debye = [])
    (h : forList objs c (fun o c => c.insertObject o) = .ok c') (hn : (c'.debye.map Prod.fst).Nodup) {q : String × DebyePol ℝ} (hq : q ∈ c'.debye)
    {i j : ℤ} (hi : ∀ o ∈ objs, o.IsDebye q.1 → o.inside (c.g.toReal ⟨i, j⟩) = false) : DebyeQuiet q.2 i j := by
  obtain ⟨m, -, k⟩ := debye_entry hf hs h0 h hn hq
  intro N _ _
  refine ⟨by rw [k.J]; rfl, ?_⟩
  rw [k.off i j N]
  · rfl
  · rintro ⟨-, -, -, -, o, ho, k1, k2⟩
    rw [hi o ho k1] at k2; cases k2

theorem insertAll_drude_none : ∀ (objs : List (Object ℝ)) {c c' : Core ℝ} {n : String}, forList objs c (fun o c => c.insertObject o) = .ok c' →
    mapFind n c.drude = none → (∀ o ∈ objs, ¬ o.IsDrude n) → mapFind n c'.drude = none
  | [], c, c', n, h, hn, _ => by cases h; exact hn
  | o :: l, c, c', n, h, hn, ho => by
    rw [forList_cons] at h
    obtain ⟨c1, h1, h2⟩ := (Except.bind_ok ..).mp h
    exact insertAll_drude_none l h2 (insertObject_drude_none h1 hn (ho o (by simp))) fun o' h' => ho o' (by simp [h'])

/-- What is known of every entry after the objects have been added to an empty simulation. -/
theorem drude_entry {c c' : Core ℝ} {objs : List (Object ℝ)} (hf : c.f.Dims c.g.Nx c.g.Ny) (hs : ∀ o ∈ objs, o.Safe c.g) (h0 : c.drude = [])
    (h : forList objs c (fun o c => c.insertObject o) = .ok c') (hn : (c'.drude.map Prod.fst).Nodup) {q : String × DrudePol ℝ} (hq : q ∈ c'.drude) :
    ∃ m, (∃ o ∈ objs, o.mat.kind = .drude m ∧ o.mat.name = q.1) ∧ DrudePol.Painted c.g (fun i j => 0 ≤ i ∧ i < c.g.Nx ∧ 0 ≤ j ∧ j < c.g.Ny ∧
        ∃ o ∈ objs, o.IsDrude q.1 ∧ o.inside (c.g.toReal ⟨i, j⟩) = true) (DrudePol.make c.g m) q.2 := by
  have e : mapFind q.1 c.drude = none := by rw [h0]; rfl
  have f := mapFind_of_mem hn (n := q.1) (p := q.2) hq
  by_cases ho : ∃ o ∈ objs, o.IsDrude q.1
  · obtain ⟨m, P', k1, k2, k3⟩ := insertAll_drude_fresh objs hf hs h e ho
    rw [f] at k2
    cases k2
    exact ⟨m, k1, k3⟩
  · push Not at ho
    have := insertAll_drude_none objs h e ho
    rw [f] at this; cases this

theorem drude_entry_quiet {c c' : Core ℝ} {objs : List (Object ℝ)} (hf : c.f.Dims c.g.Nx c.g.Ny) (hs : ∀ o ∈ objs, o.Safe c.g) (h0 : c.drude = [])
    (h : forList objs c (fun o c => c.insertObject o) = .ok c') (hn : (c'.drude.map Prod.fst).Nodup) {q : String × DrudePol ℝ} (hq : q ∈ c'.drude)
    {i j : ℤ} (hi : ∀ o ∈ objs, o.IsDrude q.1 → o.inside (c.g.toReal ⟨i, j⟩) = false) : DrudeQuiet q.2 i j := by
  obtain ⟨m, -, k⟩ := drude_entry hf hs h0 h hn hq
  intro N _ _
  refine ⟨by rw [k.J]; rfl, ?_⟩
  rw [k.off i j N]
  · rfl
  · rintro ⟨-, -, -, -, o, ho, k1, k2⟩
    rw [hi o ho k1] at k2; cases k2

theorem top_mem {objs : List (Object ℝ)} {p : V2 ℝ} {o : Object ℝ} (h : TopAt objs p o) : o ∈ objs ∧ o.inside p = true := by
  obtain ⟨b, a, e, h1, -⟩ := h
  exact ⟨by rw [e]; simp, h1⟩

/-- A new simulation with objects of passive materials and any field in it: at every node there is a medium, that of the topmost object. -/
theorem objects_filled {g : Grid ℝ} (hw : g.Wide) (hl : Lawful g) (hT : g.T = 0 ∨ 2 ≤ g.T) (objs : List (Object ℝ)) (hb : ∀ o ∈ objs, BoxSound o)
    (hc : ∀ o ∈ objs, ClearOfUnguardedEdges g o) (hp : ∀ o ∈ objs, PassiveKind o.mat.kind) (hn : OneMeaning objs) (hu : Uncovered g objs) :
    ∃ c0 c1, Core.make g = .ok c0 ∧ forList objs c0 (fun o c => c.insertObject o) = .ok c1 ∧ c1.Std ∧ c1.g = g ∧ Silent c1 ∧ c1.lorentz = [] ∧
      ∀ i j, 0 ≤ i → i < g.Nx → 0 ≤ j → j < g.Ny → ∃ m : Medium, m.Passive ∧ Filled c1 i j m ∧
        (∀ o, TopAt objs (g.toReal ⟨i, j⟩) o → Medium.Of o.mat.kind m) ∧ ((∀ o ∈ objs, o.inside (g.toReal ⟨i, j⟩) = false) → m = .simple Qbox.vacuum) := by
  obtain ⟨c0, h1, h2, h3, h4, h5⟩ := make_empty hw hl hT
  subst h3
  have hs : ∀ o ∈ objs, o.Safe c0.g := fun o ho => safe_of_clear hl (hc o ho)
  obtain ⟨c1, k1, k2, k3, k4⟩ := Core.Std.insertAll objs h2 h4 hs
  obtain ⟨c1', j1, -, j3⟩ := C09_adding c0 hl h2.wf objs hb hc
  rw [k1] at j1
  cases j1
  have na : NamesApart c1 := NamesApart.insertAll objs ⟨by rw [h5.debye]; simp, by rw [h5.drude]; simp⟩ k1
  have lo : c1.lorentz = [] := by rw [insertAll_lorentz objs hp k1, h5.lorentz]
  refine ⟨c0, c1, h1, k1, k2, k3, k4, lo, fun i j i0 i1 jj0 jj1 => ?_⟩
  obtain ⟨a1, a2⟩ := j3 i j i0 i1 jj0 jj1
  have quietD : ∀ n, (∀ o ∈ objs, o.IsDebye n → o.inside (c0.g.toReal ⟨i, j⟩) = false) → ∀ q ∈ c1.debye, q.1 = n → DebyeQuiet q.2 i j :=
    fun n h q hq e => debye_entry_quiet h2.wf.f hs h5.debye k1 na.debye hq (by rw [e]; exact h)
  have quietR : ∀ n, (∀ o ∈ objs, o.IsDrude n → o.inside (c0.g.toReal ⟨i, j⟩) = false) → ∀ q ∈ c1.drude, q.1 = n → DrudeQuiet q.2 i j :=
    fun n h q hq e => drude_entry_quiet h2.wf.f hs h5.drude k1 na.drude hq (by rw [e]; exact h)
  have isD : ∀ {o : Object ℝ} {n}, o.IsDebye n → MatKind.Delayed o.mat.kind := by
    rintro o n ⟨⟨m, e⟩, -⟩; rw [e]; trivial
  have isR : ∀ {o : Object ℝ} {n}, o.IsDrude n → MatKind.Delayed o.mat.kind := by
    rintro o n ⟨⟨m, e⟩, -⟩; rw [e]; trivial
  rcases C09_total objs (c0.g.toReal ⟨i, j⟩) with hno | ⟨o, ho⟩
  · refine ⟨.simple Qbox.vacuum, ⟨by simp [Qbox.vacuum], by simp [Qbox.vacuum]⟩, ⟨fun q hq => quietD q.1 (fun o ho _ => hno o ho) q hq rfl,
      fun q hq => quietR q.1 (fun o ho _ => hno o ho) q hq rfl, by rw [lo]; simp, ?_⟩, fun o ho => ?_, fun _ => rfl⟩
    · have v := h5.medium i j i0 i1 jj0 jj1
      obtain ⟨b1, b2, b3, b4⟩ := a2 hno
      rw [k3]
      exact ⟨b1.trans v.Ca, b2.trans v.Cb, b3.trans v.Da, b4.trans v.Db⟩
    · have := hno o (top_mem ho).1
      rw [(top_mem ho).2] at this; cases this
  · have uq : ∀ o', TopAt objs (c0.g.toReal ⟨i, j⟩) o' → o'.mat.kind = o.mat.kind := by
      intro o' ho'
      have := (HasMedium.Ca (a1 o' ho'))
      obtain ⟨b, a, e, q1, q2⟩ := ho
      obtain ⟨b', a', e', q1', q2'⟩ := ho'
      rw [e] at e'
      rcases List.append_eq_append_iff.mp e' with ⟨l, r1, r2⟩ | ⟨l, r1, r2⟩
      · cases l with
        | nil => simp at r2; rw [r2.1]
        | cons z l =>
          simp only [List.cons_append, List.cons.injEq] at r2
          have := q2 o' (by rw [r2.2]; simp)
          rw [q1'] at this; cases this
      · cases l with
        | nil => simp at r2; rw [r2.1]
        | cons z l =>
          simp only [List.cons_append, List.cons.injEq] at r2
          have := q2' o (by rw [r2.2]; simp)
          rw [q1] at this; cases this
    obtain ⟨om, oi⟩ := top_mem ho
    have med := a1 o ho
    have pk := hp o om
    have nv : ¬ ∀ o ∈ objs, o.inside (c0.g.toReal ⟨i, j⟩) = false := fun h => by have := h o om; rw [oi] at this; cases this
    cases hk : o.mat.kind with
    | simple m =>
      have off : ∀ o' ∈ objs, MatKind.Delayed o'.mat.kind → o'.inside (c0.g.toReal ⟨i, j⟩) = false := by
        intro o' ho' hd
        by_contra hcon
        rw [Bool.not_eq_false] at hcon
        have := hu o' ho' hd i j hcon o ho
        rw [← this, hk] at hd
        exact hd
      rw [hk] at med pk
      refine ⟨.simple m, pk, ⟨fun q hq => quietD q.1 (fun o ho h => off o ho (isD h)) q hq rfl, fun q hq => quietR q.1 (fun o ho h => off o ho (isR h)) q hq rfl,
        by rw [lo]; simp, by rw [k3]; exact med⟩, fun o' ho' => by rw [uq o' ho', hk]; exact .simple m, fun h => absurd h nv⟩
    | debye m =>
      have same : ∀ o' ∈ objs, MatKind.Delayed o'.mat.kind → o'.inside (c0.g.toReal ⟨i, j⟩) = true → o'.mat = o.mat :=
        fun o' ho' hd hi => (hu o' ho' hd i j hi o ho).symm
      rw [hk] at med pk
      obtain ⟨m', P, -, f1, -⟩ := insertAll_debye_fresh objs h2.wf.f hs k1 (n := o.mat.name) (by rw [h5.debye]; rfl) ⟨o, om, ⟨m, hk⟩, rfl⟩
      obtain ⟨b, a, e⟩ := List.append_of_mem (mapFind_mem f1)
      obtain ⟨m2, ⟨o2, g1, g2, g3⟩, pa⟩ := debye_entry h2.wf.f hs h5.debye k1 na.debye (mapFind_mem f1)
      have mm : m2 = m := by
        have := hn o2 g1 o om (by rw [g2]; trivial) (by rw [hk]; trivial) g3
        rw [this, hk] at g2
        exact (MatKind.debye.inj g2).symm
      subst mm
      have pm : P.mat = m2 := pa.mat
      refine ⟨.debye b.length m2, pk, ⟨o.mat.name, P, b, a, ⟨e, ?_, ?_, lo, by rw [k3, pm]; exact med, ?_⟩, rfl, pm⟩,
        fun o' ho' => by rw [uq o' ho', hk]; exact .debye m2 _, fun h => absurd h nv⟩
      · intro q hq
        have hq' : q ∈ c1.debye := by
          rw [e]
          rcases List.mem_append.mp hq with h | h <;> simp [h]
        refine quietD q.1 (fun o' ho' h => ?_) q hq' rfl
        by_contra hcon
        rw [Bool.not_eq_false] at hcon
        have hm := same o' ho' (isD h) hcon
        have nm : q.1 = o.mat.name := by rw [← hm]; exact h.2.symm
        have nd := na.debye
        rw [e, List.map_append, List.map_cons, List.nodup_append, List.nodup_cons] at nd
        rcases List.mem_append.mp hq with h' | h'
        · exact nd.2.2 q.1 (List.mem_map_of_mem h') o.mat.name (by simp) nm
        · exact nd.2.1.1 (by show o.mat.name ∈ _; rw [← nm]; exact List.mem_map_of_mem h')
      · intro q hq
        refine quietR q.1 (fun o' ho' h => ?_) q hq rfl
        by_contra hcon
        rw [Bool.not_eq_false] at hcon
        have hm := same o' ho' (isR h) hcon
        obtain ⟨⟨m3, e3⟩, -⟩ := h
        rw [hm, hk] at e3; cases e3
      · intro N hN
        have hN' : N < m2.poles.length := by rw [← pm]; exact hN
        rw [pa.on i j N i0 i1 jj0 jj1 (by positivity) (show (N : ℤ) < (m2.poles.length : ℤ) by exact_mod_cast hN') ⟨i0, i1, jj0, jj1, o, om, ⟨⟨m2, hk⟩, rfl⟩, oi⟩, k3]
        simp only [DebyePol.strength, Arr.ofList, Int.toNat_natCast, DebyePol.make, pm]
        simp [List.getD, hN']
    | drude m =>
      have same : ∀ o' ∈ objs, MatKind.Delayed o'.mat.kind → o'.inside (c0.g.toReal ⟨i, j⟩) = true → o'.mat = o.mat :=
        fun o' ho' hd hi => (hu o' ho' hd i j hi o ho).symm
      rw [hk] at med pk
      obtain ⟨m', P, -, f1, -⟩ := insertAll_drude_fresh objs h2.wf.f hs k1 (n := o.mat.name) (by rw [h5.drude]; rfl) ⟨o, om, ⟨m, hk⟩, rfl⟩
      obtain ⟨b, a, e⟩ := List.append_of_mem (mapFind_mem f1)
      obtain ⟨m2, ⟨o2, g1, g2, g3⟩, pa⟩ := drude_entry h2.wf.f hs h5.drude k1 na.drude (mapFind_mem f1)
      have mm : m2 = m := by
        have := hn o2 g1 o om (by rw [g2]; trivial) (by rw [hk]; trivial) g3
        rw [this, hk] at g2
        exact (MatKind.drude.inj g2).symm
      subst mm
      have pm : P.mat = m2 := pa.mat
      refine ⟨.drude b.length m2, pk, ⟨o.mat.name, P, b, a, ⟨e, ?_, ?_, lo, by rw [k3, pm]; exact med, ?_⟩, rfl, pm⟩,
        fun o' ho' => by rw [uq o' ho', hk]; exact .drude m2 _, fun h => absurd h nv⟩
      · intro q hq
        have hq' : q ∈ c1.drude := by
          rw [e]
          rcases List.mem_append.mp hq with h | h <;> simp [h]
        refine quietR q.1 (fun o' ho' h => ?_) q hq' rfl
        by_contra hcon
        rw [Bool.not_eq_false] at hcon
        have hm := same o' ho' (isR h) hcon
        have nm : q.1 = o.mat.name := by rw [← hm]; exact h.2.symm
        have nd := na.drude
        rw [e, List.map_append, List.map_cons, List.nodup_append, List.nodup_cons] at nd
        rcases List.mem_append.mp hq with h' | h'
        · exact nd.2.2 q.1 (List.mem_map_of_mem h') o.mat.name (by simp) nm
        · exact nd.2.1.1 (by show o.mat.name ∈ _; rw [← nm]; exact List.mem_map_of_mem h')
      · intro q hq
        refine quietD q.1 (fun o' ho' h => ?_) q hq rfl
        by_contra hcon
        rw [Bool.not_eq_false] at hcon
        have hm := same o' ho' (isD h) hcon
        obtain ⟨⟨m3, e3⟩, -⟩ := h
        rw [hm, hk] at e3; cases e3
      · intro N hN
        have hN' : N < m2.poles.length := by rw [← pm]; exact hN
        rw [pa.on i j N i0 i1 jj0 jj1 (by positivity) (show (N : ℤ) < (m2.poles.length : ℤ) by exact_mod_cast hN') ⟨i0, i1, jj0, jj1, o, om, ⟨⟨m2, hk⟩, rfl⟩, oi⟩, k3]
        simp only [DrudePol.strength, Arr.ofList, Int.toNat_natCast, DrudePol.make, pm]
        simp [List.getD, hN']
    | lorentz m => rw [hk] at pk; exact pk.elim

/-- The energy at the start, when no charge moves yet: the field energy with the static permittivity of the Debye media. -/
theorem total_start {c : Core ℝ} (ht : 0 < c.g.dt) {med : ℤ → ℤ → Medium} {R : Box} (hd : ∀ q ∈ c.debye, T3Zero q.2.J) (hr : ∀ q ∈ c.drude, T3Zero q.2.J)
    (hf : ∀ i j, R.Mem i j → Filled c i j (med i j)) (hp : ∀ i j, R.Mem i j → (med i j).Passive) :
    total c med R = energy c.g (fun i j => (med i j).static c.g.dt) c.f R := by
  unfold total energy
  rw [← mul_add, ← R.sum_add]
  congr 1
  refine R.sum_congr fun i j h => ?_
  have f := hf i j h
  have p := hp i j h
  cases hm : med i j with
  | simple m => simp only [hm, Medium.base, Medium.static, stored]; ring
  | debye k m =>
    rw [hm] at f p
    obtain ⟨n, P, b, a, F, rfl, -⟩ := f
    have z : ∀ N : ℤ, P.J.val i j N = 0 := fun N => hd (n, P) (by rw [F.entry]; simp) i j N
    by_cases two : ∃ r s, m.poles = [r, s]
    · obtain ⟨r, s, e⟩ := two
      have hp' : DebyePassive m := p
      have good : PairGood ⟨m.epsInf, r, s, c.g.dt⟩ := ⟨by show 0 < m.epsInf; linarith [hp'.epsInf], hp'.tau r (by rw [e]; simp), hp'.tau s (by rw [e]; simp),
        hp'.dEps r (by rw [e]; simp), hp'.dEps s (by rw [e]; simp), ht⟩
      have rest := pair_rest good (c.f.Ez.val i j)
      simp only [hm, Medium.base, Medium.static, stored, get_split F.entry, debyeKeep, debyeStatic, e, z]
      simp only at rest
      linarith
    have keep : debyeKeep m c.g.dt (c.f.Ez.val i j) (fun N => P.J.val i j N) = debyeStore m (c.f.Ez.val i j) (fun N => P.J.val i j N) := by
      unfold debyeKeep
      split
      · rename_i r s e; exact absurd ⟨r, s, e⟩ two
      · rfl
    have stat : debyeStatic m c.g.dt = m.epsInf + ∑ N : Fin m.poles.length, m.poles[N].dEps := by
      unfold debyeStatic
      split
      · rename_i r s e; exact absurd ⟨r, s, e⟩ two
      · rfl
    simp only [hm, Medium.base, Medium.static, stored, get_split F.entry, keep, stat, debyeStore]
    have e : ∀ N : Fin m.poles.length, (m.poles[N].dEps * c.f.Ez.val i j - m.poles[N].tau * P.J.val i j (N : ℕ)) ^ 2 / (2 * m.poles[N].dEps)
        = m.poles[N].dEps * (c.f.Ez.val i j ^ 2 / 2) := by
      intro N
      have : 0 < m.poles[N].dEps := p.dEps _ (List.getElem_mem _)
      rw [z]
      field_simp
      ring
    simp only [e, ← Finset.sum_mul]
    ring
  | drude k m =>
    rw [hm] at f
    obtain ⟨n, P, b, a, F, rfl, -⟩ := f
    simp only [hm, Medium.base, Medium.static, stored, get_split F.entry, drudeStore]
    have z : ∀ N : ℤ, P.J.val i j N = 0 := fun N => hr (n, P) (by rw [F.entry]; simp) i j N
    simp only [z]
    simp

/-- **C72** for programs (Debye media of at most two poles, Drude media of at most one, none of them Lorentz), all time: a new simulation without absorbing layer, any objects of passive
materials such that none covers a dispersive one of another material, any field that vanishes on the edge of the grid. After any number of updates
the field is bounded by the energy at the start, the dispersive media counted with their static permittivity. -/
theorem C72_all_time_partial (g : Grid ℝ) (hw : g.Wide) (hl : Lawful g) (hT : g.T = 0) (objs : List (Object ℝ)) (hb : ∀ o ∈ objs, BoxSound o)
    (hc : ∀ o ∈ objs, ClearOfUnguardedEdges g o) (hp : ∀ o ∈ objs, PassiveKind o.mat.kind) (hn : OneMeaning objs) (hu : Uncovered g objs)
    (e x y : ℤ → ℤ → ℝ) (he : ∀ i j, ¬ (updatedNodes g).Mem i j → e i j = 0) (hx : ∀ i j, ¬ (updatedNodes g).Mem i j → x i j = 0)
    (hy : ∀ i j, ¬ (updatedNodes g).Mem i j → y i j = 0) :
    ∃ c0 c1 med, Core.make g = .ok c0 ∧ forList objs c0 (fun o c => c.insertObject o) = .ok c1 ∧ FilledWith g objs med (updatedNodes g) ∧
      ∀ n, ∃ c2, (withFields c1 e x y).run n [] = .ok (c2, []) ∧
        total c2 med (updatedNodes g) ≤ energy g (fun i j => (med i j).static g.dt) (withFields c1 e x y).f (updatedNodes g) ∧
        size g c2.f (updatedNodes g) ≤ 8 * energy g (fun i j => (med i j).static g.dt) (withFields c1 e x y).f (updatedNodes g) := by
  obtain ⟨c0, c1, h1, h2, h3, h4, h5, h6, h7⟩ := objects_filled hw hl (.inl hT) objs hb hc hp hn hu
  have grid : ∀ i j, (updatedNodes g).Mem i j → 0 ≤ i ∧ i < g.Nx ∧ 0 ≤ j ∧ j < g.Ny := by
    intro i j h
    unfold Box.Mem updatedNodes at h
    simp only at h
    omega
  have pick : ∀ i j, ∃ m : Medium, (updatedNodes g).Mem i j → m.Passive ∧ Filled c1 i j m ∧
        (∀ o, TopAt objs (g.toReal ⟨i, j⟩) o → Medium.Of o.mat.kind m) ∧ ((∀ o ∈ objs, o.inside (g.toReal ⟨i, j⟩) = false) → m = .simple Qbox.vacuum) := by
    intro i j
    by_cases h : (updatedNodes g).Mem i j
    · obtain ⟨a1, a2, a3, a4⟩ := grid i j h
      obtain ⟨m, hm⟩ := h7 i j a1 a2 a3 a4
      exact ⟨m, fun _ => hm⟩
    · exact ⟨.simple Qbox.vacuum, fun h' => absurd h' h⟩
  choose med hmed using pick
  have eg : (withFields c1 e x y).g = g := h4
  have std : (withFields c1 e x y).Std :=
    h3.of_same { h3.wf with f := { h3.wf.f with Ez := h3.wf.f.Ez, Hx := h3.wf.f.Hx, Hy := h3.wf.f.Hy } } rfl rfl rfl rfl
  have fl : ∀ i j m, Filled c1 i j m → Filled (withFields c1 e x y) i j m := by
    intro i j m h
    cases m with
    | simple m => exact ⟨h.debye, h.drude, h.lorentz, ⟨h.medium.Ca, h.medium.Cb, h.medium.Da, h.medium.Db⟩⟩
    | debye k m =>
      obtain ⟨n, P, b, a, F, q⟩ := h
      exact ⟨n, P, b, a, ⟨F.entry, F.others, F.drude, F.lorentz, ⟨F.medium.Ca, F.medium.Cb, F.medium.Da, F.medium.Db⟩, F.strength⟩, q⟩
    | drude k m =>
      obtain ⟨n, P, b, a, F, q⟩ := h
      exact ⟨n, P, b, a, ⟨F.entry, F.others, F.debye, F.lorentz, ⟨F.medium.Ca, F.medium.Cb, F.medium.Da, F.medium.Db⟩, F.strength⟩, q⟩
  have disp : Dispersive (withFields c1 e x y) med (updatedNodes (withFields c1 e x y).g) := by
    rw [eg]
    refine ⟨fun i j h => ?_, fun i j h => fl i j _ (hmed i j h).2.1, fun i j h => (hmed i j h).1, h6⟩
    rw [eg]
    unfold Box.Mem updatedNodes at h
    simp only at h
    constructor <;> rw [hT] <;> omega
  have still : EdgeStill (withFields c1 e x y) := ⟨fun q hq i j N _ _ _ _ _ _ _ => h5.debye q hq i j N, fun q hq i j N _ _ _ _ _ _ _ => h5.drude q hq i j N⟩
  have frame : FrameQuiet (withFields c1 e x y).f (updatedNodes (withFields c1 e x y).g) := by
    rw [eg]
    exact within_frame fun i j h => ⟨he i j h, hx i j h, hy i j h⟩
  have start : total (withFields c1 e x y) med (updatedNodes g) = energy g (fun i j => (med i j).static g.dt) (withFields c1 e x y).f (updatedNodes g) := by
    have := total_start (c := withFields c1 e x y) (by rw [eg, hl.dt]; linarith [hl.dx]) (med := med) (R := updatedNodes g) h5.debye h5.drude (by rw [← eg]; exact disp.filled) (by rw [← eg]; exact disp.passive)
    rw [eg] at this
    exact this
  refine ⟨c0, c1, med, h1, h2, ⟨fun i j o h => (hmed i j h).2.2.1 o, fun i j h => (hmed i j h).2.2.2⟩, fun n => ?_⟩
  obtain ⟨c2, r, b1, b2⟩ := C72_closed n (withFields c1 e x y) std (by rw [eg]; exact hT) h5.tfsf med disp still frame
  rw [eg, start] at b1 b2
  exact ⟨c2, r, b1, b2⟩

/-- A non-trivial case of `C72_all_time_partial`: a disc of a Debye medium of two poles and a disc of a Drude medium on a grid without layer. -/
example : ∃ objs : List (Object ℝ), gOpen.Wide ∧ (∀ o ∈ objs, BoxSound o) ∧ (∀ o ∈ objs, ClearOfUnguardedEdges gOpen o) ∧ (∀ o ∈ objs, PassiveKind o.mat.kind) ∧
    OneMeaning objs ∧ Uncovered gOpen objs ∧ (∃ o ∈ objs, ∃ m, o.mat.kind = .debye m ∧ m.poles.length = 2) ∧ ∃ o ∈ objs, ∃ m, o.mat.kind = .drude m ∧ m.poles ≠ [] := by
  refine ⟨[disc ⟨"a", .debye ⟨2, [⟨3, 1⟩, ⟨5, 2⟩]⟩⟩ 6 6, disc ⟨"b", .drude ⟨1, [⟨2, 0⟩]⟩⟩ 14 14],
    ⟨by rw [gOpen_T, gOpen_Nx]; norm_num, by rw [gOpen_T, gOpen_Ny]; norm_num⟩, ?_, ?_, ?_, ?_, ?_, ?_, ?_⟩
  · intro o ho
    simp only [List.mem_cons, List.not_mem_nil, or_false] at ho
    rcases ho with rfl | rfl <;> exact disc_sound _ _ _
  · intro o ho p hin
    have L : gOpen.Lx = 19 := by simp [gOpen, Grid.make]
    simp only [List.mem_cons, List.not_mem_nil, or_false] at ho
    rcases ho with rfl | rfl
    · rw [disc_inside] at hin
      rw [L]
      constructor <;> nlinarith [sq_nonneg (p.x - 6), sq_nonneg (p.y - 6)]
    · rw [disc_inside] at hin
      rw [L]
      constructor <;> nlinarith [sq_nonneg (p.x - 14), sq_nonneg (p.y - 14)]
  · intro o ho
    simp only [List.mem_cons, List.not_mem_nil, or_false] at ho
    rcases ho with rfl | rfl
    · exact ⟨by norm_num, by simp, by simp, by simp⟩
    · exact ⟨by norm_num, by simp, by simp, by simp⟩
  · intro o ho o' ho' _ _ e
    simp only [List.mem_cons, List.not_mem_nil, or_false] at ho ho'
    rcases ho with rfl | rfl <;> rcases ho' with rfl | rfl <;> first | rfl | (simp [disc] at e)
  · have apart : ∀ p : V2 ℝ, (disc ⟨"a", .debye ⟨2, [⟨3, 1⟩, ⟨5, 2⟩]⟩⟩ 6 6).inside p = true → (disc ⟨"b", .drude ⟨1, [⟨2, 0⟩]⟩⟩ 14 14).inside p = true → False := by
      intro p h1 h2
      rw [disc_inside] at h1 h2
      nlinarith [sq_nonneg (p.x - p.y), sq_nonneg (p.x - 6), sq_nonneg (p.y - 6), sq_nonneg (p.x - 14), sq_nonneg (p.y - 14)]
    intro o ho _ i j hi o' ho'
    obtain ⟨m1, m2⟩ := top_mem ho'
    simp only [List.mem_cons, List.not_mem_nil, or_false] at ho m1
    rcases ho with rfl | rfl <;> rcases m1 with rfl | rfl
    · rfl
    · exact (apart _ hi m2).elim
    · exact (apart _ m2 hi).elim
    · rfl
  · exact ⟨_, List.mem_cons_self, _, rfl, by simp⟩
  · exact ⟨_, List.mem_cons_of_mem _ List.mem_cons_self, _, rfl, by simp⟩

end Qbox.Props
