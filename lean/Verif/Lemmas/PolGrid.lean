import Verif.Lemmas.MatGrid

/-! # Polarization coefficients: effect of adding objects and of `update_material_grid`

The three material kinds have the same structure; the three sections below are copies of each other. -/

namespace Qbox
open Scalar Qbox.Spec

set_option linter.unusedSectionVars false
set_option linter.unusedSimpArgs false

variable {K : Type} [Scalar K]

theorem atInsert_find {P : Type} {name : String} {ins : P → M P} {l l' : List (String × P)}
    (h : atInsert name ins l = .ok l') : ∃ p p', mapFind name l = some p ∧ ins p = .ok p' ∧
      ∀ n, mapFind n l' = if n = name then some p' else mapFind n l := by
  unfold atInsert at h
  cases hm : mapFind name l with
  | none => rw [hm] at h; cases h
  | some p =>
    rw [hm] at h; simp only [Except.bind_ok] at h
    obtain ⟨p', h1, h2⟩ := h
    cases h2
    exact ⟨p, p', rfl, h1, fun n => mapFind_mapSet name n p' l (by simp [hm])⟩

theorem addPol_find {P : Type} {name : String} {fresh : P} {ins : P → M P} {l l' : List (String × P)}
    (h : addPol name fresh ins l = .ok l') : ∃ p', ins ((mapFind name l).getD fresh) = .ok p' ∧
      ∀ n, mapFind n l' = if n = name then some p' else mapFind n l := by
  unfold addPol at h
  cases hm : mapFind name l with
  | none =>
    rw [hm] at h; simp only [Except.bind_ok] at h
    obtain ⟨p', h1, h2⟩ := h
    cases h2
    exact ⟨p', h1, fun n => mapFind_mapInsert name n p' l hm⟩
  | some p =>
    rw [hm] at h; simp only [Except.bind_ok] at h
    obtain ⟨p', h1, h2⟩ := h
    cases h2
    exact ⟨p', h1, fun n => mapFind_mapSet name n p' l (by simp [hm])⟩

/-! ## Debye -/

/-- The strengths of the poles of the medium the map entry was created with. -/
def DebyePol.strength (dt : K) (P : DebyePol K) : ℤ → K := (Arr.ofList (P.mat.poles.map (·.beta dt))).val

/-- `P'` is `P` with the pole strengths written at the nodes satisfying `q`. -/
structure DebyePol.Painted (g : Grid K) (q : ℤ → ℤ → Prop) (P P' : DebyePol K) : Prop where
  wf : P'.WF g.Nx g.Ny
  mat : P'.mat = P.mat
  np : P'.np = P.np
  J : P'.J = P.J
  on : ∀ i j N, 0 ≤ i → i < g.Nx → 0 ≤ j → j < g.Ny → 0 ≤ N → N < P.np → q i j →
    P'.beta.val i j N = P.strength g.dt N
  off : ∀ i j N, ¬ q i j → P'.beta.val i j N = P.beta.val i j N

theorem DebyePol.Painted.refl {g : Grid K} {P : DebyePol K} (h : P.WF g.Nx g.Ny) {q : ℤ → ℤ → Prop} (hq : ∀ i j, ¬ q i j) :
    DebyePol.Painted g q P P :=
  ⟨h, rfl, rfl, rfl, fun i j _ _ _ _ _ _ _ hh => absurd hh (hq i j), fun _ _ _ _ => rfl⟩

theorem DebyePol.Painted.trans {g : Grid K} {q q' q'' : ℤ → ℤ → Prop} {P P' P'' : DebyePol K} (h : DebyePol.Painted g q P P')
    (h' : DebyePol.Painted g q' P' P'') (hq : ∀ i j, q'' i j ↔ q i j ∨ q' i j) : DebyePol.Painted g q'' P P'' where
  wf := h'.wf
  mat := h'.mat.trans h.mat
  np := h'.np.trans h.np
  J := h'.J.trans h.J
  on i j N a b c d e f hh := by
    have hs : P'.strength g.dt = P.strength g.dt := by unfold DebyePol.strength; rw [h.mat]
    by_cases hq' : q' i j
    · rw [h'.on i j N a b c d e (by rw [h.np]; exact f) hq', hs]
    · rw [h'.off i j N hq']
      exact h.on i j N a b c d e f (((hq i j).mp hh).resolve_right hq')
  off i j N hh := by
    rw [h'.off i j N (fun x => hh ((hq i j).mpr (Or.inr x))), h.off i j N (fun x => hh ((hq i j).mpr (Or.inl x)))]

theorem DebyePol.insert_painted {g : Grid K} {P P' : DebyePol K} (hP : P.WF g.Nx g.Ny) {o : Object K}
    (h : P.insert g o = .ok P') : DebyePol.Painted g (fun i j => 0 ≤ i ∧ i < g.Nx ∧ 0 ≤ j ∧ j < g.Ny ∧
      o.inside (g.toReal ⟨i, j⟩) = true) P P' := by
  have hw := DebyePol.insert_closed hP o
  rw [hw] at h
  cases h
  refine ⟨by obtain ⟨_, hw2, hw3⟩ := DebyePol.insert_ok hP o; rw [hw] at hw2; cases hw2; exact hw3, rfl, rfl, rfl, ?_, ?_⟩
  · intro i j N a b c d e f hh
    have hz : P.beta.nz = P.np := hP.beta.2.2
    simp only [Tensor3.paint, Tensor3.setv_val, mem_rect]
    rw [if_pos ⟨⟨⟨a, b⟩, c, d⟩, hh.2.2.2.2, e, by rw [hz]; exact f⟩]
    rfl
  · intro i j N hh
    simp only [Tensor3.paint, Tensor3.setv_val, mem_rect]
    rw [if_neg]
    rintro ⟨⟨⟨a, b⟩, c, d⟩, e, -⟩
    exact hh ⟨a, b, c, d, e⟩

/-- The object is made of the debye material called `n`. -/
def Object.IsDebye (n : String) (o : Object K) : Prop := (∃ m, o.mat.kind = .debye m) ∧ o.mat.name = n

theorem refreshOne_debye {c c' : Core K} {o : Object K} (hf : c.f.Dims c.g.Nx c.g.Ny) (ho : o.Safe c.g)
    (h : c.refreshOne o = .ok c') {n : String} {P : DebyePol K} (hP : mapFind n c.debye = some P) (hw : P.WF c.g.Nx c.g.Ny) :
    ∃ P', mapFind n c'.debye = some P' ∧ DebyePol.Painted c.g (fun i j => 0 ≤ i ∧ i < c.g.Nx ∧ 0 ≤ j ∧ j < c.g.Ny ∧
      o.IsDebye n ∧ o.inside (c.g.toReal ⟨i, j⟩) = true) P P' := by
  unfold Core.refreshOne at h
  rw [paintObject_closed hf ho] at h
  simp only [Except.ok_bind] at h
  unfold Core.updatePolGrid at h
  have other : c'.debye = c.debye → ¬ o.IsDebye n → ∃ P', mapFind n c'.debye = some P' ∧
      DebyePol.Painted c.g (fun i j => 0 ≤ i ∧ i < c.g.Nx ∧ 0 ≤ j ∧ j < c.g.Ny ∧
      o.IsDebye n ∧ o.inside (c.g.toReal ⟨i, j⟩) = true) P P' := by
    intro e hn
    exact ⟨P, by rw [e]; exact hP, .refl hw fun i j hh => hn hh.2.2.2.2.1⟩
  cases hk : o.mat.kind with
  | simple m => rw [hk] at h; cases h; exact other rfl (by rintro ⟨⟨m, hm⟩, -⟩; simp [hk] at hm)
  | drude m =>
    rw [hk] at h; simp only [Except.bind_ok] at h
    obtain ⟨l, -, h⟩ := h; cases h; exact other rfl (by rintro ⟨⟨m, hm⟩, -⟩; simp [hk] at hm)
  | lorentz m =>
    rw [hk] at h; simp only [Except.bind_ok] at h
    obtain ⟨l, -, h⟩ := h; cases h; exact other rfl (by rintro ⟨⟨m, hm⟩, -⟩; simp [hk] at hm)
  | debye m =>
    rw [hk] at h; simp only [Except.bind_ok] at h
    obtain ⟨l, h1, h⟩ := h
    cases h
    obtain ⟨p, p', h2, h3, h4⟩ := atInsert_find h1
    by_cases hn : n = o.mat.name
    · subst hn
      rw [hP] at h2
      cases h2
      refine ⟨p', by rw [h4]; simp, ?_⟩
      have := DebyePol.insert_painted hw h3
      refine ⟨this.wf, this.mat, this.np, this.J, ?_, ?_⟩
      · intro i j N a b c d e f hh
        exact this.on i j N a b c d e f ⟨a, b, c, d, hh.2.2.2.2.2⟩
      · intro i j N hh
        exact this.off i j N fun x => hh ⟨x.1, x.2.1, x.2.2.1, x.2.2.2.1, ⟨⟨m, hk⟩, rfl⟩, x.2.2.2.2⟩
    · refine ⟨P, by rw [h4]; simp only [hn, if_false]; exact hP, .refl hw fun i j hh => hn hh.2.2.2.2.1.2.symm⟩

theorem insertObject_debye {c c' : Core K} {o : Object K} (hf : c.f.Dims c.g.Nx c.g.Ny) (ho : o.Safe c.g)
    (h : c.insertObject o = .ok c') {n : String} {P : DebyePol K} (hP : mapFind n c.debye = some P) (hw : P.WF c.g.Nx c.g.Ny) :
    ∃ P', mapFind n c'.debye = some P' ∧ DebyePol.Painted c.g (fun i j => 0 ≤ i ∧ i < c.g.Nx ∧ 0 ≤ j ∧ j < c.g.Ny ∧
      o.IsDebye n ∧ o.inside (c.g.toReal ⟨i, j⟩) = true) P P' := by
  unfold Core.insertObject at h
  rw [paintObject_closed hf ho] at h
  simp only [Except.ok_bind] at h
  have other : c'.debye = c.debye → ¬ o.IsDebye n → ∃ P', mapFind n c'.debye = some P' ∧
      DebyePol.Painted c.g (fun i j => 0 ≤ i ∧ i < c.g.Nx ∧ 0 ≤ j ∧ j < c.g.Ny ∧
      o.IsDebye n ∧ o.inside (c.g.toReal ⟨i, j⟩) = true) P P' := by
    intro e hn
    exact ⟨P, by rw [e]; exact hP, .refl hw fun i j hh => hn hh.2.2.2.2.1⟩
  cases hk : o.mat.kind with
  | simple m => rw [hk] at h; cases h; exact other rfl (by rintro ⟨⟨m, hm⟩, -⟩; simp [hk] at hm)
  | drude m =>
    rw [hk] at h; simp only [Except.bind_ok] at h
    obtain ⟨l, -, h⟩ := h; cases h; exact other rfl (by rintro ⟨⟨m, hm⟩, -⟩; simp [hk] at hm)
  | lorentz m =>
    rw [hk] at h; simp only [Except.bind_ok] at h
    obtain ⟨l, -, h⟩ := h; cases h; exact other rfl (by rintro ⟨⟨m, hm⟩, -⟩; simp [hk] at hm)
  | debye m =>
    rw [hk] at h; simp only [Except.bind_ok] at h
    obtain ⟨l, h1, h⟩ := h
    cases h
    obtain ⟨p', h3, h4⟩ := addPol_find h1
    by_cases hn : n = o.mat.name
    · subst hn
      rw [hP] at h3
      refine ⟨p', by rw [h4]; simp, ?_⟩
      have := DebyePol.insert_painted hw h3
      refine ⟨this.wf, this.mat, this.np, this.J, ?_, ?_⟩
      · intro i j N a b c d e f hh
        exact this.on i j N a b c d e f ⟨a, b, c, d, hh.2.2.2.2.2⟩
      · intro i j N hh
        exact this.off i j N fun x => hh ⟨x.1, x.2.1, x.2.2.1, x.2.2.2.1, ⟨⟨m, hk⟩, rfl⟩, x.2.2.2.2⟩
    · refine ⟨P, by rw [h4]; simp only [hn, if_false]; exact hP, .refl hw fun i j hh => hn hh.2.2.2.2.1.2.symm⟩

/-- Adding the first object of a debye material. -/
theorem insertObject_debye_first {c c' : Core K} {o : Object K} (hf : c.f.Dims c.g.Nx c.g.Ny) (ho : o.Safe c.g)
    (h : c.insertObject o = .ok c') {m : Debye K} (hk : o.mat.kind = .debye m) (hP : mapFind o.mat.name c.debye = none) :
    ∃ P', mapFind o.mat.name c'.debye = some P' ∧ DebyePol.Painted c.g (fun i j => 0 ≤ i ∧ i < c.g.Nx ∧ 0 ≤ j ∧ j < c.g.Ny ∧
      o.inside (c.g.toReal ⟨i, j⟩) = true) (DebyePol.make c.g m) P' := by
  unfold Core.insertObject at h
  rw [paintObject_closed hf ho] at h
  simp only [Except.ok_bind] at h
  rw [hk] at h; simp only [Except.bind_ok] at h
  obtain ⟨l, h1, h⟩ := h
  cases h
  obtain ⟨p', h3, h4⟩ := addPol_find h1
  rw [hP] at h3
  exact ⟨p', by rw [h4]; simp, DebyePol.insert_painted (DebyePol.make_wf c.g m) h3⟩

theorem refreshAll_debye : ∀ (objs : List (Object K)) {c c' : Core K} {n : String} {P : DebyePol K}, c.f.Dims c.g.Nx c.g.Ny →
    (∀ o ∈ objs, o.Safe c.g) →
    forList objs c Core.refreshOne = .ok c' → mapFind n c.debye = some P → P.WF c.g.Nx c.g.Ny →
    ∃ P', mapFind n c'.debye = some P' ∧ DebyePol.Painted c.g (fun i j => 0 ≤ i ∧ i < c.g.Nx ∧ 0 ≤ j ∧ j < c.g.Ny ∧
      ∃ o ∈ objs, o.IsDebye n ∧ o.inside (c.g.toReal ⟨i, j⟩) = true) P P'
  | [], c, c', n, P, _, _, h => by
    cases h
    intro hP hw
    exact ⟨P, hP, .refl hw (by simp)⟩
  | o :: l, c, c', n, P, hf, hs, h => by
    intro hP hw
    rw [forList_cons] at h; simp only [Except.bind_ok] at h
    obtain ⟨c1, h1, h2⟩ := h
    obtain ⟨P1, e1, e2⟩ := refreshOne_debye hf (hs o (by simp)) h1 hP hw
    obtain ⟨f1, g1⟩ := refreshAll_f [o] hf (by intro o' ho'; simp at ho'; subst ho'; exact hs o' (by simp))
      (by rw [forList_cons, h1]; rfl)
    have hf1 : c1.f.Dims c1.g.Nx c1.g.Ny := by rw [f1, g1]; exact Flds.paint_dims hf _ _ _ _
    obtain ⟨P2, e3, e4⟩ := refreshAll_debye l hf1 (by rw [g1]; exact fun o' ho => hs o' (by simp [ho])) h2 e1
      (by rw [g1]; exact e2.wf)
    rw [g1] at e4
    refine ⟨P2, e3, e2.trans e4 fun i j => ?_⟩
    simp only [List.mem_cons, exists_eq_or_imp]
    tauto

theorem insertAll_debye : ∀ (objs : List (Object K)) {c c' : Core K} {n : String} {P : DebyePol K}, c.f.Dims c.g.Nx c.g.Ny →
    (∀ o ∈ objs, o.Safe c.g) →
    forList objs c (fun o c => c.insertObject o) = .ok c' → mapFind n c.debye = some P → P.WF c.g.Nx c.g.Ny →
    ∃ P', mapFind n c'.debye = some P' ∧ DebyePol.Painted c.g (fun i j => 0 ≤ i ∧ i < c.g.Nx ∧ 0 ≤ j ∧ j < c.g.Ny ∧
      ∃ o ∈ objs, o.IsDebye n ∧ o.inside (c.g.toReal ⟨i, j⟩) = true) P P'
  | [], c, c', n, P, _, _, h => by
    cases h
    intro hP hw
    exact ⟨P, hP, .refl hw (by simp)⟩
  | o :: l, c, c', n, P, hf, hs, h => by
    intro hP hw
    rw [forList_cons] at h; simp only [Except.bind_ok] at h
    obtain ⟨c1, h1, h2⟩ := h
    obtain ⟨P1, e1, e2⟩ := insertObject_debye hf (hs o (by simp)) h1 hP hw
    obtain ⟨f1, g1⟩ := insertObject_f hf (hs o (by simp)) h1
    have hf1 : c1.f.Dims c1.g.Nx c1.g.Ny := by rw [f1, g1]; exact Flds.paint_dims hf _ _ _ _
    obtain ⟨P2, e3, e4⟩ := insertAll_debye l hf1 (by rw [g1]; exact fun o' ho => hs o' (by simp [ho])) h2 e1
      (by rw [g1]; exact e2.wf)
    rw [g1] at e4
    refine ⟨P2, e3, e2.trans e4 fun i j => ?_⟩
    simp only [List.mem_cons, exists_eq_or_imp]
    tauto

theorem insertObject_debye_none {c c' : Core K} {o : Object K} {n : String} (h : c.insertObject o = .ok c')
    (hn : mapFind n c.debye = none) (ho : ¬ o.IsDebye n) : mapFind n c'.debye = none := by
  unfold Core.insertObject at h
  simp only [Except.bind_ok] at h
  obtain ⟨f, -, h⟩ := h
  cases hk : o.mat.kind with
  | simple m => rw [hk] at h; cases h; exact hn
  | drude m =>
    rw [hk] at h; simp only [Except.bind_ok] at h
    obtain ⟨l, -, h⟩ := h; cases h; exact hn
  | lorentz m =>
    rw [hk] at h; simp only [Except.bind_ok] at h
    obtain ⟨l, -, h⟩ := h; cases h; exact hn
  | debye m =>
    rw [hk] at h; simp only [Except.bind_ok] at h
    obtain ⟨l, h1, h⟩ := h
    cases h
    obtain ⟨p', h3, h4⟩ := addPol_find h1
    show mapFind n l = none
    rw [h4, if_neg (fun e => ho ⟨⟨m, hk⟩, e.symm⟩)]
    exact hn

/-- Adding a list of objects to a simulation without any object of the material `n`. -/
theorem insertAll_debye_fresh : ∀ (objs : List (Object K)) {c c' : Core K} {n : String}, c.f.Dims c.g.Nx c.g.Ny →
    (∀ o ∈ objs, o.Safe c.g) → forList objs c (fun o c => c.insertObject o) = .ok c' → mapFind n c.debye = none →
    (∃ o ∈ objs, o.IsDebye n) →
    ∃ m P', (∃ o ∈ objs, o.mat.kind = .debye m ∧ o.mat.name = n) ∧ mapFind n c'.debye = some P' ∧
      DebyePol.Painted c.g (fun i j => 0 ≤ i ∧ i < c.g.Nx ∧ 0 ≤ j ∧ j < c.g.Ny ∧
        ∃ o ∈ objs, o.IsDebye n ∧ o.inside (c.g.toReal ⟨i, j⟩) = true) (DebyePol.make c.g m) P'
  | [], c, c', n, _, _, h, _, he => by simp at he
  | o :: l, c, c', n, hf, hs, h, hn, he => by
    rw [forList_cons] at h; simp only [Except.bind_ok] at h
    obtain ⟨c1, h1, h2⟩ := h
    obtain ⟨f1, g1⟩ := insertObject_f hf (hs o (by simp)) h1
    have hf1 : c1.f.Dims c1.g.Nx c1.g.Ny := by rw [f1, g1]; exact Flds.paint_dims hf _ _ _ _
    have hs1 : ∀ o ∈ l, o.Safe c1.g := by rw [g1]; exact fun o' ho => hs o' (by simp [ho])
    by_cases ho : o.IsDebye n
    · obtain ⟨⟨m, hk⟩, rfl⟩ := ho
      obtain ⟨P1, e1, e2⟩ := insertObject_debye_first hf (hs o (by simp)) h1 hk hn
      obtain ⟨P2, e3, e4⟩ := insertAll_debye l hf1 hs1 h2 e1 (by rw [g1]; exact e2.wf)
      rw [g1] at e4
      refine ⟨m, P2, ⟨o, by simp, hk, rfl⟩, e3, e2.trans e4 fun i j => ?_⟩
      have : o.IsDebye o.mat.name := ⟨⟨m, hk⟩, rfl⟩
      simp only [List.mem_cons, exists_eq_or_imp, this, true_and]
      tauto
    · have hn1 := insertObject_debye_none h1 hn ho
      obtain ⟨m, P', ⟨o', b1, b2⟩, b3, b4⟩ := insertAll_debye_fresh l hf1 hs1 h2 hn1
        (by obtain ⟨o', a1, a2⟩ := he
            rcases List.mem_cons.mp a1 with rfl | a1
            · exact absurd a2 ho
            · exact ⟨o', a1, a2⟩)
      rw [g1] at b4
      refine ⟨m, P', ⟨o', by simp [b1], b2⟩, b3, ?_⟩
      have e : (fun i j => 0 ≤ i ∧ i < c.g.Nx ∧ 0 ≤ j ∧ j < c.g.Ny ∧
        ∃ o_1 ∈ o :: l, o_1.IsDebye n ∧ o_1.inside (c.g.toReal ⟨i, j⟩) = true) = (fun i j => 0 ≤ i ∧ i < c.g.Nx ∧ 0 ≤ j ∧ j < c.g.Ny ∧
        ∃ o ∈ l, o.IsDebye n ∧ o.inside (c.g.toReal ⟨i, j⟩) = true) := by
        funext i j
        simp only [List.mem_cons, exists_eq_or_imp, ho, false_and, false_or]
      rw [e]; exact b4

theorem clearFields_debye {c : Core K} {n : String} {P : DebyePol K} (h : mapFind n c.debye = some P) :
    mapFind n c.clearFields.debye = some P.reset := by
  show mapFind n (c.debye.map fun p => (p.1, p.2.reset)) = _
  generalize c.debye = l at h
  induction l with
  | nil => simp [mapFind] at h
  | cons q l ih =>
    obtain ⟨a, b⟩ := q
    simp only [List.map_cons, mapFind] at h ⊢
    by_cases ha : a = n
    · simp only [ha, if_true] at h ⊢; cases h; rfl
    · simp only [ha, if_false] at h ⊢; exact ih h

/-! ## Drude -/

/-- The strengths of the poles of the medium the map entry was created with. -/
def DrudePol.strength (dt : K) (P : DrudePol K) : ℤ → K := (Arr.ofList (P.mat.poles.map (·.beta dt))).val

/-- `P'` is `P` with the pole strengths written at the nodes satisfying `q`. -/
structure DrudePol.Painted (g : Grid K) (q : ℤ → ℤ → Prop) (P P' : DrudePol K) : Prop where
  wf : P'.WF g.Nx g.Ny
  mat : P'.mat = P.mat
  np : P'.np = P.np
  J : P'.J = P.J
  on : ∀ i j N, 0 ≤ i → i < g.Nx → 0 ≤ j → j < g.Ny → 0 ≤ N → N < P.np → q i j →
    P'.beta.val i j N = P.strength g.dt N
  off : ∀ i j N, ¬ q i j → P'.beta.val i j N = P.beta.val i j N

theorem DrudePol.Painted.refl {g : Grid K} {P : DrudePol K} (h : P.WF g.Nx g.Ny) {q : ℤ → ℤ → Prop} (hq : ∀ i j, ¬ q i j) :
    DrudePol.Painted g q P P :=
  ⟨h, rfl, rfl, rfl, fun i j _ _ _ _ _ _ _ hh => absurd hh (hq i j), fun _ _ _ _ => rfl⟩

theorem DrudePol.Painted.trans {g : Grid K} {q q' q'' : ℤ → ℤ → Prop} {P P' P'' : DrudePol K} (h : DrudePol.Painted g q P P')
    (h' : DrudePol.Painted g q' P' P'') (hq : ∀ i j, q'' i j ↔ q i j ∨ q' i j) : DrudePol.Painted g q'' P P'' where
  wf := h'.wf
  mat := h'.mat.trans h.mat
  np := h'.np.trans h.np
  J := h'.J.trans h.J
  on i j N a b c d e f hh := by
    have hs : P'.strength g.dt = P.strength g.dt := by unfold DrudePol.strength; rw [h.mat]
    by_cases hq' : q' i j
    · rw [h'.on i j N a b c d e (by rw [h.np]; exact f) hq', hs]
    · rw [h'.off i j N hq']
      exact h.on i j N a b c d e f (((hq i j).mp hh).resolve_right hq')
  off i j N hh := by
    rw [h'.off i j N (fun x => hh ((hq i j).mpr (Or.inr x))), h.off i j N (fun x => hh ((hq i j).mpr (Or.inl x)))]

theorem DrudePol.insert_painted {g : Grid K} {P P' : DrudePol K} (hP : P.WF g.Nx g.Ny) {o : Object K}
    (h : P.insert g o = .ok P') : DrudePol.Painted g (fun i j => 0 ≤ i ∧ i < g.Nx ∧ 0 ≤ j ∧ j < g.Ny ∧
      o.inside (g.toReal ⟨i, j⟩) = true) P P' := by
  have hw := DrudePol.insert_closed hP o
  rw [hw] at h
  cases h
  refine ⟨by obtain ⟨_, hw2, hw3⟩ := DrudePol.insert_ok hP o; rw [hw] at hw2; cases hw2; exact hw3, rfl, rfl, rfl, ?_, ?_⟩
  · intro i j N a b c d e f hh
    have hz : P.beta.nz = P.np := hP.beta.2.2
    simp only [Tensor3.paint, Tensor3.setv_val, mem_rect]
    rw [if_pos ⟨⟨⟨a, b⟩, c, d⟩, hh.2.2.2.2, e, by rw [hz]; exact f⟩]
    rfl
  · intro i j N hh
    simp only [Tensor3.paint, Tensor3.setv_val, mem_rect]
    rw [if_neg]
    rintro ⟨⟨⟨a, b⟩, c, d⟩, e, -⟩
    exact hh ⟨a, b, c, d, e⟩

/-- The object is made of the drude material called `n`. -/
def Object.IsDrude (n : String) (o : Object K) : Prop := (∃ m, o.mat.kind = .drude m) ∧ o.mat.name = n

theorem refreshOne_drude {c c' : Core K} {o : Object K} (hf : c.f.Dims c.g.Nx c.g.Ny) (ho : o.Safe c.g)
    (h : c.refreshOne o = .ok c') {n : String} {P : DrudePol K} (hP : mapFind n c.drude = some P) (hw : P.WF c.g.Nx c.g.Ny) :
    ∃ P', mapFind n c'.drude = some P' ∧ DrudePol.Painted c.g (fun i j => 0 ≤ i ∧ i < c.g.Nx ∧ 0 ≤ j ∧ j < c.g.Ny ∧
      o.IsDrude n ∧ o.inside (c.g.toReal ⟨i, j⟩) = true) P P' := by
  unfold Core.refreshOne at h
  rw [paintObject_closed hf ho] at h
  simp only [Except.ok_bind] at h
  unfold Core.updatePolGrid at h
  have other : c'.drude = c.drude → ¬ o.IsDrude n → ∃ P', mapFind n c'.drude = some P' ∧
      DrudePol.Painted c.g (fun i j => 0 ≤ i ∧ i < c.g.Nx ∧ 0 ≤ j ∧ j < c.g.Ny ∧
      o.IsDrude n ∧ o.inside (c.g.toReal ⟨i, j⟩) = true) P P' := by
    intro e hn
    exact ⟨P, by rw [e]; exact hP, .refl hw fun i j hh => hn hh.2.2.2.2.1⟩
  cases hk : o.mat.kind with
  | simple m => rw [hk] at h; cases h; exact other rfl (by rintro ⟨⟨m, hm⟩, -⟩; simp [hk] at hm)
  | debye m =>
    rw [hk] at h; simp only [Except.bind_ok] at h
    obtain ⟨l, -, h⟩ := h; cases h; exact other rfl (by rintro ⟨⟨m, hm⟩, -⟩; simp [hk] at hm)
  | lorentz m =>
    rw [hk] at h; simp only [Except.bind_ok] at h
    obtain ⟨l, -, h⟩ := h; cases h; exact other rfl (by rintro ⟨⟨m, hm⟩, -⟩; simp [hk] at hm)
  | drude m =>
    rw [hk] at h; simp only [Except.bind_ok] at h
    obtain ⟨l, h1, h⟩ := h
    cases h
    obtain ⟨p, p', h2, h3, h4⟩ := atInsert_find h1
    by_cases hn : n = o.mat.name
    · subst hn
      rw [hP] at h2
      cases h2
      refine ⟨p', by rw [h4]; simp, ?_⟩
      have := DrudePol.insert_painted hw h3
      refine ⟨this.wf, this.mat, this.np, this.J, ?_, ?_⟩
      · intro i j N a b c d e f hh
        exact this.on i j N a b c d e f ⟨a, b, c, d, hh.2.2.2.2.2⟩
      · intro i j N hh
        exact this.off i j N fun x => hh ⟨x.1, x.2.1, x.2.2.1, x.2.2.2.1, ⟨⟨m, hk⟩, rfl⟩, x.2.2.2.2⟩
    · refine ⟨P, by rw [h4]; simp only [hn, if_false]; exact hP, .refl hw fun i j hh => hn hh.2.2.2.2.1.2.symm⟩

theorem insertObject_drude {c c' : Core K} {o : Object K} (hf : c.f.Dims c.g.Nx c.g.Ny) (ho : o.Safe c.g)
    (h : c.insertObject o = .ok c') {n : String} {P : DrudePol K} (hP : mapFind n c.drude = some P) (hw : P.WF c.g.Nx c.g.Ny) :
    ∃ P', mapFind n c'.drude = some P' ∧ DrudePol.Painted c.g (fun i j => 0 ≤ i ∧ i < c.g.Nx ∧ 0 ≤ j ∧ j < c.g.Ny ∧
      o.IsDrude n ∧ o.inside (c.g.toReal ⟨i, j⟩) = true) P P' := by
  unfold Core.insertObject at h
  rw [paintObject_closed hf ho] at h
  simp only [Except.ok_bind] at h
  have other : c'.drude = c.drude → ¬ o.IsDrude n → ∃ P', mapFind n c'.drude = some P' ∧
      DrudePol.Painted c.g (fun i j => 0 ≤ i ∧ i < c.g.Nx ∧ 0 ≤ j ∧ j < c.g.Ny ∧
      o.IsDrude n ∧ o.inside (c.g.toReal ⟨i, j⟩) = true) P P' := by
    intro e hn
    exact ⟨P, by rw [e]; exact hP, .refl hw fun i j hh => hn hh.2.2.2.2.1⟩
  cases hk : o.mat.kind with
  | simple m => rw [hk] at h; cases h; exact other rfl (by rintro ⟨⟨m, hm⟩, -⟩; simp [hk] at hm)
  | debye m =>
    rw [hk] at h; simp only [Except.bind_ok] at h
    obtain ⟨l, -, h⟩ := h; cases h; exact other rfl (by rintro ⟨⟨m, hm⟩, -⟩; simp [hk] at hm)
  | lorentz m =>
    rw [hk] at h; simp only [Except.bind_ok] at h
    obtain ⟨l, -, h⟩ := h; cases h; exact other rfl (by rintro ⟨⟨m, hm⟩, -⟩; simp [hk] at hm)
  | drude m =>
    rw [hk] at h; simp only [Except.bind_ok] at h
    obtain ⟨l, h1, h⟩ := h
    cases h
    obtain ⟨p', h3, h4⟩ := addPol_find h1
    by_cases hn : n = o.mat.name
    · subst hn
      rw [hP] at h3
      refine ⟨p', by rw [h4]; simp, ?_⟩
      have := DrudePol.insert_painted hw h3
      refine ⟨this.wf, this.mat, this.np, this.J, ?_, ?_⟩
      · intro i j N a b c d e f hh
        exact this.on i j N a b c d e f ⟨a, b, c, d, hh.2.2.2.2.2⟩
      · intro i j N hh
        exact this.off i j N fun x => hh ⟨x.1, x.2.1, x.2.2.1, x.2.2.2.1, ⟨⟨m, hk⟩, rfl⟩, x.2.2.2.2⟩
    · refine ⟨P, by rw [h4]; simp only [hn, if_false]; exact hP, .refl hw fun i j hh => hn hh.2.2.2.2.1.2.symm⟩

/-- Adding the first object of a drude material. -/
theorem insertObject_drude_first {c c' : Core K} {o : Object K} (hf : c.f.Dims c.g.Nx c.g.Ny) (ho : o.Safe c.g)
    (h : c.insertObject o = .ok c') {m : Drude K} (hk : o.mat.kind = .drude m) (hP : mapFind o.mat.name c.drude = none) :
    ∃ P', mapFind o.mat.name c'.drude = some P' ∧ DrudePol.Painted c.g (fun i j => 0 ≤ i ∧ i < c.g.Nx ∧ 0 ≤ j ∧ j < c.g.Ny ∧
      o.inside (c.g.toReal ⟨i, j⟩) = true) (DrudePol.make c.g m) P' := by
  unfold Core.insertObject at h
  rw [paintObject_closed hf ho] at h
  simp only [Except.ok_bind] at h
  rw [hk] at h; simp only [Except.bind_ok] at h
  obtain ⟨l, h1, h⟩ := h
  cases h
  obtain ⟨p', h3, h4⟩ := addPol_find h1
  rw [hP] at h3
  exact ⟨p', by rw [h4]; simp, DrudePol.insert_painted (DrudePol.make_wf c.g m) h3⟩

theorem refreshAll_drude : ∀ (objs : List (Object K)) {c c' : Core K} {n : String} {P : DrudePol K}, c.f.Dims c.g.Nx c.g.Ny →
    (∀ o ∈ objs, o.Safe c.g) →
    forList objs c Core.refreshOne = .ok c' → mapFind n c.drude = some P → P.WF c.g.Nx c.g.Ny →
    ∃ P', mapFind n c'.drude = some P' ∧ DrudePol.Painted c.g (fun i j => 0 ≤ i ∧ i < c.g.Nx ∧ 0 ≤ j ∧ j < c.g.Ny ∧
      ∃ o ∈ objs, o.IsDrude n ∧ o.inside (c.g.toReal ⟨i, j⟩) = true) P P'
  | [], c, c', n, P, _, _, h => by
    cases h
    intro hP hw
    exact ⟨P, hP, .refl hw (by simp)⟩
  | o :: l, c, c', n, P, hf, hs, h => by
    intro hP hw
    rw [forList_cons] at h; simp only [Except.bind_ok] at h
    obtain ⟨c1, h1, h2⟩ := h
    obtain ⟨P1, e1, e2⟩ := refreshOne_drude hf (hs o (by simp)) h1 hP hw
    obtain ⟨f1, g1⟩ := refreshAll_f [o] hf (by intro o' ho'; simp at ho'; subst ho'; exact hs o' (by simp))
      (by rw [forList_cons, h1]; rfl)
    have hf1 : c1.f.Dims c1.g.Nx c1.g.Ny := by rw [f1, g1]; exact Flds.paint_dims hf _ _ _ _
    obtain ⟨P2, e3, e4⟩ := refreshAll_drude l hf1 (by rw [g1]; exact fun o' ho => hs o' (by simp [ho])) h2 e1
      (by rw [g1]; exact e2.wf)
    rw [g1] at e4
    refine ⟨P2, e3, e2.trans e4 fun i j => ?_⟩
    simp only [List.mem_cons, exists_eq_or_imp]
    tauto

theorem insertAll_drude : ∀ (objs : List (Object K)) {c c' : Core K} {n : String} {P : DrudePol K}, c.f.Dims c.g.Nx c.g.Ny →
    (∀ o ∈ objs, o.Safe c.g) →
    forList objs c (fun o c => c.insertObject o) = .ok c' → mapFind n c.drude = some P → P.WF c.g.Nx c.g.Ny →
    ∃ P', mapFind n c'.drude = some P' ∧ DrudePol.Painted c.g (fun i j => 0 ≤ i ∧ i < c.g.Nx ∧ 0 ≤ j ∧ j < c.g.Ny ∧
      ∃ o ∈ objs, o.IsDrude n ∧ o.inside (c.g.toReal ⟨i, j⟩) = true) P P'
  | [], c, c', n, P, _, _, h => by
    cases h
    intro hP hw
    exact ⟨P, hP, .refl hw (by simp)⟩
  | o :: l, c, c', n, P, hf, hs, h => by
    intro hP hw
    rw [forList_cons] at h; simp only [Except.bind_ok] at h
    obtain ⟨c1, h1, h2⟩ := h
    obtain ⟨P1, e1, e2⟩ := insertObject_drude hf (hs o (by simp)) h1 hP hw
    obtain ⟨f1, g1⟩ := insertObject_f hf (hs o (by simp)) h1
    have hf1 : c1.f.Dims c1.g.Nx c1.g.Ny := by rw [f1, g1]; exact Flds.paint_dims hf _ _ _ _
    obtain ⟨P2, e3, e4⟩ := insertAll_drude l hf1 (by rw [g1]; exact fun o' ho => hs o' (by simp [ho])) h2 e1
      (by rw [g1]; exact e2.wf)
    rw [g1] at e4
    refine ⟨P2, e3, e2.trans e4 fun i j => ?_⟩
    simp only [List.mem_cons, exists_eq_or_imp]
    tauto

theorem insertObject_drude_none {c c' : Core K} {o : Object K} {n : String} (h : c.insertObject o = .ok c')
    (hn : mapFind n c.drude = none) (ho : ¬ o.IsDrude n) : mapFind n c'.drude = none := by
  unfold Core.insertObject at h
  simp only [Except.bind_ok] at h
  obtain ⟨f, -, h⟩ := h
  cases hk : o.mat.kind with
  | simple m => rw [hk] at h; cases h; exact hn
  | debye m =>
    rw [hk] at h; simp only [Except.bind_ok] at h
    obtain ⟨l, -, h⟩ := h; cases h; exact hn
  | lorentz m =>
    rw [hk] at h; simp only [Except.bind_ok] at h
    obtain ⟨l, -, h⟩ := h; cases h; exact hn
  | drude m =>
    rw [hk] at h; simp only [Except.bind_ok] at h
    obtain ⟨l, h1, h⟩ := h
    cases h
    obtain ⟨p', h3, h4⟩ := addPol_find h1
    show mapFind n l = none
    rw [h4, if_neg (fun e => ho ⟨⟨m, hk⟩, e.symm⟩)]
    exact hn

/-- Adding a list of objects to a simulation without any object of the material `n`. -/
theorem insertAll_drude_fresh : ∀ (objs : List (Object K)) {c c' : Core K} {n : String}, c.f.Dims c.g.Nx c.g.Ny →
    (∀ o ∈ objs, o.Safe c.g) → forList objs c (fun o c => c.insertObject o) = .ok c' → mapFind n c.drude = none →
    (∃ o ∈ objs, o.IsDrude n) →
    ∃ m P', (∃ o ∈ objs, o.mat.kind = .drude m ∧ o.mat.name = n) ∧ mapFind n c'.drude = some P' ∧
      DrudePol.Painted c.g (fun i j => 0 ≤ i ∧ i < c.g.Nx ∧ 0 ≤ j ∧ j < c.g.Ny ∧
        ∃ o ∈ objs, o.IsDrude n ∧ o.inside (c.g.toReal ⟨i, j⟩) = true) (DrudePol.make c.g m) P'
  | [], c, c', n, _, _, h, _, he => by simp at he
  | o :: l, c, c', n, hf, hs, h, hn, he => by
    rw [forList_cons] at h; simp only [Except.bind_ok] at h
    obtain ⟨c1, h1, h2⟩ := h
    obtain ⟨f1, g1⟩ := insertObject_f hf (hs o (by simp)) h1
    have hf1 : c1.f.Dims c1.g.Nx c1.g.Ny := by rw [f1, g1]; exact Flds.paint_dims hf _ _ _ _
    have hs1 : ∀ o ∈ l, o.Safe c1.g := by rw [g1]; exact fun o' ho => hs o' (by simp [ho])
    by_cases ho : o.IsDrude n
    · obtain ⟨⟨m, hk⟩, rfl⟩ := ho
      obtain ⟨P1, e1, e2⟩ := insertObject_drude_first hf (hs o (by simp)) h1 hk hn
      obtain ⟨P2, e3, e4⟩ := insertAll_drude l hf1 hs1 h2 e1 (by rw [g1]; exact e2.wf)
      rw [g1] at e4
      refine ⟨m, P2, ⟨o, by simp, hk, rfl⟩, e3, e2.trans e4 fun i j => ?_⟩
      have : o.IsDrude o.mat.name := ⟨⟨m, hk⟩, rfl⟩
      simp only [List.mem_cons, exists_eq_or_imp, this, true_and]
      tauto
    · have hn1 := insertObject_drude_none h1 hn ho
      obtain ⟨m, P', ⟨o', b1, b2⟩, b3, b4⟩ := insertAll_drude_fresh l hf1 hs1 h2 hn1
        (by obtain ⟨o', a1, a2⟩ := he
            rcases List.mem_cons.mp a1 with rfl | a1
            · exact absurd a2 ho
            · exact ⟨o', a1, a2⟩)
      rw [g1] at b4
      refine ⟨m, P', ⟨o', by simp [b1], b2⟩, b3, ?_⟩
      have e : (fun i j => 0 ≤ i ∧ i < c.g.Nx ∧ 0 ≤ j ∧ j < c.g.Ny ∧
        ∃ o_1 ∈ o :: l, o_1.IsDrude n ∧ o_1.inside (c.g.toReal ⟨i, j⟩) = true) = (fun i j => 0 ≤ i ∧ i < c.g.Nx ∧ 0 ≤ j ∧ j < c.g.Ny ∧
        ∃ o ∈ l, o.IsDrude n ∧ o.inside (c.g.toReal ⟨i, j⟩) = true) := by
        funext i j
        simp only [List.mem_cons, exists_eq_or_imp, ho, false_and, false_or]
      rw [e]; exact b4

theorem clearFields_drude {c : Core K} {n : String} {P : DrudePol K} (h : mapFind n c.drude = some P) :
    mapFind n c.clearFields.drude = some P.reset := by
  show mapFind n (c.drude.map fun p => (p.1, p.2.reset)) = _
  generalize c.drude = l at h
  induction l with
  | nil => simp [mapFind] at h
  | cons q l ih =>
    obtain ⟨a, b⟩ := q
    simp only [List.map_cons, mapFind] at h ⊢
    by_cases ha : a = n
    · simp only [ha, if_true] at h ⊢; cases h; rfl
    · simp only [ha, if_false] at h ⊢; exact ih h

/-! ## Lorentz -/

/-- The strengths of the poles of the medium the map entry was created with. -/
def LorentzPol.strength (dt : K) (P : LorentzPol K) : ℤ → K := (Arr.ofList (P.mat.poles.map (·.delta dt))).val

/-- `P'` is `P` with the pole strengths written at the nodes satisfying `q`. -/
structure LorentzPol.Painted (g : Grid K) (q : ℤ → ℤ → Prop) (P P' : LorentzPol K) : Prop where
  wf : P'.WF g.Nx g.Ny
  mat : P'.mat = P.mat
  np : P'.np = P.np
  J : P'.J = P.J
  on : ∀ i j N, 0 ≤ i → i < g.Nx → 0 ≤ j → j < g.Ny → 0 ≤ N → N < P.np → q i j →
    P'.delta.val i j N = P.strength g.dt N
  off : ∀ i j N, ¬ q i j → P'.delta.val i j N = P.delta.val i j N

theorem LorentzPol.Painted.refl {g : Grid K} {P : LorentzPol K} (h : P.WF g.Nx g.Ny) {q : ℤ → ℤ → Prop} (hq : ∀ i j, ¬ q i j) :
    LorentzPol.Painted g q P P :=
  ⟨h, rfl, rfl, rfl, fun i j _ _ _ _ _ _ _ hh => absurd hh (hq i j), fun _ _ _ _ => rfl⟩

theorem LorentzPol.Painted.trans {g : Grid K} {q q' q'' : ℤ → ℤ → Prop} {P P' P'' : LorentzPol K} (h : LorentzPol.Painted g q P P')
    (h' : LorentzPol.Painted g q' P' P'') (hq : ∀ i j, q'' i j ↔ q i j ∨ q' i j) : LorentzPol.Painted g q'' P P'' where
  wf := h'.wf
  mat := h'.mat.trans h.mat
  np := h'.np.trans h.np
  J := h'.J.trans h.J
  on i j N a b c d e f hh := by
    have hs : P'.strength g.dt = P.strength g.dt := by unfold LorentzPol.strength; rw [h.mat]
    by_cases hq' : q' i j
    · rw [h'.on i j N a b c d e (by rw [h.np]; exact f) hq', hs]
    · rw [h'.off i j N hq']
      exact h.on i j N a b c d e f (((hq i j).mp hh).resolve_right hq')
  off i j N hh := by
    rw [h'.off i j N (fun x => hh ((hq i j).mpr (Or.inr x))), h.off i j N (fun x => hh ((hq i j).mpr (Or.inl x)))]

theorem LorentzPol.insert_painted {g : Grid K} {P P' : LorentzPol K} (hP : P.WF g.Nx g.Ny) {o : Object K}
    (h : P.insert g o = .ok P') : LorentzPol.Painted g (fun i j => 0 ≤ i ∧ i < g.Nx ∧ 0 ≤ j ∧ j < g.Ny ∧
      o.inside (g.toReal ⟨i, j⟩) = true) P P' := by
  have hw := LorentzPol.insert_closed hP o
  rw [hw] at h
  cases h
  refine ⟨by obtain ⟨_, hw2, hw3⟩ := LorentzPol.insert_ok hP o; rw [hw] at hw2; cases hw2; exact hw3, rfl, rfl, rfl, ?_, ?_⟩
  · intro i j N a b c d e f hh
    have hz : P.delta.nz = P.np := hP.delta.2.2
    simp only [Tensor3.paint, Tensor3.setv_val, mem_rect]
    rw [if_pos ⟨⟨⟨a, b⟩, c, d⟩, hh.2.2.2.2, e, by rw [hz]; exact f⟩]
    rfl
  · intro i j N hh
    simp only [Tensor3.paint, Tensor3.setv_val, mem_rect]
    rw [if_neg]
    rintro ⟨⟨⟨a, b⟩, c, d⟩, e, -⟩
    exact hh ⟨a, b, c, d, e⟩

/-- The object is made of the lorentz material called `n`. -/
def Object.IsLorentz (n : String) (o : Object K) : Prop := (∃ m, o.mat.kind = .lorentz m) ∧ o.mat.name = n

theorem refreshOne_lorentz {c c' : Core K} {o : Object K} (hf : c.f.Dims c.g.Nx c.g.Ny) (ho : o.Safe c.g)
    (h : c.refreshOne o = .ok c') {n : String} {P : LorentzPol K} (hP : mapFind n c.lorentz = some P) (hw : P.WF c.g.Nx c.g.Ny) :
    ∃ P', mapFind n c'.lorentz = some P' ∧ LorentzPol.Painted c.g (fun i j => 0 ≤ i ∧ i < c.g.Nx ∧ 0 ≤ j ∧ j < c.g.Ny ∧
      o.IsLorentz n ∧ o.inside (c.g.toReal ⟨i, j⟩) = true) P P' := by
  unfold Core.refreshOne at h
  rw [paintObject_closed hf ho] at h
  simp only [Except.ok_bind] at h
  unfold Core.updatePolGrid at h
  have other : c'.lorentz = c.lorentz → ¬ o.IsLorentz n → ∃ P', mapFind n c'.lorentz = some P' ∧
      LorentzPol.Painted c.g (fun i j => 0 ≤ i ∧ i < c.g.Nx ∧ 0 ≤ j ∧ j < c.g.Ny ∧
      o.IsLorentz n ∧ o.inside (c.g.toReal ⟨i, j⟩) = true) P P' := by
    intro e hn
    exact ⟨P, by rw [e]; exact hP, .refl hw fun i j hh => hn hh.2.2.2.2.1⟩
  cases hk : o.mat.kind with
  | simple m => rw [hk] at h; cases h; exact other rfl (by rintro ⟨⟨m, hm⟩, -⟩; simp [hk] at hm)
  | debye m =>
    rw [hk] at h; simp only [Except.bind_ok] at h
    obtain ⟨l, -, h⟩ := h; cases h; exact other rfl (by rintro ⟨⟨m, hm⟩, -⟩; simp [hk] at hm)
  | drude m =>
    rw [hk] at h; simp only [Except.bind_ok] at h
    obtain ⟨l, -, h⟩ := h; cases h; exact other rfl (by rintro ⟨⟨m, hm⟩, -⟩; simp [hk] at hm)
  | lorentz m =>
    rw [hk] at h; simp only [Except.bind_ok] at h
    obtain ⟨l, h1, h⟩ := h
    cases h
    obtain ⟨p, p', h2, h3, h4⟩ := atInsert_find h1
    by_cases hn : n = o.mat.name
    · subst hn
      rw [hP] at h2
      cases h2
      refine ⟨p', by rw [h4]; simp, ?_⟩
      have := LorentzPol.insert_painted hw h3
      refine ⟨this.wf, this.mat, this.np, this.J, ?_, ?_⟩
      · intro i j N a b c d e f hh
        exact this.on i j N a b c d e f ⟨a, b, c, d, hh.2.2.2.2.2⟩
      · intro i j N hh
        exact this.off i j N fun x => hh ⟨x.1, x.2.1, x.2.2.1, x.2.2.2.1, ⟨⟨m, hk⟩, rfl⟩, x.2.2.2.2⟩
    · refine ⟨P, by rw [h4]; simp only [hn, if_false]; exact hP, .refl hw fun i j hh => hn hh.2.2.2.2.1.2.symm⟩

theorem insertObject_lorentz {c c' : Core K} {o : Object K} (hf : c.f.Dims c.g.Nx c.g.Ny) (ho : o.Safe c.g)
    (h : c.insertObject o = .ok c') {n : String} {P : LorentzPol K} (hP : mapFind n c.lorentz = some P) (hw : P.WF c.g.Nx c.g.Ny) :
    ∃ P', mapFind n c'.lorentz = some P' ∧ LorentzPol.Painted c.g (fun i j => 0 ≤ i ∧ i < c.g.Nx ∧ 0 ≤ j ∧ j < c.g.Ny ∧
      o.IsLorentz n ∧ o.inside (c.g.toReal ⟨i, j⟩) = true) P P' := by
  unfold Core.insertObject at h
  rw [paintObject_closed hf ho] at h
  simp only [Except.ok_bind] at h
  have other : c'.lorentz = c.lorentz → ¬ o.IsLorentz n → ∃ P', mapFind n c'.lorentz = some P' ∧
      LorentzPol.Painted c.g (fun i j => 0 ≤ i ∧ i < c.g.Nx ∧ 0 ≤ j ∧ j < c.g.Ny ∧
      o.IsLorentz n ∧ o.inside (c.g.toReal ⟨i, j⟩) = true) P P' := by
    intro e hn
    exact ⟨P, by rw [e]; exact hP, .refl hw fun i j hh => hn hh.2.2.2.2.1⟩
  cases hk : o.mat.kind with
  | simple m => rw [hk] at h; cases h; exact other rfl (by rintro ⟨⟨m, hm⟩, -⟩; simp [hk] at hm)
  | debye m =>
    rw [hk] at h; simp only [Except.bind_ok] at h
    obtain ⟨l, -, h⟩ := h; cases h; exact other rfl (by rintro ⟨⟨m, hm⟩, -⟩; simp [hk] at hm)
  | drude m =>
    rw [hk] at h; simp only [Except.bind_ok] at h
    obtain ⟨l, -, h⟩ := h; cases h; exact other rfl (by rintro ⟨⟨m, hm⟩, -⟩; simp [hk] at hm)
  | lorentz m =>
    rw [hk] at h; simp only [Except.bind_ok] at h
    obtain ⟨l, h1, h⟩ := h
    cases h
    obtain ⟨p', h3, h4⟩ := addPol_find h1
    by_cases hn : n = o.mat.name
    · subst hn
      rw [hP] at h3
      refine ⟨p', by rw [h4]; simp, ?_⟩
      have := LorentzPol.insert_painted hw h3
      refine ⟨this.wf, this.mat, this.np, this.J, ?_, ?_⟩
      · intro i j N a b c d e f hh
        exact this.on i j N a b c d e f ⟨a, b, c, d, hh.2.2.2.2.2⟩
      · intro i j N hh
        exact this.off i j N fun x => hh ⟨x.1, x.2.1, x.2.2.1, x.2.2.2.1, ⟨⟨m, hk⟩, rfl⟩, x.2.2.2.2⟩
    · refine ⟨P, by rw [h4]; simp only [hn, if_false]; exact hP, .refl hw fun i j hh => hn hh.2.2.2.2.1.2.symm⟩

/-- Adding the first object of a lorentz material. -/
theorem insertObject_lorentz_first {c c' : Core K} {o : Object K} (hf : c.f.Dims c.g.Nx c.g.Ny) (ho : o.Safe c.g)
    (h : c.insertObject o = .ok c') {m : Lorentz K} (hk : o.mat.kind = .lorentz m) (hP : mapFind o.mat.name c.lorentz = none) :
    ∃ P', mapFind o.mat.name c'.lorentz = some P' ∧ LorentzPol.Painted c.g (fun i j => 0 ≤ i ∧ i < c.g.Nx ∧ 0 ≤ j ∧ j < c.g.Ny ∧
      o.inside (c.g.toReal ⟨i, j⟩) = true) (LorentzPol.make c.g m) P' := by
  unfold Core.insertObject at h
  rw [paintObject_closed hf ho] at h
  simp only [Except.ok_bind] at h
  rw [hk] at h; simp only [Except.bind_ok] at h
  obtain ⟨l, h1, h⟩ := h
  cases h
  obtain ⟨p', h3, h4⟩ := addPol_find h1
  rw [hP] at h3
  exact ⟨p', by rw [h4]; simp, LorentzPol.insert_painted (LorentzPol.make_wf c.g m) h3⟩

theorem refreshAll_lorentz : ∀ (objs : List (Object K)) {c c' : Core K} {n : String} {P : LorentzPol K}, c.f.Dims c.g.Nx c.g.Ny →
    (∀ o ∈ objs, o.Safe c.g) →
    forList objs c Core.refreshOne = .ok c' → mapFind n c.lorentz = some P → P.WF c.g.Nx c.g.Ny →
    ∃ P', mapFind n c'.lorentz = some P' ∧ LorentzPol.Painted c.g (fun i j => 0 ≤ i ∧ i < c.g.Nx ∧ 0 ≤ j ∧ j < c.g.Ny ∧
      ∃ o ∈ objs, o.IsLorentz n ∧ o.inside (c.g.toReal ⟨i, j⟩) = true) P P'
  | [], c, c', n, P, _, _, h => by
    cases h
    intro hP hw
    exact ⟨P, hP, .refl hw (by simp)⟩
  | o :: l, c, c', n, P, hf, hs, h => by
    intro hP hw
    rw [forList_cons] at h; simp only [Except.bind_ok] at h
    obtain ⟨c1, h1, h2⟩ := h
    obtain ⟨P1, e1, e2⟩ := refreshOne_lorentz hf (hs o (by simp)) h1 hP hw
    obtain ⟨f1, g1⟩ := refreshAll_f [o] hf (by intro o' ho'; simp at ho'; subst ho'; exact hs o' (by simp))
      (by rw [forList_cons, h1]; rfl)
    have hf1 : c1.f.Dims c1.g.Nx c1.g.Ny := by rw [f1, g1]; exact Flds.paint_dims hf _ _ _ _
    obtain ⟨P2, e3, e4⟩ := refreshAll_lorentz l hf1 (by rw [g1]; exact fun o' ho => hs o' (by simp [ho])) h2 e1
      (by rw [g1]; exact e2.wf)
    rw [g1] at e4
    refine ⟨P2, e3, e2.trans e4 fun i j => ?_⟩
    simp only [List.mem_cons, exists_eq_or_imp]
    tauto

theorem insertAll_lorentz : ∀ (objs : List (Object K)) {c c' : Core K} {n : String} {P : LorentzPol K}, c.f.Dims c.g.Nx c.g.Ny →
    (∀ o ∈ objs, o.Safe c.g) →
    forList objs c (fun o c => c.insertObject o) = .ok c' → mapFind n c.lorentz = some P → P.WF c.g.Nx c.g.Ny →
    ∃ P', mapFind n c'.lorentz = some P' ∧ LorentzPol.Painted c.g (fun i j => 0 ≤ i ∧ i < c.g.Nx ∧ 0 ≤ j ∧ j < c.g.Ny ∧
      ∃ o ∈ objs, o.IsLorentz n ∧ o.inside (c.g.toReal ⟨i, j⟩) = true) P P'
  | [], c, c', n, P, _, _, h => by
    cases h
    intro hP hw
    exact ⟨P, hP, .refl hw (by simp)⟩
  | o :: l, c, c', n, P, hf, hs, h => by
    intro hP hw
    rw [forList_cons] at h; simp only [Except.bind_ok] at h
    obtain ⟨c1, h1, h2⟩ := h
    obtain ⟨P1, e1, e2⟩ := insertObject_lorentz hf (hs o (by simp)) h1 hP hw
    obtain ⟨f1, g1⟩ := insertObject_f hf (hs o (by simp)) h1
    have hf1 : c1.f.Dims c1.g.Nx c1.g.Ny := by rw [f1, g1]; exact Flds.paint_dims hf _ _ _ _
    obtain ⟨P2, e3, e4⟩ := insertAll_lorentz l hf1 (by rw [g1]; exact fun o' ho => hs o' (by simp [ho])) h2 e1
      (by rw [g1]; exact e2.wf)
    rw [g1] at e4
    refine ⟨P2, e3, e2.trans e4 fun i j => ?_⟩
    simp only [List.mem_cons, exists_eq_or_imp]
    tauto

theorem insertObject_lorentz_none {c c' : Core K} {o : Object K} {n : String} (h : c.insertObject o = .ok c')
    (hn : mapFind n c.lorentz = none) (ho : ¬ o.IsLorentz n) : mapFind n c'.lorentz = none := by
  unfold Core.insertObject at h
  simp only [Except.bind_ok] at h
  obtain ⟨f, -, h⟩ := h
  cases hk : o.mat.kind with
  | simple m => rw [hk] at h; cases h; exact hn
  | debye m =>
    rw [hk] at h; simp only [Except.bind_ok] at h
    obtain ⟨l, -, h⟩ := h; cases h; exact hn
  | drude m =>
    rw [hk] at h; simp only [Except.bind_ok] at h
    obtain ⟨l, -, h⟩ := h; cases h; exact hn
  | lorentz m =>
    rw [hk] at h; simp only [Except.bind_ok] at h
    obtain ⟨l, h1, h⟩ := h
    cases h
    obtain ⟨p', h3, h4⟩ := addPol_find h1
    show mapFind n l = none
    rw [h4, if_neg (fun e => ho ⟨⟨m, hk⟩, e.symm⟩)]
    exact hn

/-- Adding a list of objects to a simulation without any object of the material `n`. -/
theorem insertAll_lorentz_fresh : ∀ (objs : List (Object K)) {c c' : Core K} {n : String}, c.f.Dims c.g.Nx c.g.Ny →
    (∀ o ∈ objs, o.Safe c.g) → forList objs c (fun o c => c.insertObject o) = .ok c' → mapFind n c.lorentz = none →
    (∃ o ∈ objs, o.IsLorentz n) →
    ∃ m P', (∃ o ∈ objs, o.mat.kind = .lorentz m ∧ o.mat.name = n) ∧ mapFind n c'.lorentz = some P' ∧
      LorentzPol.Painted c.g (fun i j => 0 ≤ i ∧ i < c.g.Nx ∧ 0 ≤ j ∧ j < c.g.Ny ∧
        ∃ o ∈ objs, o.IsLorentz n ∧ o.inside (c.g.toReal ⟨i, j⟩) = true) (LorentzPol.make c.g m) P'
  | [], c, c', n, _, _, h, _, he => by simp at he
  | o :: l, c, c', n, hf, hs, h, hn, he => by
    rw [forList_cons] at h; simp only [Except.bind_ok] at h
    obtain ⟨c1, h1, h2⟩ := h
    obtain ⟨f1, g1⟩ := insertObject_f hf (hs o (by simp)) h1
    have hf1 : c1.f.Dims c1.g.Nx c1.g.Ny := by rw [f1, g1]; exact Flds.paint_dims hf _ _ _ _
    have hs1 : ∀ o ∈ l, o.Safe c1.g := by rw [g1]; exact fun o' ho => hs o' (by simp [ho])
    by_cases ho : o.IsLorentz n
    · obtain ⟨⟨m, hk⟩, rfl⟩ := ho
      obtain ⟨P1, e1, e2⟩ := insertObject_lorentz_first hf (hs o (by simp)) h1 hk hn
      obtain ⟨P2, e3, e4⟩ := insertAll_lorentz l hf1 hs1 h2 e1 (by rw [g1]; exact e2.wf)
      rw [g1] at e4
      refine ⟨m, P2, ⟨o, by simp, hk, rfl⟩, e3, e2.trans e4 fun i j => ?_⟩
      have : o.IsLorentz o.mat.name := ⟨⟨m, hk⟩, rfl⟩
      simp only [List.mem_cons, exists_eq_or_imp, this, true_and]
      tauto
    · have hn1 := insertObject_lorentz_none h1 hn ho
      obtain ⟨m, P', ⟨o', b1, b2⟩, b3, b4⟩ := insertAll_lorentz_fresh l hf1 hs1 h2 hn1
        (by obtain ⟨o', a1, a2⟩ := he
            rcases List.mem_cons.mp a1 with rfl | a1
            · exact absurd a2 ho
            · exact ⟨o', a1, a2⟩)
      rw [g1] at b4
      refine ⟨m, P', ⟨o', by simp [b1], b2⟩, b3, ?_⟩
      have e : (fun i j => 0 ≤ i ∧ i < c.g.Nx ∧ 0 ≤ j ∧ j < c.g.Ny ∧
        ∃ o_1 ∈ o :: l, o_1.IsLorentz n ∧ o_1.inside (c.g.toReal ⟨i, j⟩) = true) = (fun i j => 0 ≤ i ∧ i < c.g.Nx ∧ 0 ≤ j ∧ j < c.g.Ny ∧
        ∃ o ∈ l, o.IsLorentz n ∧ o.inside (c.g.toReal ⟨i, j⟩) = true) := by
        funext i j
        simp only [List.mem_cons, exists_eq_or_imp, ho, false_and, false_or]
      rw [e]; exact b4

theorem clearFields_lorentz {c : Core K} {n : String} {P : LorentzPol K} (h : mapFind n c.lorentz = some P) :
    mapFind n c.clearFields.lorentz = some P.reset := by
  show mapFind n (c.lorentz.map fun p => (p.1, p.2.reset)) = _
  generalize c.lorentz = l at h
  induction l with
  | nil => simp [mapFind] at h
  | cons q l ih =>
    obtain ⟨a, b⟩ := q
    simp only [List.map_cons, mapFind] at h ⊢
    by_cases ha : a = n
    · simp only [ha, if_true] at h ⊢; cases h; rfl
    · simp only [ha, if_false] at h ⊢; exact ih h

end Qbox
