import Verif.Lemmas.Rename
import Verif.Lemmas.FilterChain
import Verif.Lemmas.NodeStep
import Verif.Lemmas.Reach
import Verif.Props.DispersiveProps

/-! # Names of materials in any order -/

namespace Qbox
open Scalar Spec Props

/-! ## Maps with corresponding names -/

/-- The entry under the old and the new name. -/
abbrev oldE {α : Type} (t : String × String × α) : String × α := (t.1, t.2.2)
abbrev newE {α : Type} (t : String × String × α) : String × α := (t.2.1, t.2.2)

/-- Two maps with the same values, under names that correspond. -/
structure Twins {α : Type} (R : String → String → Prop) (l : List (String × String × α)) (d d' : List (String × α)) : Prop where
  old : (l.map oldE).Perm d
  new : (l.map newE).Perm d'
  corr : ∀ t ∈ l, R t.1 t.2.1
  nodup : (l.map (·.1)).Nodup

section
variable {α : Type} {R : String → String → Prop}

theorem mapInsert_perm' (n : String) (p : α) : ∀ d : List (String × α), (mapInsert n p d).Perm ((n, p) :: d)
  | [] => List.Perm.refl _
  | (m, b) :: d => by
    unfold mapInsert
    split
    · exact List.Perm.refl _
    · exact ((mapInsert_perm' n p d).cons _).trans (List.Perm.swap _ _ _)

theorem mapSet_map {n : String} {p : α} : ∀ {d : List (String × α)}, (d.map Prod.fst).Nodup → mapSet n p d = d.map fun q => if q.1 = n then (q.1, p) else q
  | [], _ => rfl
  | (m, b) :: d, h => by
    obtain ⟨h1, h2⟩ := List.nodup_cons.mp h
    unfold mapSet
    simp only [List.map_cons]
    by_cases e : m = n
    · rw [if_pos e, if_pos e]
      congr 1
      refine (List.map_id d).symm.trans (List.map_congr_left fun q hq => ?_)
      rw [if_neg]
      · rfl
      · intro e'
        exact h1 (List.mem_map.mpr ⟨q, hq, e'.trans e.symm⟩)
    · rw [if_neg e, if_neg e, mapSet_map h2]

theorem Twins.keys {l : List (String × String × α)} {d d' : List (String × α)} (h : Twins R l d d') : (d.map Prod.fst).Nodup := by
  have := h.old.map Prod.fst
  rw [List.map_map] at this
  exact this.nodup_iff.mp h.nodup

theorem Twins.keys' (hR : OneToOne R) {l : List (String × String × α)} {d d' : List (String × α)} (h : Twins R l d d') : (d'.map Prod.fst).Nodup := by
  have := h.new.map Prod.fst
  rw [List.map_map] at this
  refine this.nodup_iff.mp ?_
  have n := h.nodup
  rw [List.nodup_iff_pairwise_ne, List.pairwise_map] at n ⊢
  exact n.imp_of_mem fun {a b} ha hb hab e => hab ((hR _ _ _ _ (h.corr a ha) (h.corr b hb)).mpr e)

theorem Twins.find (hR : OneToOne R) {l : List (String × String × α)} {d d' : List (String × α)} (h : Twins R l d d') {n n' : String} (hn : R n n') :
    (mapFind n d = none ∧ mapFind n' d' = none ∧ ∀ t ∈ l, t.1 ≠ n ∧ t.2.1 ≠ n') ∨
      ∃ p, mapFind n d = some p ∧ mapFind n' d' = some p ∧ (n, n', p) ∈ l := by
  have names : ∀ t ∈ l, (t.1 = n ↔ t.2.1 = n') := fun t ht => hR _ _ _ _ (h.corr t ht) hn
  by_cases hx : ∃ t ∈ l, t.1 = n
  · obtain ⟨⟨a, b, p⟩, ht, rfl⟩ := hx
    have hb : b = n' := (names _ ht).mp rfl
    subst hb
    exact .inr ⟨p, mapFind_of_mem h.keys (h.old.subset (List.mem_map.mpr ⟨_, ht, rfl⟩)),
      mapFind_of_mem (h.keys' hR) (h.new.subset (List.mem_map.mpr ⟨_, ht, rfl⟩)), ht⟩
  · have no : ∀ t ∈ l, t.1 ≠ n ∧ t.2.1 ≠ n' := fun t ht => ⟨fun e => hx ⟨t, ht, e⟩, fun e => hx ⟨t, ht, (names t ht).mpr e⟩⟩
    refine .inl ⟨?_, ?_, no⟩
    · cases hf : mapFind n d with
      | none => rfl
      | some p =>
        obtain ⟨t, ht, e⟩ := List.mem_map.mp (h.old.mem_iff.mpr (mapFind_mem hf))
        exact absurd (congrArg Prod.fst e) (no t ht).1
    · cases hf : mapFind n' d' with
      | none => rfl
      | some p =>
        obtain ⟨t, ht, e⟩ := List.mem_map.mp (h.new.mem_iff.mpr (mapFind_mem hf))
        exact absurd (congrArg Prod.fst e) (no t ht).2

theorem Twins.addPol (hR : OneToOne R) {l : List (String × String × α)} {d d' : List (String × α)} (h : Twins R l d d') {n n' : String} (hn : R n n')
    (fresh : α) (ins : α → M α) {e : List (String × α)} (he : addPol n fresh ins d = .ok e) :
    ∃ l' e', addPol n' fresh ins d' = .ok e' ∧ Twins R l' e e' ∧
      ∀ t ∈ l', (t ∈ l ∧ t.1 ≠ n) ∨ (t.1 = n ∧ (ins fresh = .ok t.2.2 ∨ ∃ s ∈ l, s.1 = n ∧ ins s.2.2 = .ok t.2.2)) := by
  unfold Qbox.addPol at he ⊢
  rcases h.find hR hn with ⟨f1, f2, no⟩ | ⟨p, f1, f2, hp⟩
  · rw [f1] at he
    rw [f2]
    obtain ⟨q, hq, he⟩ := (Except.bind_ok ..).mp he
    cases he
    simp only [hq, Except.ok_bind]
    refine ⟨(n, n', q) :: l, _, rfl, ⟨((h.old.cons (n, q)).trans (mapInsert_perm' n q d).symm), (h.new.cons (n', q)).trans (mapInsert_perm' n' q d').symm, ?_, ?_⟩, ?_⟩
    · intro t ht
      rcases List.mem_cons.mp ht with rfl | ht
      · exact hn
      · exact h.corr t ht
    · refine List.nodup_cons.mpr ⟨fun hm => ?_, h.nodup⟩
      obtain ⟨t, ht, e⟩ := List.mem_map.mp hm
      exact (no t ht).1 e
    · intro t ht
      rcases List.mem_cons.mp ht with rfl | ht
      · exact .inr ⟨rfl, .inl rfl⟩
      · exact .inl ⟨ht, (no t ht).1⟩
  · rw [f1] at he
    rw [f2]
    obtain ⟨q, hq, he⟩ := (Except.bind_ok ..).mp he
    cases he
    simp only [hq, Except.ok_bind]
    rw [mapSet_map h.keys, mapSet_map (h.keys' hR)]
    refine ⟨l.map fun t => if t.1 = n then (t.1, t.2.1, q) else t, _, rfl, ⟨?_, ?_, ?_, ?_⟩, ?_⟩
    · refine List.Perm.trans (List.Perm.of_eq ?_) (h.old.map _)
      rw [List.map_map, List.map_map]
      refine List.map_congr_left fun t _ => ?_
      simp only [Function.comp, oldE]
      split <;> rfl
    · refine List.Perm.trans (List.Perm.of_eq ?_) (h.new.map _)
      rw [List.map_map, List.map_map]
      refine List.map_congr_left fun t ht => ?_
      have := hR _ _ _ _ (h.corr t ht) hn
      simp only [Function.comp, newE]
      by_cases e : t.1 = n
      · rw [if_pos e, if_pos (this.mp e)]
      · rw [if_neg e, if_neg (fun e' => e (this.mpr e'))]
    · intro t ht
      obtain ⟨s, hs, rfl⟩ := List.mem_map.mp ht
      split
      · exact h.corr s hs
      · exact h.corr s hs
    · have : (l.map fun t => if t.1 = n then (t.1, t.2.1, q) else t).map (·.1) = l.map (·.1) := by
        rw [List.map_map]
        refine List.map_congr_left fun t _ => ?_
        simp only [Function.comp]
        split <;> rfl
      rw [this]
      exact h.nodup
    · intro t ht
      obtain ⟨s, hs, rfl⟩ := List.mem_map.mp ht
      by_cases e : s.1 = n
      · rw [if_pos e]
        refine .inr ⟨e, .inr ⟨(n, n', p), hp, rfl, hq⟩⟩
      · rw [if_neg e]
        exact .inl ⟨hs, e⟩

end

/-! ## The whole state -/

/-- Polarizations at rest. -/
structure AtRest (c : Core ℝ) : Prop where
  debye : ∀ q ∈ c.debye, ∀ x y N, q.2.J.val x y N = 0
  drude : ∀ q ∈ c.drude, ∀ x y N, q.2.J.val x y N = 0

/-- Physical states that differ in the names of materials and the order of these names. -/
structure TwinParts (R : String → String → Prop) (L : List (Object ℝ)) (c c' : Core ℝ) : Prop where
  same : c' = { c with debye := c'.debye, drude := c'.drude, lorentz := c'.lorentz }
  debye : ∃ l, Twins R l c.debye c'.debye
  drude : ∃ l, Twins R l c.drude c'.drude
  lorentz : ∃ l, Twins R l c.lorentz c'.lorentz ∧ ∀ t ∈ l, ∃ o ∈ L, (∃ m, o.mat.kind = .lorentz m) ∧ o.mat.name = t.1

structure TwinCore (R : String → String → Prop) (L : List (Object ℝ)) (c c' : Core ℝ) : Prop where
  std : c.Std
  std' : c'.Std
  rest : AtRest c
  parts : TwinParts R L c c'

theorem AtRest.insertObject {c d : Core ℝ} (h : AtRest c) (wf : c.WF) {o : Object ℝ} (hi : c.insertObject o = .ok d) : AtRest d := by
  unfold Core.insertObject at hi
  obtain ⟨f, -, hi⟩ := (Except.bind_ok ..).mp hi
  cases hk : o.mat.kind with
  | simple m => rw [hk] at hi; cases hi; exact ⟨h.debye, h.drude⟩
  | debye m =>
    rw [hk] at hi
    obtain ⟨l, hl, hi⟩ := (Except.bind_ok ..).mp hi
    cases hi
    refine ⟨fun q hq => (addPol_all (fun P : DebyePol ℝ => P.WF c.g.Nx c.g.Ny ∧ ∀ x y N, P.J.val x y N = 0) hl ⟨DebyePol.make_wf c.g m, fun _ _ _ => rfl⟩ ?_
      (fun q hq => ⟨wf.debye q hq, h.debye q hq⟩) q hq).2, h.drude⟩
    rintro P P' ⟨w, z⟩ hP
    rw [DebyePol.insert_closed w] at hP
    cases hP
    exact ⟨⟨w.np, w.J, w.beta⟩, z⟩
  | drude m =>
    rw [hk] at hi
    obtain ⟨l, hl, hi⟩ := (Except.bind_ok ..).mp hi
    cases hi
    refine ⟨h.debye, fun q hq => (addPol_all (fun P : DrudePol ℝ => P.WF c.g.Nx c.g.Ny ∧ ∀ x y N, P.J.val x y N = 0) hl ⟨DrudePol.make_wf c.g m, fun _ _ _ => rfl⟩ ?_
      (fun q hq => ⟨wf.drude q hq, h.drude q hq⟩) q hq).2⟩
    rintro P P' ⟨w, z⟩ hP
    rw [DrudePol.insert_closed w] at hP
    cases hP
    exact ⟨⟨w.np, w.J, w.beta⟩, z⟩
  | lorentz m =>
    rw [hk] at hi
    obtain ⟨l, hl, hi⟩ := (Except.bind_ok ..).mp hi
    cases hi
    exact ⟨h.debye, h.drude⟩

theorem TwinCore.insertObject {R : String → String → Prop} (hR : OneToOne R) {L : List (Object ℝ)} {c c' : Core ℝ} (h : TwinCore R L c c') {o o' : Object ℝ}
    (ho : o ∈ L) (hs : o.Safe c.g) (hr : Renamed R o o') :
    ∃ d d', c.insertObject o = .ok d ∧ c'.insertObject o' = .ok d' ∧ d.g = c.g ∧ TwinCore R L d d' := by
  obtain ⟨w, w', rest, e, ⟨ld, t1⟩, ⟨lr, t2⟩, ⟨ll, t3, q3⟩⟩ := h
  obtain ⟨d, hd, wd, gd⟩ := w.insertObject hs
  have gc : c'.g = c.g := by rw [e]
  have hs' : o'.Safe c'.g := by
    rw [gc]
    obtain ⟨n, hn⟩ : ∃ n, o' = { o with mat := { o.mat with name := n } } := ⟨_, hr.same⟩
    rw [hn]
    exact hs
  obtain ⟨d', hd', wd', gd'⟩ := w'.insertObject hs'
  refine ⟨d, d', hd, hd', gd, wd, wd', rest.insertObject w.wf hd, ?_⟩
  clear w w' wd wd' hs hs' gd gd' gc rest
  generalize c'.debye = x1 at e t1
  generalize c'.drude = x2 at e t2
  generalize c'.lorentz = x3 at e t3
  subst e
  unfold Core.insertObject at hd hd'
  simp only [hr.paint, hr.kind] at hd'
  obtain ⟨f, hf, hd⟩ := (Except.bind_ok ..).mp hd
  obtain ⟨f', hf', hd'⟩ := (Except.bind_ok ..).mp hd'
  rw [hf] at hf'
  cases hf'
  have hn : (∀ m, o.mat.kind ≠ .simple m) → R o.mat.name o'.mat.name := by
    intro hk
    rcases hr.corr with ⟨m, hm⟩ | h
    · exact absurd hm (hk m)
    · exact h
  cases hk : o.mat.kind with
  | simple m =>
    rw [hk] at hd hd'
    cases hd
    cases hd'
    exact ⟨rfl, ⟨ld, t1⟩, ⟨lr, t2⟩, ⟨ll, t3, q3⟩⟩
  | debye m =>
    rw [hk] at hd hd'
    simp only [hr.debyeInsert] at hd'
    obtain ⟨l, hl, hd⟩ := (Except.bind_ok ..).mp hd
    obtain ⟨l', hl', hd'⟩ := (Except.bind_ok ..).mp hd'
    cases hd
    cases hd'
    obtain ⟨k, e', h1, h2, h3⟩ := t1.addPol hR (hn (by rw [hk]; simp)) _ _ hl
    rw [h1] at hl'
    cases hl'
    exact ⟨rfl, ⟨k, h2⟩, ⟨lr, t2⟩, ⟨ll, t3, q3⟩⟩
  | drude m =>
    rw [hk] at hd hd'
    simp only [hr.drudeInsert] at hd'
    obtain ⟨l, hl, hd⟩ := (Except.bind_ok ..).mp hd
    obtain ⟨l', hl', hd'⟩ := (Except.bind_ok ..).mp hd'
    cases hd
    cases hd'
    obtain ⟨k, e', h1, h2, h3⟩ := t2.addPol hR (hn (by rw [hk]; simp)) _ _ hl
    rw [h1] at hl'
    cases hl'
    exact ⟨rfl, ⟨ld, t1⟩, ⟨k, h2⟩, ⟨ll, t3, q3⟩⟩
  | lorentz m =>
    rw [hk] at hd hd'
    simp only [hr.lorentzInsert] at hd'
    obtain ⟨l, hl, hd⟩ := (Except.bind_ok ..).mp hd
    obtain ⟨l', hl', hd'⟩ := (Except.bind_ok ..).mp hd'
    cases hd
    cases hd'
    obtain ⟨k, e', h1, h2, h3⟩ := t3.addPol hR (hn (by rw [hk]; simp)) _ _ hl
    rw [h1] at hl'
    cases hl'
    refine ⟨rfl, ⟨ld, t1⟩, ⟨lr, t2⟩, ⟨k, h2, fun t ht => ?_⟩⟩
    rcases h3 t ht with ⟨h, -⟩ | ⟨hname, -⟩
    · exact q3 t h
    · exact ⟨o, ho, ⟨m, hk⟩, hname.symm⟩

theorem flatMap_perm_values {α β : Type} (f : α → List β) {l l' : List (String × α)} (h : (l.map (·.2)).Perm (l'.map (·.2))) :
    (l.flatMap fun e => f e.2).Perm (l'.flatMap fun e => f e.2) := by
  have e : ∀ k : List (String × α), (k.flatMap fun e => f e.2) = (k.map (·.2)).flatMap f := fun k => by rw [List.flatMap_map]
  rw [e, e]
  exact h.flatMap_right f

theorem Twins.values {α : Type} {R : String → String → Prop} {l : List (String × String × α)} {d d' : List (String × α)} (h : Twins R l d d') :
    (d.map (·.2)).Perm (d'.map (·.2)) := by
  have a := (h.old.map (·.2)).symm
  have b := h.new.map (·.2)
  rw [List.map_map] at a b
  exact a.trans b

/-- The names do not matter for the poles at a node. -/
theorem TwinCore.alike {R : String → String → Prop} {L : List (Object ℝ)} {c c' : Core ℝ} (h : TwinCore R L c c') (hL : OneLorentz L) : AlikeCore c c' := by
  obtain ⟨w, w', rest, e, ⟨ld, t1⟩, ⟨lr, t2⟩, ⟨ll, t3, q3⟩⟩ := h
  have still : ∀ (a k b m : ℤ → ℝ) (n : ℕ), (∀ N, m N = 0) → ∀ x ∈ cellsOf a k b m n, x.J = 0 := by
    intro a k b m n hm x hx
    obtain ⟨N, -, rfl⟩ := List.mem_map.mp hx
    exact hm N
  refine ⟨w, w', e, fun i j _ => ?_, fun i j _ => ?_, ?_⟩
  · refine alike_perm (flatMap_perm_values (fun P => debyeCells c.g P i j) t1.values) fun x hx => ?_
    obtain ⟨q, hq, hx⟩ := List.mem_flatMap.mp hx
    exact still _ _ _ _ _ (rest.debye q hq i j) x hx
  · refine alike_perm (flatMap_perm_values (fun P => drudeCells c.g P i j) t2.values) fun x hx => ?_
    obtain ⟨q, hq, hx⟩ := List.mem_flatMap.mp hx
    exact still _ _ _ _ _ (rest.drude q hq i j) x hx
  · have len : (c.lorentz.map (·.2)).length ≤ 1 := by
      rw [List.length_map, ← t3.old.length_eq, List.length_map]
      have nd := t3.nodup
      match ll, nd, q3 with
      | [], _, _ => simp
      | [_], _, _ => simp
      | s :: t :: r, nd, q3 =>
        obtain ⟨o, ho, ko, eo⟩ := q3 s (by simp)
        obtain ⟨o', ho', ko', eo'⟩ := q3 t (by simp)
        have := hL o ho o' ho' ko ko'
        rw [eo, eo'] at this
        simp [this] at nd
    have p := t3.values
    generalize c.lorentz.map (·.2) = x at p len
    generalize c'.lorentz.map (·.2) = y at p
    match x, len, p with
    | [], _, p => exact p.nil_eq.symm
    | [a], _, p => exact List.perm_singleton.mp p.symm

end Qbox
