import Verif.Lemmas.Std
import Verif.Lemmas.PolGrid
import Verif.Spec.LinearSpec
import Verif.Spec.MediumSpec

/-!
# Simulations obtained by adding objects
-/

namespace Qbox
open Scalar Spec

theorem insertObject_parts {K : Type} [Scalar K] {c c' : Core K} {o : Object K} (h : c.insertObject o = .ok c') :
    c'.sc = c.sc ∧ c'.pml = c.pml ∧ c'.tfsf = c.tfsf ∧ c'.t = c.t ∧ c'.tStep = c.tStep := by
  unfold Core.insertObject at h
  simp only [Except.bind_ok] at h
  obtain ⟨f, -, h⟩ := h
  cases hk : o.mat.kind with
  | simple m => rw [hk] at h; cases h; exact ⟨rfl, rfl, rfl, rfl, rfl⟩
  | debye m =>
    rw [hk] at h; simp only [Except.bind_ok] at h
    obtain ⟨l, -, h⟩ := h; cases h; exact ⟨rfl, rfl, rfl, rfl, rfl⟩
  | drude m =>
    rw [hk] at h; simp only [Except.bind_ok] at h
    obtain ⟨l, -, h⟩ := h; cases h; exact ⟨rfl, rfl, rfl, rfl, rfl⟩
  | lorentz m =>
    rw [hk] at h; simp only [Except.bind_ok] at h
    obtain ⟨l, -, h⟩ := h; cases h; exact ⟨rfl, rfl, rfl, rfl, rfl⟩

theorem Core.Std.insertObject {c : Core ℝ} (h : c.Std) {o : Object ℝ} (ho : o.Safe c.g) :
    ∃ c', c.insertObject o = .ok c' ∧ c'.Std ∧ c'.g = c.g := by
  obtain ⟨c', h1, h2, h3, -⟩ := Core.insertObject_ok h.wf ho
  obtain ⟨e1, e2, -⟩ := insertObject_parts h1
  exact ⟨c', h1, h.of_same h2 h3 e1 (by rw [e2]) (by rw [e2]), h3⟩

theorem addPol_all {P : Type} (Φ : P → Prop) {name : String} {fresh : P} {ins : P → M P} {l l' : List (String × P)}
    (h : addPol name fresh ins l = .ok l') (hf : Φ fresh) (hi : ∀ p p', Φ p → ins p = .ok p' → Φ p') (hl : ∀ q ∈ l, Φ q.2) :
    ∀ q ∈ l', Φ q.2 := by
  unfold addPol at h
  cases hm : mapFind name l with
  | none =>
    rw [hm] at h; simp only [Except.bind_ok] at h
    obtain ⟨p, h1, h2⟩ := h
    cases h2
    intro q hq
    rcases mem_mapInsert hq with rfl | hm
    · exact hi _ _ hf h1
    · exact hl q hm
  | some p0 =>
    rw [hm] at h; simp only [Except.bind_ok] at h
    obtain ⟨p, h1, h2⟩ := h
    cases h2
    intro q hq
    rcases mem_mapSet hq with rfl | hm'
    · exact hi _ _ (hl _ (mapFind_mem hm)) h1
    · exact hl q hm'

/-- Adding an object to a silent simulation leaves it silent. -/
theorem Spec.Silent.insertObject {c c' : Core ℝ} (h : Silent c) {o : Object ℝ} (hc : c.f.Dims c.g.Nx c.g.Ny) (ho : o.Safe c.g)
    (hi : c.insertObject o = .ok c') : Silent c' := by
  obtain ⟨e1, -⟩ := insertObject_f hc ho hi
  obtain ⟨-, e2, e3, -⟩ := insertObject_parts hi
  have hz : TZero c'.f.Ez := by rw [e1]; exact h.Ez
  have key : (∀ x, c'.prevE = some x → TZero x) ∧ (∀ x, c'.prev2E = some x → TZero x) ∧ (∀ q ∈ c'.debye, T3Zero q.2.J) ∧
      (∀ q ∈ c'.drude, T3Zero q.2.J) ∧ (∀ q ∈ c'.lorentz, T3Zero q.2.J ∧ T3Zero q.2.prevJ) := by
    have orz : ∀ (o : Option (Tensor ℝ)) (v : Tensor ℝ), (∀ x, o = some x → TZero x) → TZero v →
        ∀ x, orInit o v = some x → TZero x := by
      intro o v h1 h2 x hx
      cases o with
      | none => cases hx; exact h2
      | some y => cases hx; exact h1 _ rfl
    unfold Core.insertObject at hi
    simp only [Except.bind_ok] at hi
    obtain ⟨f, -, hi⟩ := hi
    cases hk : o.mat.kind with
    | simple m => rw [hk] at hi; cases hi; exact ⟨h.prevE, h.prev2E, h.debye, h.drude, h.lorentz⟩
    | debye m =>
      rw [hk] at hi; simp only [Except.bind_ok] at hi
      obtain ⟨l, hl, hi⟩ := hi; cases hi
      refine ⟨orz _ _ h.prevE hz, h.prev2E, addPol_all (fun P => T3Zero P.J) hl (fun _ _ _ => rfl) ?_ h.debye, h.drude, h.lorentz⟩
      intro p p' hp hp'
      unfold DebyePol.insert at hp'
      simp only [Except.bind_ok] at hp'
      obtain ⟨b, -, hb⟩ := hp'
      cases hb; exact hp
    | drude m =>
      rw [hk] at hi; simp only [Except.bind_ok] at hi
      obtain ⟨l, hl, hi⟩ := hi; cases hi
      refine ⟨orz _ _ h.prevE hz, h.prev2E, h.debye, addPol_all (fun P => T3Zero P.J) hl (fun _ _ _ => rfl) ?_ h.drude, h.lorentz⟩
      intro p p' hp hp'
      unfold DrudePol.insert at hp'
      simp only [Except.bind_ok] at hp'
      obtain ⟨b, -, hb⟩ := hp'
      cases hb; exact hp
    | lorentz m =>
      rw [hk] at hi; simp only [Except.bind_ok] at hi
      obtain ⟨l, hl, hi⟩ := hi; cases hi
      refine ⟨orz _ _ h.prevE hz, orz _ _ h.prev2E hz, h.debye, h.drude,
        addPol_all (fun P => T3Zero P.J ∧ T3Zero P.prevJ) hl ⟨fun _ _ _ => rfl, fun _ _ _ => rfl⟩ ?_ h.lorentz⟩
      intro p p' hp hp'
      unfold LorentzPol.insert at hp'
      simp only [Except.bind_ok] at hp'
      obtain ⟨b, -, hb⟩ := hp'
      cases hb; exact hp
  obtain ⟨k1, k2, k3, k4, k5⟩ := key
  exact ⟨hz, by rw [e1]; exact h.Hx, by rw [e1]; exact h.Hy, by rw [e2]; exact h.Ezx1, by rw [e2]; exact h.Ezx2,
    by rw [e2]; exact h.Hyx1, by rw [e2]; exact h.Hyx2, by rw [e2]; exact h.Ezy1, by rw [e2]; exact h.Ezy2,
    by rw [e2]; exact h.Hxy1, by rw [e2]; exact h.Hxy2, k1, k2, k3, k4, k5, by rw [e3]; exact h.tfsf⟩

/-- A fresh simulation with any objects clear of the unguarded edges is in standard form and silent. -/
theorem Core.Std.insertAll : ∀ (objs : List (Object ℝ)) {c : Core ℝ}, c.Std → Silent c → (∀ o ∈ objs, o.Safe c.g) →
    ∃ c', forList objs c (fun o c => c.insertObject o) = .ok c' ∧ c'.Std ∧ c'.g = c.g ∧ Silent c'
  | [], c, hc, hz, _ => ⟨c, rfl, hc, rfl, hz⟩
  | o :: l, c, hc, hz, hs => by
    obtain ⟨c1, h1, w1, g1⟩ := hc.insertObject (hs o (by simp))
    have z1 := hz.insertObject hc.wf.f (hs o (by simp)) h1
    obtain ⟨c2, h2, w2, g2, z2⟩ := Core.Std.insertAll l w1 z1 (by rw [g1]; exact fun o' ho => hs o' (by simp [ho]))
    refine ⟨c2, ?_, w2, by rw [g2, g1], z2⟩
    rw [forList_cons, h1]
    exact h2

theorem Tensor3.paint_miss {K : Type} [Scalar K] {b : Tensor3 K} {vals : ℤ → K} {q : ℤ → ℤ → Bool} {D : Finset (ℤ × ℤ)} {i j N : ℤ}
    (hq : q i j = false) : (b.paint vals q D).val i j N = b.val i j N := by
  unfold Tensor3.paint Tensor3.setv
  exact if_neg fun h => by rw [hq] at h; exact absurd h.2.1 (by decide)

/-- Adding an object leaves the nodes outside it as they were. -/
theorem Spec.InSimple.insertObject {c c' : Core ℝ} {m : Simple ℝ} {i j : ℤ} (h : InSimple c m i j) {o : Object ℝ} (hc : c.WF)
    (ho : o.Safe c.g) (hout : o.inside (c.g.toReal ⟨i, j⟩) = false) (hi : c.insertObject o = .ok c') : InSimple c' m i j := by
  obtain ⟨e1, e2⟩ := insertObject_f hc.f ho hi
  have hm : HasMedium c'.f (.simple m) c'.g.dt i j := by
    rw [e1, e2]; exact HasMedium.paint_miss hout h.medium
  unfold Core.insertObject at hi
  simp only [Except.bind_ok] at hi
  obtain ⟨f, -, hi⟩ := hi
  cases hk : o.mat.kind with
  | simple m => rw [hk] at hi; cases hi; exact ⟨h.debye, h.drude, h.lorentz, hm⟩
  | debye m' =>
    rw [hk] at hi; simp only [Except.bind_ok] at hi
    obtain ⟨l, hl, hi⟩ := hi; cases hi
    refine ⟨fun q hq => (addPol_all (fun P => P.WF c.g.Nx c.g.Ny ∧ DebyeQuiet P i j) hl
      ⟨DebyePol.make_wf c.g m', fun _ _ _ => ⟨rfl, rfl⟩⟩ ?_ (fun q hq => ⟨hc.debye q hq, h.debye q hq⟩) q hq).2, h.drude, h.lorentz, hm⟩
    rintro p p' ⟨w, hp⟩ hp'
    have e := DebyePol.insert_closed w o
    obtain ⟨p2, e2, w2⟩ := DebyePol.insert_ok w o
    rw [hp'] at e e2
    cases e2
    refine ⟨w2, ?_⟩
    cases e
    intro N h0 h1
    exact ⟨(hp N h0 h1).1, (Tensor3.paint_miss hout).trans (hp N h0 h1).2⟩
  | drude m' =>
    rw [hk] at hi; simp only [Except.bind_ok] at hi
    obtain ⟨l, hl, hi⟩ := hi; cases hi
    refine ⟨h.debye, fun q hq => (addPol_all (fun P => P.WF c.g.Nx c.g.Ny ∧ DrudeQuiet P i j) hl
      ⟨DrudePol.make_wf c.g m', fun _ _ _ => ⟨rfl, rfl⟩⟩ ?_ (fun q hq => ⟨hc.drude q hq, h.drude q hq⟩) q hq).2, h.lorentz, hm⟩
    rintro p p' ⟨w, hp⟩ hp'
    have e := DrudePol.insert_closed w o
    obtain ⟨p2, e2, w2⟩ := DrudePol.insert_ok w o
    rw [hp'] at e e2
    cases e2
    refine ⟨w2, ?_⟩
    cases e
    intro N h0 h1
    exact ⟨(hp N h0 h1).1, (Tensor3.paint_miss hout).trans (hp N h0 h1).2⟩
  | lorentz m' =>
    rw [hk] at hi; simp only [Except.bind_ok] at hi
    obtain ⟨l, hl, hi⟩ := hi; cases hi
    refine ⟨h.debye, h.drude, fun q hq => (addPol_all (fun P => P.WF c.g.Nx c.g.Ny ∧ LorentzQuiet P i j) hl
      ⟨LorentzPol.make_wf c.g m', fun _ _ _ => ⟨rfl, rfl, rfl⟩⟩ ?_ (fun q hq => ⟨hc.lorentz q hq, h.lorentz q hq⟩) q hq).2, hm⟩
    rintro p p' ⟨w, hp⟩ hp'
    have e := LorentzPol.insert_closed w o
    obtain ⟨p2, e2, w2⟩ := LorentzPol.insert_ok w o
    rw [hp'] at e e2
    cases e2
    refine ⟨w2, ?_⟩
    cases e
    intro N h0 h1
    exact ⟨(hp N h0 h1).1, (hp N h0 h1).2.1, (Tensor3.paint_miss hout).trans (hp N h0 h1).2.2⟩

/-! ## The first dispersive object -/

theorem Tensor3.paint_hit {K : Type} [Scalar K] {b : Tensor3 K} {vals : ℤ → K} {q : ℤ → ℤ → Bool} {D : Finset (ℤ × ℤ)} {i j N : ℤ} (hm : (i, j) ∈ D)
    (hq : q i j = true) (h0 : 0 ≤ N) (h1 : N < b.nz) : (b.paint vals q D).val i j N = vals N := by
  unfold Tensor3.paint Tensor3.setv
  exact if_pos ⟨hm, hq, h0, h1⟩

/-- State after the first object, of a Debye medium. -/
theorem firstDebye {c c' : Core ℝ} {o : Object ℝ} {m : Debye ℝ} (hf : c.f.Dims c.g.Nx c.g.Ny) (ho : o.Safe c.g)
    (hcov : o.Covered c.g) (hk : o.mat.kind = .debye m) (h1 : c.debye = []) (h2 : c.drude = []) (h3 : c.lorentz = [])
    (h : c.insertObject o = .ok c') : ∃ P, P.mat = m ∧ (∀ x y N, P.J.val x y N = 0) ∧ c'.prevE.isSome = true ∧
      ∀ i j, 0 ≤ i → i < c.g.Nx → 0 ≤ j → j < c.g.Ny → o.inside (c.g.toReal ⟨i, j⟩) = true → InDebye c' o.mat.name P [] [] i j := by
  obtain ⟨e1, e2⟩ := insertObject_f hf ho h
  unfold Core.insertObject at h
  rw [paintObject_closed hf ho, hk, h1] at h
  simp only [Except.ok_bind, Except.bind_ok, addPol, mapFind, mapInsert] at h
  obtain ⟨l, ⟨P, hP, hl⟩, h⟩ := h
  rw [DebyePol.insert_closed (DebyePol.make_wf c.g m)] at hP
  cases hP
  cases hl
  cases h
  refine ⟨_, rfl, fun _ _ _ => rfl, by simp only [orInit]; split <;> rfl, fun i j i0 i1 j0 j1 hi => ⟨rfl, by simp, by rw [h2]; simp, h3, ?_, ?_⟩⟩
  · have := Flds.paint_hit (f := c.f) (k := o.mat.kind) (dt := c.g.dt) (D := scan c.g o)
      (q := fun x y => o.inside (c.g.toReal ⟨x, y⟩)) (hcov i j i0 i1 j0 j1 hi) hi
    rw [hk] at this e1
    exact this
  · intro N hN
    have hN' : N < m.poles.length := hN
    have hm : (i, j) ∈ rect 0 c.g.Nx 0 c.g.Ny := mem_rect.mpr ⟨⟨i0, i1⟩, j0, j1⟩
    refine (Tensor3.paint_hit (N := (N : ℤ)) hm hi (by positivity) (show (N : ℤ) < (m.poles.length : ℤ) by exact_mod_cast hN')).trans ?_
    simp [DebyePol.make, Arr.ofList, List.getD, List.getElem?_eq_getElem, hN']

/-- State after the first object, of a Drude medium. -/
theorem firstDrude {c c' : Core ℝ} {o : Object ℝ} {m : Drude ℝ} (hf : c.f.Dims c.g.Nx c.g.Ny) (ho : o.Safe c.g)
    (hcov : o.Covered c.g) (hk : o.mat.kind = .drude m) (h1 : c.debye = []) (h2 : c.drude = []) (h3 : c.lorentz = [])
    (h : c.insertObject o = .ok c') : ∃ P, P.mat = m ∧ (∀ x y N, P.J.val x y N = 0) ∧ c'.prevE.isSome = true ∧
      ∀ i j, 0 ≤ i → i < c.g.Nx → 0 ≤ j → j < c.g.Ny → o.inside (c.g.toReal ⟨i, j⟩) = true → InDrude c' o.mat.name P [] [] i j := by
  obtain ⟨e1, e2⟩ := insertObject_f hf ho h
  unfold Core.insertObject at h
  rw [paintObject_closed hf ho, hk, h2] at h
  simp only [Except.ok_bind, Except.bind_ok, addPol, mapFind, mapInsert] at h
  obtain ⟨l, ⟨P, hP, hl⟩, h⟩ := h
  rw [DrudePol.insert_closed (DrudePol.make_wf c.g m)] at hP
  cases hP
  cases hl
  cases h
  refine ⟨_, rfl, fun _ _ _ => rfl, by simp only [orInit]; split <;> rfl, fun i j i0 i1 j0 j1 hi => ⟨rfl, by simp, by rw [h1]; simp, h3, ?_, ?_⟩⟩
  · have := Flds.paint_hit (f := c.f) (k := o.mat.kind) (dt := c.g.dt) (D := scan c.g o)
      (q := fun x y => o.inside (c.g.toReal ⟨x, y⟩)) (hcov i j i0 i1 j0 j1 hi) hi
    rw [hk] at this e1
    exact this
  · intro N hN
    have hN' : N < m.poles.length := hN
    have hm : (i, j) ∈ rect 0 c.g.Nx 0 c.g.Ny := mem_rect.mpr ⟨⟨i0, i1⟩, j0, j1⟩
    refine (Tensor3.paint_hit (N := (N : ℤ)) hm hi (by positivity) (show (N : ℤ) < (m.poles.length : ℤ) by exact_mod_cast hN')).trans ?_
    simp [DrudePol.make, Arr.ofList, List.getD, List.getElem?_eq_getElem, hN']

/-- State after the first object, of a Lorentz medium. -/
theorem firstLorentz {c c' : Core ℝ} {o : Object ℝ} {m : Lorentz ℝ} (hf : c.f.Dims c.g.Nx c.g.Ny) (ho : o.Safe c.g)
    (hcov : o.Covered c.g) (hk : o.mat.kind = .lorentz m) (h1 : c.debye = []) (h2 : c.drude = []) (h3 : c.lorentz = [])
    (h : c.insertObject o = .ok c') : ∃ P, P.mat = m ∧ (∀ x y N, P.J.val x y N = 0) ∧ (∀ x y N, P.prevJ.val x y N = 0) ∧
      c'.prevE = some ((c.prevE).getD c.f.Ez) ∧ c'.lorentz = [(o.mat.name, P)] ∧ c'.debye = [] ∧ c'.drude = [] ∧
      (∀ i j N, o.inside (c.g.toReal ⟨i, j⟩) = false → P.delta.val i j N = 0) ∧
      ∀ i j, 0 ≤ i → i < c.g.Nx → 0 ≤ j → j < c.g.Ny → o.inside (c.g.toReal ⟨i, j⟩) = true → InLorentz c' o.mat.name P i j := by
  obtain ⟨e1, e2⟩ := insertObject_f hf ho h
  unfold Core.insertObject at h
  rw [paintObject_closed hf ho, hk, h3] at h
  simp only [Except.ok_bind, Except.bind_ok, addPol, mapFind, mapInsert] at h
  obtain ⟨l, ⟨P, hP, hl⟩, h⟩ := h
  rw [LorentzPol.insert_closed (LorentzPol.make_wf c.g m)] at hP
  cases hP
  cases hl
  cases h
  refine ⟨_, rfl, fun _ _ _ => rfl, fun _ _ _ => rfl, by simp only [orInit]; cases c.prevE <;> rfl, rfl, h1, h2, ?_,
    fun i j i0 i1 j0 j1 hi => ⟨rfl, by rw [h1]; simp, by rw [h2]; simp, ?_, ?_⟩⟩
  · intro i j N hi
    exact Tensor3.paint_miss hi
  · have := Flds.paint_hit (f := c.f) (k := o.mat.kind) (dt := c.g.dt) (D := scan c.g o)
      (q := fun x y => o.inside (c.g.toReal ⟨x, y⟩)) (hcov i j i0 i1 j0 j1 hi) hi
    rw [hk] at this e1
    exact this
  · intro N hN
    have hN' : N < m.poles.length := hN
    have hm : (i, j) ∈ rect 0 c.g.Nx 0 c.g.Ny := mem_rect.mpr ⟨⟨i0, i1⟩, j0, j1⟩
    refine (Tensor3.paint_hit (N := (N : ℤ)) hm hi (by positivity) (show (N : ℤ) < (m.poles.length : ℤ) by exact_mod_cast hN')).trans ?_
    simp [LorentzPol.make, Arr.ofList, List.getD, List.getElem?_eq_getElem, hN']

end Qbox
