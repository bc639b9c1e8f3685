import Verif.Lemmas.Paint
import Verif.Lemmas.SrcPulse

/-! # Every operation on the physical state keeps the array shapes -/

namespace Qbox
open Scalar Spec

set_option linter.unusedSectionVars false
set_option linter.unusedSimpArgs false

variable {K : Type} [Scalar K]

/-! ## Sources -/

theorem Fits.tp {g : Grid K} {s : Source K} (h : Fits g s) (tp) : Fits g { s with tp := tp } := h

theorem Drives.tp {g : Grid K} {s : Source K} (tp) (C p) : Drives g { s with tp := tp } C p ↔ Drives g s C p := Iff.rfl

/-- All sources are pulsed without a fault; they keep their nodes and signals. -/
theorem pulseAll_ok {g : Grid K} (t : K) : ∀ (srcs : List (Source K)) (f : Flds K), (∀ s ∈ srcs, Fits g s) →
    f.Dims g.Nx g.Ny → ∃ srcs' f', pulseAll g t srcs f = .ok (srcs', f') ∧ f'.Dims g.Nx g.Ny ∧ f.SameCoef f' ∧
      (∀ s ∈ srcs', Fits g s) ∧
      List.Forall₂ (fun s s' => ∃ tp', s.tp.response t = .ok (s.tp.resp t, tp') ∧ s' = { s with tp := tp' }) srcs srcs'
  | [], f, _, hf => ⟨[], f, rfl, hf, ⟨rfl, rfl, rfl, rfl⟩, by simp, .nil⟩
  | s :: l, f, hs, hf => by
    obtain ⟨f1, tp', h1, h2, h3, h4, -⟩ := Source.pulse_spec g t s f (hs s (by simp)) hf
    obtain ⟨l', f2, h5, h6, h7, h8, h9⟩ := pulseAll_ok t l f1 (fun s hs' => hs s (by simp [hs'])) h3
    refine ⟨{ s with tp := tp' } :: l', f2, ?_, h6, ?_, ?_, ?_⟩
    · unfold pulseAll
      rw [h1]; simp only [Except.ok_bind]
      rw [h5]; rfl
    · obtain ⟨a1, a2, a3, a4⟩ := h4
      obtain ⟨b1, b2, b3, b4⟩ := h7
      exact ⟨b1.trans a1, b2.trans a2, b3.trans a3, b4.trans a4⟩
    · intro s' hs'
      rcases List.mem_cons.mp hs' with rfl | hm
      · exact hs s (by simp)
      · exact h8 s' hm
    · exact .cons ⟨tp', h2, rfl⟩ h9

/-- Sources that are the same up to the recorded spectra. -/
def SameSrc (s s' : Source K) : Prop := s'.kind = s.kind ∧ s'.name = s.name ∧ s'.tp.resp = s.tp.resp

theorem response_resp {tp tp' : TimeProfile K} {t v : K} (h : tp.response t = .ok (v, tp')) : tp'.resp = tp.resp := by
  obtain ⟨tp2, h1, h2⟩ := TimeProfile.response_ok tp t
  rw [h1] at h
  cases h
  exact h2

/-! ## Stepping -/

theorem Core.update_ok {c : Core K} (hc : c.WF) (hg : c.g.Wide) (srcs : List (Source K)) (hs : ∀ s ∈ srcs, Fits c.g s) :
    ∃ c' srcs', c.update srcs = .ok (c', srcs') ∧ c'.WF ∧ c'.g = c.g ∧ c'.sc = c.sc ∧ c'.tStep = c.tStep + 1 ∧
      c'.t = c.t + c.g.dt ∧ c'.tfsf.isSome = c.tfsf.isSome ∧ (∀ s ∈ srcs', Fits c'.g s) ∧
      List.Forall₂ SameSrc srcs srcs' := by
  obtain ⟨c1, h1, w1, g1, s1, n1, t1, f1⟩ := Core.stageE_ok hc hg
  obtain ⟨srcs', f', h2, d2, -, hs2, h3⟩ := pulseAll_ok (g := c1.g) c1.t srcs c1.f (by rw [g1]; exact hs) w1.f
  obtain ⟨c2, h4, w4, g4, s4, n4, t4, f4⟩ := Core.stageH_ok (c := { c1 with f := f' }) { w1 with f := d2 }
    (by rw [show ({ c1 with f := f' } : Core K).g = c.g from g1]; exact hg)
  refine ⟨c2, srcs', ?_, w4, g4.trans g1, s4.trans s1, n4.trans n1, t4.trans t1, ?_, ?_, ?_⟩
  · unfold Core.update
    rw [h1]; simp only [Except.ok_bind]
    rw [h2]; simp only [Except.ok_bind]
    rw [h4]; rfl
  · rw [f4]; simp only; rw [f1]
  · rw [g4]; exact hs2
  · refine h3.imp ?_
    rintro s s' ⟨tp', h, rfl⟩
    exact ⟨rfl, rfl, response_resp h⟩

theorem Forall₂.trans' {α : Type} {R : α → α → Prop} (hR : ∀ a b c, R a b → R b c → R a c) :
    ∀ {l1 l2 l3 : List α}, List.Forall₂ R l1 l2 → List.Forall₂ R l2 l3 → List.Forall₂ R l1 l3
  | _, _, _, .nil, .nil => .nil
  | _, _, _, .cons h t, .cons h' t' => .cons (hR _ _ _ h h') (Forall₂.trans' hR t t')

theorem Core.run_ok : ∀ (n : ℕ) {c : Core K} (_ : c.WF) (_ : c.g.Wide) (srcs : List (Source K))
    (_ : ∀ s ∈ srcs, Fits c.g s), ∃ c' srcs', c.run n srcs = .ok (c', srcs') ∧ c'.WF ∧ c'.g = c.g ∧
      c'.tStep = c.tStep + n ∧ c'.tfsf.isSome = c.tfsf.isSome ∧ (∀ s ∈ srcs', Fits c'.g s) ∧
      List.Forall₂ SameSrc srcs srcs'
  | 0, c, hc, hg, srcs, hs => ⟨c, srcs, rfl, hc, rfl, by simp, rfl, hs, List.forall₂_same.mpr fun s _ => ⟨rfl, rfl, rfl⟩⟩
  | n + 1, c, hc, hg, srcs, hs => by
    obtain ⟨c1, s1, h1, w1, g1, -, n1, -, f1, r1, q1⟩ := Core.update_ok hc hg srcs hs
    obtain ⟨c2, s2, h2, w2, g2, n2, f2, r2, q2⟩ := Core.run_ok n w1 (by rw [g1]; exact hg) s1 r1
    refine ⟨c2, s2, ?_, w2, g2.trans g1, ?_, f2.trans f1, r2, Forall₂.trans' ?_ q1 q2⟩
    · unfold Core.run; rw [h1]; exact h2
    · rw [n2, n1]; push_cast; omega
    · rintro a b c ⟨x1, x2, x3⟩ ⟨y1, y2, y3⟩
      exact ⟨y1.trans x1, y2.trans x2, y3.trans x3⟩

/-! ## Construction -/

theorem PmlCoef.init_ok (p : PmlPar K) {Nx Ny : ℤ} (hx : p.T + 1 ≤ Nx) (hy : p.T + 1 ≤ Ny) :
    ∃ co, PmlCoef.init p Nx Ny = .ok co ∧ co.be_x.n = Nx ∧ co.ce_x.n = Nx ∧ co.bh_x.n = Nx ∧ co.ch_x.n = Nx ∧
      co.be_y.n = Ny ∧ co.ce_y.n = Ny ∧ co.bh_y.n = Ny ∧ co.ch_y.n = Ny := by
  unfold PmlCoef.init
  refine forRange_inv (fun co : PmlCoef K => co.be_x.n = Nx ∧ co.ce_x.n = Nx ∧ co.bh_x.n = Nx ∧ co.ch_x.n = Nx ∧
      co.be_y.n = Ny ∧ co.ce_y.n = Ny ∧ co.bh_y.n = Ny ∧ co.ch_y.n = Ny) 0 (p.T + 1) _ ?_ _
      ⟨rfl, rfl, rfl, rfl, rfl, rfl, rfl, rfl⟩
  rintro i h0 h1 s ⟨e1, e2, e3, e4, e5, e6, e7, e8⟩
  simp (disch := omega) only [Arr.wr_in, Except.ok_bind, Except.pure_eq]
  exact ⟨_, rfl, e1, e2, e3, e4, e5, e6, e7, e8⟩

theorem PmlPar.scaling_ok (p : PmlPar K) {Nx Ny : ℤ} (hx : p.T ≤ Nx) (hy : p.T ≤ Ny) :
    ∃ sc, p.scaling Nx Ny = .ok sc ∧ sc.Dims Nx Ny := by
  unfold PmlPar.scaling
  refine forRange_inv (fun sc : Scaling K => sc.Dims Nx Ny) 0 p.T _ ?_ _ ⟨rfl, rfl, rfl, rfl⟩
  rintro i h0 h1 s ⟨e1, e2, e3, e4⟩
  simp (disch := first | omega | (simp only [Arr.setv_n]; omega)) only [Arr.wr_in, Except.ok_bind, Except.pure_eq]
  exact ⟨_, rfl, e1, e2, e3, e4⟩

theorem Core.make_ok {g : Grid K} (hx : g.T + 1 ≤ g.Nx) (hy : g.T + 1 ≤ g.Ny) :
    ∃ c, Core.make g = .ok c ∧ c.WF ∧ c.g = g ∧ c.tStep = 0 ∧ c.t = 0 ∧ c.tfsf = none := by
  obtain ⟨co, h1, e1, e2, e3, e4, e5, e6, e7, e8⟩ := PmlCoef.init_ok (PmlPar.default g) hx hy
  obtain ⟨sc, h2, d2⟩ := PmlPar.scaling_ok (PmlPar.default g) (Nx := g.Nx) (Ny := g.Ny)
    (by show g.T ≤ g.Nx; omega) (by show g.T ≤ g.Ny; omega)
  have h3 := clearMaterials_closed (g := g) (f := ⟨.const g.Nx g.Ny 0, .const g.Nx g.Ny 0, .const g.Nx g.Ny 0,
    .const g.Nx g.Ny 0, .const g.Nx g.Ny 0, .const g.Nx g.Ny 0, .const g.Nx g.Ny 0⟩)
    ⟨⟨rfl, rfl⟩, ⟨rfl, rfl⟩, ⟨rfl, rfl⟩, ⟨rfl, rfl⟩, ⟨rfl, rfl⟩, ⟨rfl, rfl⟩, ⟨rfl, rfl⟩⟩
  unfold Core.make Pml.make Pml.makeWith
  simp only
  rw [h3]; simp only [Except.ok_bind]
  rw [h1]; simp only [Except.ok_bind, Except.pure_eq]
  rw [h2]; simp only [Except.ok_bind, Except.pure_eq]
  refine ⟨_, rfl, ?_, rfl, rfl, rfl, rfl⟩
  exact
    { f := ⟨⟨rfl, rfl⟩, ⟨rfl, rfl⟩, ⟨rfl, rfl⟩, ⟨rfl, rfl⟩, ⟨rfl, rfl⟩, ⟨rfl, rfl⟩, ⟨rfl, rfl⟩⟩
      sc := d2
      pml := ⟨rfl, rfl, rfl, e1, e2, e3, e4, e5, e6, e7, e8, ⟨rfl, rfl⟩, ⟨rfl, rfl⟩, ⟨rfl, rfl⟩, ⟨rfl, rfl⟩,
        ⟨rfl, rfl⟩, ⟨rfl, rfl⟩, ⟨rfl, rfl⟩, ⟨rfl, rfl⟩⟩
      prevE := by intro a h; cases h
      prev2E := by intro a h; cases h
      hasE := by simp
      has2E := by simp
      debye := by simp
      drude := by simp
      lorentz := by simp
      tfsf := by intro w h; cases h }

/-! ## Objects -/

theorem DebyePol.make_wf (g : Grid K) (m : Debye K) : (DebyePol.make g m).WF g.Nx g.Ny :=
  ⟨rfl, ⟨rfl, rfl, rfl⟩, ⟨rfl, rfl, rfl⟩⟩
theorem DrudePol.make_wf (g : Grid K) (m : Drude K) : (DrudePol.make g m).WF g.Nx g.Ny :=
  ⟨rfl, ⟨rfl, rfl, rfl⟩, ⟨rfl, rfl, rfl⟩⟩
theorem LorentzPol.make_wf (g : Grid K) (m : Lorentz K) : (LorentzPol.make g m).WF g.Nx g.Ny :=
  ⟨rfl, ⟨rfl, rfl, rfl⟩, ⟨rfl, rfl, rfl⟩, ⟨rfl, rfl, rfl⟩⟩

theorem DebyePol.insert_closed {g : Grid K} {P : DebyePol K} (hP : P.WF g.Nx g.Ny) (o : Object K) :
    P.insert g o = .ok { P with
      beta := P.beta.paint (Arr.ofList (P.mat.poles.map (·.beta g.dt))).val
        (fun x y => o.inside (g.toReal ⟨x, y⟩)) (rect 0 g.Nx 0 g.Ny) } := by
  unfold DebyePol.insert
  rw [insertLoop_closed hP.beta (by simp [hP.np])]
  rfl
theorem DrudePol.insert_closed {g : Grid K} {P : DrudePol K} (hP : P.WF g.Nx g.Ny) (o : Object K) :
    P.insert g o = .ok { P with
      beta := P.beta.paint (Arr.ofList (P.mat.poles.map (·.beta g.dt))).val
        (fun x y => o.inside (g.toReal ⟨x, y⟩)) (rect 0 g.Nx 0 g.Ny) } := by
  unfold DrudePol.insert
  rw [insertLoop_closed hP.beta (by simp [hP.np])]
  rfl
theorem LorentzPol.insert_closed {g : Grid K} {P : LorentzPol K} (hP : P.WF g.Nx g.Ny) (o : Object K) :
    P.insert g o = .ok { P with
      delta := P.delta.paint (Arr.ofList (P.mat.poles.map (·.delta g.dt))).val
        (fun x y => o.inside (g.toReal ⟨x, y⟩)) (rect 0 g.Nx 0 g.Ny) } := by
  unfold LorentzPol.insert
  rw [insertLoop_closed hP.delta (by simp [hP.np])]
  rfl

theorem DebyePol.insert_ok {g : Grid K} {P : DebyePol K} (hP : P.WF g.Nx g.Ny) (o : Object K) :
    ∃ P', P.insert g o = .ok P' ∧ P'.WF g.Nx g.Ny :=
  ⟨_, DebyePol.insert_closed hP o, hP.np, hP.J, hP.beta⟩
theorem DrudePol.insert_ok {g : Grid K} {P : DrudePol K} (hP : P.WF g.Nx g.Ny) (o : Object K) :
    ∃ P', P.insert g o = .ok P' ∧ P'.WF g.Nx g.Ny :=
  ⟨_, DrudePol.insert_closed hP o, hP.np, hP.J, hP.beta⟩
theorem LorentzPol.insert_ok {g : Grid K} {P : LorentzPol K} (hP : P.WF g.Nx g.Ny) (o : Object K) :
    ∃ P', P.insert g o = .ok P' ∧ P'.WF g.Nx g.Ny :=
  ⟨_, LorentzPol.insert_closed hP o, hP.np, hP.J, hP.delta, hP.prevJ⟩

theorem mapFind_mem {P : Type} {name : String} : ∀ {l : List (String × P)} {p : P}, mapFind name l = some p → (name, p) ∈ l
  | [], p, h => by simp [mapFind] at h
  | (n, q) :: l, p, h => by
    unfold mapFind at h
    by_cases hn : n = name
    · simp [hn] at h; simp [hn, h]
    · simp [hn] at h; exact List.mem_cons_of_mem _ (mapFind_mem h)

theorem mem_mapInsert {P : Type} {name : String} {p : P} : ∀ {l : List (String × P)} {q}, q ∈ mapInsert name p l →
    q = (name, p) ∨ q ∈ l
  | [], q, h => by simpa [mapInsert] using h
  | (n, r) :: l, q, h => by
    unfold mapInsert at h
    split at h
    · exact List.mem_cons.mp h
    · rcases List.mem_cons.mp h with rfl | hm
      · right; simp
      · rcases mem_mapInsert hm with h | h
        · exact Or.inl h
        · right; simp [h]

theorem mem_mapSet {P : Type} {name : String} {p : P} : ∀ {l : List (String × P)} {q}, q ∈ mapSet name p l →
    q = (name, p) ∨ q ∈ l
  | [], q, h => by simp [mapSet] at h
  | (n, r) :: l, q, h => by
    unfold mapSet at h
    split at h
    · rcases List.mem_cons.mp h with rfl | hm
      · rename_i hn; left; simp [hn]
      · right; simp [hm]
    · rcases List.mem_cons.mp h with rfl | hm
      · right; simp
      · rcases mem_mapSet hm with h | h
        · exact Or.inl h
        · right; simp [h]

theorem addPol_ok {P : Type} (WF : P → Prop) (name : String) (fresh : P) (ins : P → M P) (l : List (String × P))
    (hf : WF fresh) (hi : ∀ p, WF p → ∃ p', ins p = .ok p' ∧ WF p') (hl : ∀ q ∈ l, WF q.2) :
    ∃ l', addPol name fresh ins l = .ok l' ∧ ∀ q ∈ l', WF q.2 := by
  unfold addPol
  cases h : mapFind name l with
  | none =>
    obtain ⟨p', h1, h2⟩ := hi fresh hf
    simp only [h1]
    refine ⟨_, rfl, ?_⟩
    intro q hq
    rcases mem_mapInsert hq with rfl | hm
    · exact h2
    · exact hl q hm
  | some p =>
    obtain ⟨p', h1, h2⟩ := hi p (hl _ (mapFind_mem h))
    simp only [h1]
    refine ⟨_, rfl, ?_⟩
    intro q hq
    rcases mem_mapSet hq with rfl | hm
    · exact h2
    · exact hl q hm

theorem orInit_dim {o : Option (Tensor K)} {v : Tensor K} {n m : ℤ} (ho : OptDim o n m) (hv : v.Dim n m) :
    OptDim (orInit o v) n m := by
  intro a ha
  cases h : o with
  | none => simp [orInit, h] at ha; rw [← ha]; exact hv
  | some b => simp [orInit, h] at ha; rw [← ha]; exact ho b h

@[simp] theorem orInit_isSome {α : Type} (o : Option α) (v : α) : (orInit o v).isSome = true := by
  cases o <;> rfl

theorem Core.insertObject_ok {c : Core K} (hc : c.WF) {o : Object K} (ho : o.Safe c.g) :
    ∃ c', c.insertObject o = .ok c' ∧ c'.WF ∧ c'.g = c.g ∧ c'.tStep = c.tStep ∧ c'.t = c.t ∧ c'.tfsf = c.tfsf := by
  unfold Core.insertObject
  rw [paintObject_closed hc.f ho]
  simp only [Except.ok_bind]
  cases hk : o.mat.kind with
  | simple m => exact ⟨_, rfl, { hc with f := Flds.paint_dims hc.f _ _ _ _ }, rfl, rfl, rfl, rfl⟩
  | debye m =>
    obtain ⟨l', h1, h2⟩ := addPol_ok (fun P => P.WF c.g.Nx c.g.Ny) o.mat.name (DebyePol.make c.g m)
      (fun P => P.insert c.g o) c.debye (DebyePol.make_wf _ _) (fun P hP => DebyePol.insert_ok hP o) hc.debye
    simp only [h1]
    exact ⟨_, rfl, { hc with
      f := Flds.paint_dims hc.f _ _ _ _, debye := h2, prevE := orInit_dim hc.prevE hc.f.Ez,
      hasE := by simp }, rfl, rfl, rfl, rfl⟩
  | drude m =>
    obtain ⟨l', h1, h2⟩ := addPol_ok (fun P => P.WF c.g.Nx c.g.Ny) o.mat.name (DrudePol.make c.g m)
      (fun P => P.insert c.g o) c.drude (DrudePol.make_wf _ _) (fun P hP => DrudePol.insert_ok hP o) hc.drude
    simp only [h1]
    exact ⟨_, rfl, { hc with
      f := Flds.paint_dims hc.f _ _ _ _, drude := h2, prevE := orInit_dim hc.prevE hc.f.Ez,
      hasE := by simp }, rfl, rfl, rfl, rfl⟩
  | lorentz m =>
    obtain ⟨l', h1, h2⟩ := addPol_ok (fun P => P.WF c.g.Nx c.g.Ny) o.mat.name (LorentzPol.make c.g m)
      (fun P => P.insert c.g o) c.lorentz (LorentzPol.make_wf _ _) (fun P hP => LorentzPol.insert_ok hP o) hc.lorentz
    simp only [h1]
    exact ⟨_, rfl, { hc with
      f := Flds.paint_dims hc.f _ _ _ _, lorentz := h2, prevE := orInit_dim hc.prevE hc.f.Ez,
      prev2E := orInit_dim hc.prev2E hc.f.Ez,
      hasE := by simp, has2E := by simp }, rfl, rfl, rfl, rfl⟩

/-- The polarization of the object's material exists. -/
def Core.HasPol (c : Core K) (o : Object K) : Prop :=
  match o.mat.kind with
  | .simple _ => True
  | .debye _ => (mapFind o.mat.name c.debye).isSome
  | .drude _ => (mapFind o.mat.name c.drude).isSome
  | .lorentz _ => (mapFind o.mat.name c.lorentz).isSome

theorem mapFind_mapInsert {P : Type} (name n : String) (p : P) : ∀ (l : List (String × P)), mapFind name l = none →
    mapFind n (mapInsert name p l) = if n = name then some p else mapFind n l
  | [], _ => by
    by_cases h : name = n <;> simp [mapInsert, mapFind, h, eq_comm]
  | (m, q) :: l, h => by
    unfold mapFind at h
    by_cases hm : m = name
    · simp [hm] at h
    · simp [hm] at h
      unfold mapInsert
      split
      · by_cases h2 : name = n
        · subst h2; simp [mapFind]
        · rw [mapFind, if_neg h2, if_neg (Ne.symm h2)]
      · rw [mapFind]
        by_cases h2 : m = n
        · subst h2; simp [hm, mapFind]
        · rw [if_neg h2, mapFind_mapInsert name n p l h]; conv_rhs => rw [mapFind, if_neg h2]

theorem mapFind_mapSet {P : Type} (name n : String) (p : P) : ∀ (l : List (String × P)), (mapFind name l).isSome →
    mapFind n (mapSet name p l) = if n = name then some p else mapFind n l
  | [], h => by simp [mapFind] at h
  | (m, q) :: l, h => by
    unfold mapSet
    by_cases hm : m = name
    · subst hm
      simp only [if_true, mapFind]
      by_cases h2 : m = n
      · subst h2; simp
      · rw [if_neg h2, if_neg (Ne.symm h2)]; rw [if_neg h2]
    · rw [mapFind, if_neg hm] at h
      rw [if_neg hm, mapFind]
      by_cases h2 : m = n
      · subst h2; simp [hm, mapFind]
      · rw [if_neg h2, mapFind_mapSet name n p l h]; conv_rhs => rw [mapFind, if_neg h2]

theorem atInsert_ok {P : Type} (WF : P → Prop) (name : String) (ins : P → M P) (l : List (String × P))
    (hi : ∀ p, WF p → ∃ p', ins p = .ok p' ∧ WF p') (hl : ∀ q ∈ l, WF q.2) (hn : (mapFind name l).isSome) :
    ∃ l', atInsert name ins l = .ok l' ∧ (∀ q ∈ l', WF q.2) ∧
      ∀ n, (mapFind n l').isSome = (mapFind n l).isSome := by
  unfold atInsert
  cases h : mapFind name l with
  | none => simp [h] at hn
  | some p =>
    obtain ⟨p', h1, h2⟩ := hi p (hl _ (mapFind_mem h))
    simp only [h1]
    refine ⟨_, rfl, ?_, ?_⟩
    · intro q hq
      rcases mem_mapSet hq with rfl | hm
      · exact h2
      · exact hl q hm
    · intro n
      rw [mapFind_mapSet name n p' l hn]
      by_cases hn' : n = name
      · subst hn'; simp [h]
      · simp [hn']

theorem Core.updatePolGrid_ok {c : Core K} (hc : c.WF) (o : Object K) (hp : c.HasPol o) :
    ∃ c', c.updatePolGrid o = .ok c' ∧ c'.WF ∧ c'.g = c.g ∧ c'.tStep = c.tStep ∧ c'.t = c.t ∧ c'.tfsf = c.tfsf ∧
      ∀ o', c.HasPol o' → c'.HasPol o' := by
  unfold Core.updatePolGrid
  unfold Core.HasPol at hp
  cases hk : o.mat.kind with
  | simple m => exact ⟨_, rfl, hc, rfl, rfl, rfl, rfl, fun _ h => h⟩
  | debye m =>
    rw [hk] at hp
    obtain ⟨l', h1, h2, h3⟩ := atInsert_ok (fun P => P.WF c.g.Nx c.g.Ny) o.mat.name
      (fun P => P.insert c.g o) c.debye (fun P hP => DebyePol.insert_ok hP o) hc.debye hp
    simp only [h1]
    refine ⟨_, rfl, { hc with
      debye := h2
      hasE := fun h => hc.hasE (Or.inl fun he => by simp [he, mapFind] at hp) }, rfl, rfl, rfl, rfl, ?_⟩
    intro o' h
    unfold Core.HasPol at *
    split <;> simp_all
  | drude m =>
    rw [hk] at hp
    obtain ⟨l', h1, h2, h3⟩ := atInsert_ok (fun P => P.WF c.g.Nx c.g.Ny) o.mat.name
      (fun P => P.insert c.g o) c.drude (fun P hP => DrudePol.insert_ok hP o) hc.drude hp
    simp only [h1]
    refine ⟨_, rfl, { hc with
      drude := h2
      hasE := fun h => hc.hasE (Or.inr (Or.inl fun he => by simp [he, mapFind] at hp)) }, rfl, rfl, rfl, rfl, ?_⟩
    intro o' h
    unfold Core.HasPol at *
    split <;> simp_all
  | lorentz m =>
    rw [hk] at hp
    obtain ⟨l', h1, h2, h3⟩ := atInsert_ok (fun P => P.WF c.g.Nx c.g.Ny) o.mat.name
      (fun P => P.insert c.g o) c.lorentz (fun P hP => LorentzPol.insert_ok hP o) hc.lorentz hp
    simp only [h1]
    have hne : c.lorentz ≠ [] := fun he => by simp [he, mapFind] at hp
    refine ⟨_, rfl, { hc with
      lorentz := h2
      hasE := fun h => hc.hasE (Or.inr (Or.inr hne))
      has2E := fun h => hc.has2E hne }, rfl, rfl, rfl, rfl, ?_⟩
    intro o' h
    unfold Core.HasPol at *
    split <;> simp_all

/-- After `insert_object` the material's polarization exists, and no polarization disappears. -/
theorem Core.insertObject_hasPol {c c' : Core K} {o : Object K} (h : c.insertObject o = .ok c') :
    c'.HasPol o ∧ ∀ o', c.HasPol o' → c'.HasPol o' := by
  have key : ∀ {P : Type} (name : String) (fresh : P) (ins : P → M P) (l l' : List (String × P)),
      addPol name fresh ins l = .ok l' → (mapFind name l').isSome ∧
        ∀ n, (mapFind n l).isSome → (mapFind n l').isSome := by
    intro P name fresh ins l l' h
    unfold addPol at h
    cases hm : mapFind name l with
    | none =>
      rw [hm] at h
      simp only [Except.bind_ok] at h
      obtain ⟨p, -, h2⟩ := h
      cases h2
      constructor
      · rw [mapFind_mapInsert _ _ _ _ hm]; simp
      · intro n hn
        rw [mapFind_mapInsert _ _ _ _ hm]
        by_cases hn' : n = name <;> simp [hn', hn]
    | some p =>
      rw [hm] at h
      simp only [Except.bind_ok] at h
      obtain ⟨p', -, h2⟩ := h
      cases h2
      constructor
      · rw [mapFind_mapSet _ _ _ _ (by simp [hm])]; simp
      · intro n hn
        rw [mapFind_mapSet _ _ _ _ (by simp [hm])]
        by_cases hn' : n = name <;> simp [hn', hn]
  unfold Core.insertObject at h
  rw [Except.bind_ok] at h
  obtain ⟨f, -, h⟩ := h
  cases hk : o.mat.kind with
  | simple m =>
    rw [hk] at h; cases h
    exact ⟨by simp [Core.HasPol, hk], fun o' h => h⟩
  | debye m =>
    rw [hk] at h
    simp only [Except.bind_ok] at h
    obtain ⟨l, h1, h2⟩ := h
    cases h2
    obtain ⟨k1, k2⟩ := key _ _ _ _ _ h1
    refine ⟨by simpa [Core.HasPol, hk] using k1, ?_⟩
    intro o' ho'
    unfold Core.HasPol at *
    split <;> simp_all
  | drude m =>
    rw [hk] at h
    simp only [Except.bind_ok] at h
    obtain ⟨l, h1, h2⟩ := h
    cases h2
    obtain ⟨k1, k2⟩ := key _ _ _ _ _ h1
    refine ⟨by simpa [Core.HasPol, hk] using k1, ?_⟩
    intro o' ho'
    unfold Core.HasPol at *
    split <;> simp_all
  | lorentz m =>
    rw [hk] at h
    simp only [Except.bind_ok] at h
    obtain ⟨l, h1, h2⟩ := h
    cases h2
    obtain ⟨k1, k2⟩ := key _ _ _ _ _ h1
    refine ⟨by simpa [Core.HasPol, hk] using k1, ?_⟩
    intro o' ho'
    unfold Core.HasPol at *
    split <;> simp_all

theorem Core.updateMaterialGrid_ok {c : Core K} (hc : c.WF) (objs : List (Object K)) (ho : ∀ o ∈ objs, o.Safe c.g)
    (hp : ∀ o ∈ objs, c.HasPol o) :
    ∃ c', c.updateMaterialGrid objs = .ok c' ∧ c'.WF ∧ c'.g = c.g ∧ c'.tStep = c.tStep ∧ c'.t = c.t ∧
      c'.tfsf = c.tfsf ∧ ∀ o, c.HasPol o → c'.HasPol o := by
  unfold Core.updateMaterialGrid
  rw [clearMaterials_closed hc.f]
  simp only [Except.ok_bind]
  obtain ⟨c', h1, h2⟩ := forList_inv (fun c' : Core K => c'.WF ∧ c'.g = c.g ∧ c'.tStep = c.tStep ∧ c'.t = c.t ∧
      c'.tfsf = c.tfsf ∧ ∀ o, c.HasPol o → c'.HasPol o) objs
    (fun o (c : Core K) => do
      let f ← paintObject c.g o c.f
      ({ c with f := f }).updatePolGrid o)
    (by
      rintro o hm c1 ⟨w1, g1, n1, t1, f1, p1⟩
      rw [paintObject_closed w1.f (by rw [g1]; exact ho o hm)]
      simp only [Except.ok_bind]
      obtain ⟨c2, h2, w2, g2, n2, t2, f2, p2⟩ := Core.updatePolGrid_ok
        (c := { c1 with f := c1.f.paint o.mat.kind c1.g.dt (fun x y => o.inside (c1.g.toReal ⟨x, y⟩)) (scan c1.g o) })
        { w1 with f := Flds.paint_dims w1.f _ _ _ _ } o (p1 o (hp o hm))
      exact ⟨c2, h2, w2, g2.trans g1, n2.trans n1, t2.trans t1, f2.trans f1, fun o' h => p2 o' (p1 o' h)⟩)
    { c with f := c.f.paint (.simple vacuum) c.g.dt (fun _ _ => true) (rect 0 c.g.Nx 0 c.g.Ny) }
    ⟨{ hc with f := Flds.paint_dims hc.f _ _ _ _ }, rfl, rfl, rfl, rfl, fun _ h => h⟩
  exact ⟨c', h1, h2⟩

theorem mapFind_map_isSome {P : Type} (n : String) (f : P → P) : ∀ l : List (String × P),
    (mapFind n (l.map fun p => (p.1, f p.2))).isSome = (mapFind n l).isSome
  | [] => rfl
  | (m, q) :: l => by
    simp only [List.map_cons, mapFind]
    by_cases h : m = n
    · simp [h]
    · simp [h, mapFind_map_isSome n f l]

theorem Core.clearFields_ok {c : Core K} (hc : c.WF) : c.clearFields.WF ∧ ∀ o, c.HasPol o → c.clearFields.HasPol o := by
  constructor
  · exact { hc with
      f := { hc.f with Ez := hc.f.Ez, Hx := hc.f.Hx, Hy := hc.f.Hy }
      hasE := fun h => hc.hasE (by
        rcases h with h | h | h
        · exact Or.inl fun he => h (by simp [Core.clearFields, he])
        · exact Or.inr (Or.inl fun he => h (by simp [Core.clearFields, he]))
        · exact Or.inr (Or.inr fun he => h (by simp [Core.clearFields, he])))
      has2E := fun h => hc.has2E fun he => h (by simp [Core.clearFields, he])
      debye := by
        intro p hp
        obtain ⟨q, hq, rfl⟩ := List.mem_map.mp hp
        obtain ⟨a, b, c⟩ := hc.debye q hq
        exact ⟨a, b, c⟩
      drude := by
        intro p hp
        obtain ⟨q, hq, rfl⟩ := List.mem_map.mp hp
        obtain ⟨a, b, c⟩ := hc.drude q hq
        exact ⟨a, b, c⟩
      lorentz := by
        intro p hp
        obtain ⟨q, hq, rfl⟩ := List.mem_map.mp hp
        obtain ⟨a, b, c, d⟩ := hc.lorentz q hq
        exact ⟨a, b, c, d⟩
      tfsf := by
        intro w hw
        simp only [Core.clearFields, Option.map_eq_some_iff] at hw
        obtain ⟨w', h1, rfl⟩ := hw
        obtain ⟨⟨a0, a1, a2, a3, a4, a5, a6, a7⟩, ⟨b0, b1, b2, b3, b4, b5, b6⟩⟩ := hc.tfsf w' h1
        exact ⟨⟨a0, a1, a2, a3, a4, a5, a6, a7⟩, ⟨b0, b1, b2, b3, b4, b5, b6⟩⟩ }
  · intro o h
    unfold Core.HasPol at *
    cases hk : o.mat.kind with
    | simple m => trivial
    | debye m =>
      rw [hk] at h
      simp only [Core.clearFields] at *
      rwa [mapFind_map_isSome]
    | drude m =>
      rw [hk] at h
      simp only [Core.clearFields] at *
      rwa [mapFind_map_isSome]
    | lorentz m =>
      rw [hk] at h
      simp only [Core.clearFields] at *
      rwa [mapFind_map_isSome]

/-! ## Total-field region -/

/-- The region given to `set_tfsf` is ordered, inside the grid and at least one cell away from the lower edges. -/
structure TfsfFits (g : Grid K) (vol : Vol K) : Prop where
  ia : 1 ≤ (g.toGrid vol.a).x
  ab : (g.toGrid vol.a).x ≤ (g.toGrid vol.b).x
  ib : (g.toGrid vol.b).x < g.Nx
  ja : 1 ≤ (g.toGrid vol.a).y
  jab : (g.toGrid vol.a).y ≤ (g.toGrid vol.b).y
  jb : (g.toGrid vol.b).y < g.Ny

theorem Tfsf.make_inGrid {g : Grid K} {vol : Vol K} (h : TfsfFits g vol) (tp : TimeProfile K) (dt : K) :
    (Tfsf.make g tp vol dt).InGrid g.Nx g.Ny := by
  obtain ⟨h1, h2, h3, h4, h5, h6⟩ := h
  refine ⟨?_, h1, h2, h3, h4, h5, h6⟩
  show |(g.toGrid vol.a).y - (g.toGrid vol.b).y| + 5 = (g.toGrid vol.b).y - (g.toGrid vol.a).y + 5
  rw [abs_of_nonpos (by omega)]
  omega

theorem Core.setTfsf_ok {c : Core K} (hc : c.WF) {vol : Vol K} (h : TfsfFits c.g vol) (tp : TimeProfile K) :
    (c.setTfsf vol tp).WF :=
  { hc with
    tfsf := by
      intro w hw
      simp only [Core.setTfsf, Option.some.injEq] at hw
      subst hw
      exact ⟨Tfsf.make_shape _ _ _ _, Tfsf.make_inGrid h tp _⟩ }

/-! ## The polarizations that exist do not change while stepping -/

theorem mapUpdateJ_keys {α : Type} (upd : α → Tensor K → M (α × Tensor K)) : ∀ (l l' : List (String × α))
    (E E' : Tensor K), mapUpdateJ upd l E = .ok (l', E') → l'.map Prod.fst = l.map Prod.fst
  | [], l', E, E', h => by cases h; rfl
  | (n, P) :: l, l', E, E', h => by
    unfold mapUpdateJ at h
    simp only [Except.bind_ok] at h
    obtain ⟨⟨P', E1⟩, -, ⟨l1, E2⟩, h2, h3⟩ := h
    cases h3
    simp [mapUpdateJ_keys upd l l1 _ _ h2]

theorem mapFind_keys {α : Type} (n : String) : ∀ (l l' : List (String × α)), l'.map Prod.fst = l.map Prod.fst →
    (mapFind n l').isSome = (mapFind n l).isSome
  | [], [], _ => rfl
  | [], _ :: _, h => by simp at h
  | _ :: _, [], h => by simp at h
  | (a, p) :: l, (b, q) :: l', h => by
    simp only [List.map_cons, List.cons.injEq] at h
    obtain ⟨h1, h2⟩ := h
    subst h1
    simp only [mapFind]
    by_cases hb : b = n
    · simp [hb]
    · simp [hb, mapFind_keys n l l' h2]

/-- The names under which polarizations are stored. -/
def Core.keys (c : Core K) : List String × List String × List String :=
  (c.debye.map Prod.fst, c.drude.map Prod.fst, c.lorentz.map Prod.fst)

theorem Core.stageE_keys {c c' : Core K} (h : c.stageE = .ok c') : c'.keys = c.keys := by
  unfold Core.stageE at h
  simp only [Except.bind_ok] at h
  obtain ⟨E0, -, ⟨p, E1⟩, -, ⟨d, E2⟩, h1, ⟨r, E3⟩, h2, ⟨l, E4⟩, h3, E5, -, h4⟩ := h
  cases h4
  simp only [Core.keys, mapUpdateJ_keys _ _ _ _ _ h1, mapUpdateJ_keys _ _ _ _ _ h2, mapUpdateJ_keys _ _ _ _ _ h3]

theorem Core.stageH_keys {c c' : Core K} (h : c.stageH = .ok c') : c'.keys = c.keys := by
  unfold Core.stageH at h
  simp only [Except.bind_ok] at h
  obtain ⟨w, -, hh, -, ⟨p, X, Y⟩, -, h2, -, h4⟩ := h
  cases h4
  rfl

theorem Core.HasPol.of_keys {c c' : Core K} (h : c'.keys = c.keys) {o : Object K} (ho : c.HasPol o) : c'.HasPol o := by
  simp only [Core.keys, Prod.mk.injEq] at h
  obtain ⟨h1, h2, h3⟩ := h
  unfold Core.HasPol at *
  cases hk : o.mat.kind with
  | simple m => trivial
  | debye m => rw [hk] at ho; simp only at *; rwa [mapFind_keys _ _ _ h1]
  | drude m => rw [hk] at ho; simp only at *; rwa [mapFind_keys _ _ _ h2]
  | lorentz m => rw [hk] at ho; simp only at *; rwa [mapFind_keys _ _ _ h3]

end Qbox
