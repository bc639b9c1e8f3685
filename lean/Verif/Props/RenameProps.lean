import Verif.Lemmas.Rename
import Verif.Props.CoverProps
import Verif.Props.HistoryProps

/-!
# C61: the names of materials
-/

namespace Qbox.Props
open Qbox Scalar Spec

/-- **C61** in full: the names given to materials have no effect on the fields. False, see `C61_false`. -/
def C61_statement : Prop :=
  ∀ (c : Core ℝ) (_ : c.Std) (srcs : List (Source ℝ)) (_ : ∀ s ∈ srcs, Fits c.g s) (l l' : List (Object ℝ))
    (_ : ∀ x ∈ l, BoxSound x) (_ : ∀ x ∈ l, ClearOfUnguardedEdges c.g x) (_ : List.Forall₂ (Renamed fun _ _ => True) l l') (n : ℕ)
    (c1 c2 d1 d2 : Core ℝ) (k1 k2 : List (Source ℝ)), addAll l c = .ok c1 → addAll l' c = .ok c2 → c1.run n srcs = .ok (d1, k1) →
      c2.run n srcs = .ok (d2, k2) → d1.f = d2.f

/-- **C61** for every scalar type and whole programs, exceptions included: two programs that differ only in the names of materials, such that the names of
dispersive materials correspond one to one and in the same alphabetical order, have the same fields, sources, monitors, output of fields and clocks after
every number of calls, and the same outcome. What is missing: names in another order, see `C61_any_order_partial` and `C61_order_false`, and two
dispersive materials sharing a name, where it is false. -/
theorem C61_names_partial {K : Type} [Scalar K] (R : String → String → Prop) (hR : KeepsOrder R) (now : ℕ → ℝ) (g : Grid K) (fn : String) (s0 : Sim K)
    (h0 : Sim.make now g fn = .ok s0) (ops ops' : List (Op K)) (hops : List.Forall₂ (RenamedOp R) ops ops') :
    (∀ e, s0.run now ops = .error e ↔ s0.run now ops' = .error e) ∧
    ∀ s, s0.run now ops = .ok s → ∃ s', s0.run now ops' = .ok s' ∧ s'.core.f = s.core.f ∧ s'.core.t = s.core.t ∧ s'.srcs = s.srcs ∧ s'.mons = s.mons ∧
      s'.tmons = s.tmons ∧ s'.file = s.file ∧ s'.clocks = s.clocks := by
  have hs : SimRel R s0 s0 := by
    obtain ⟨-, -, cm, o0, l0, -, -⟩ := make_unwatched h0
    obtain ⟨n1, n2, n3⟩ := Core.make_no_pol cm
    refine ⟨rfl, ⟨rfl, ?_, ?_, ?_⟩, ?_⟩
    · rw [n1]; exact .nil
    · rw [n2]; exact .nil
    · rw [n3]; exact .nil
    · rw [o0]; exact .nil
  have := SimRel.run hR now hops hs
  constructor
  · intro e
    cases h1 : s0.run now ops <;> cases h2 : s0.run now ops' <;> rw [h1, h2] at this
    · have : _ = _ := this
      rw [this]
    · exact this.elim
    · exact this.elim
    · simp
  · intro s h
    rw [h] at this
    cases h2 : s0.run now ops' with
    | error e => rw [h2] at this; exact this.elim
    | ok s' =>
      rw [h2] at this
      have this : SimRel R s s' := this
      have hc := this.core
      have e := this.same
      refine ⟨s', rfl, hc.f, hc.t, ?_, ?_, ?_, ?_, ?_⟩ <;> rw [e]

/-- How strongly a change of the field acts back at the next update in a Debye medium. -/
noncomputable def debyeWeight (m : Debye ℝ) (dt : ℝ) : ℝ :=
  m.Cb dt / 2 * ∑ M ∈ Finset.range m.poles.length,
    (1 + (Arr.ofList (m.poles.map (·.kappa dt))).val M) * ((Arr.ofList (m.poles.map (·.beta dt))).val M / dt)

/-- State after two objects of Debye media with the same name: the poles are those of the first. -/
theorem sameName {c : Core ℝ} (hc : c.Std) (hd : c.debye = []) (hr : c.drude = []) (hl : c.lorentz = []) {o1 o2 : Object ℝ} (s1 : o1.Safe c.g)
    (s2 : o2.Safe c.g) (cov : o2.Covered c.g) {m1 m2 : Debye ℝ} (k1 : o1.mat.kind = .debye m1) (k2 : o2.mat.kind = .debye m2)
    (hn : o2.mat.name = o1.mat.name) :
    ∃ c2 P, addAll [o1, o2] c = .ok c2 ∧ c2.Std ∧ c2.g = c.g ∧ c2.tfsf = c.tfsf ∧ c2.debye = [(o1.mat.name, P)] ∧ c2.drude = [] ∧ c2.lorentz = [] ∧
      P.mat = m1 ∧ (∀ x y N, P.J.val x y N = 0) ∧ c2.f.Ez = c.f.Ez ∧
      c2.f = paintAll c.g [o1, o2] c.f ∧ ∀ i j, 0 ≤ i → i < c.g.Nx → 0 ≤ j → j < c.g.Ny → o2.inside (c.g.toReal ⟨i, j⟩) = true →
        HasMedium c2.f (.debye m2) c.g.dt i j ∧ ∀ N : ℕ, N < m1.poles.length → P.beta.val i j N = (Arr.ofList (m1.poles.map (·.beta c.g.dt))).val N := by
  obtain ⟨ca, ia, sa, ga⟩ := hc.insertObject s1
  obtain ⟨cb, ib, sb, gb⟩ := sa.insertObject (by rw [ga]; exact s2)
  have f1 := insertObject_f hc.wf.f s1 ia
  have f2 := insertObject_f sa.wf.f (by rw [ga]; exact s2) ib
  have ex : ∃ P, ca.debye = [(o1.mat.name, P)] ∧ P.WF c.g.Nx c.g.Ny ∧ P.mat = m1 ∧ (∀ x y N, P.J.val x y N = 0) ∧ ca.drude = [] ∧ ca.lorentz = [] := by
    have h := ia
    unfold Core.insertObject at h
    rw [paintObject_closed hc.wf.f s1, k1, hd] at h
    simp only [Except.ok_bind, Except.bind_ok, addPol, mapFind, mapInsert] at h
    obtain ⟨l, ⟨P, hP, hl'⟩, h⟩ := h
    have wf := DebyePol.insert_ok (DebyePol.make_wf c.g m1) o1
    obtain ⟨P', e, wP⟩ := wf
    rw [hP] at e
    cases e
    rw [DebyePol.insert_closed (DebyePol.make_wf c.g m1)] at hP
    cases hP
    cases hl'
    cases h
    exact ⟨_, rfl, wP, rfl, fun _ _ _ => rfl, hr, hl⟩
  obtain ⟨P, p1, p2, p3, p4, p5, p6⟩ := ex
  have h := ib
  unfold Core.insertObject at h
  rw [paintObject_closed sa.wf.f (by rw [ga]; exact s2), k2, p1, hn, ga] at h
  simp only [Except.ok_bind, Except.bind_ok, addPol, mapFind, mapSet, if_true] at h
  obtain ⟨l, ⟨P2, hP, hl'⟩, h⟩ := h
  rw [DebyePol.insert_closed p2] at hP
  have hP := (Except.ok.inj hP).symm
  cases hl'
  have h := (Except.ok.inj h).symm
  refine ⟨cb, P2, ?_, sb, gb.trans ga, ?_, by rw [h], by rw [h]; exact p5, by rw [h]; exact p6, by rw [hP]; exact p3, by rw [hP]; exact p4, ?_, ?_, ?_⟩
  · unfold addAll
    rw [forList_cons, ia, Except.ok_bind, forList_cons, ib]; rfl
  · rw [(insertObject_parts ib).2.2.1, (insertObject_parts ia).2.2.1]
  · rw [f2.1, f1.1]; rfl
  · rw [f2.1, f1.1, ga]; rfl
  · intro i j i0 i1 j0 j1 hi
    refine ⟨?_, fun N hN => ?_⟩
    · rw [f2.1, ga]
      have := Flds.paint_hit (f := ca.f) (k := o2.mat.kind) (dt := c.g.dt) (D := scan c.g o2)
        (q := fun x y => o2.inside (c.g.toReal ⟨x, y⟩)) (cov i j i0 i1 j0 j1 hi) hi
      rw [k2] at this ⊢
      exact this
    · rw [hP]
      have hm : (i, j) ∈ rect 0 c.g.Nx 0 c.g.Ny := mem_rect.mpr ⟨⟨i0, i1⟩, j0, j1⟩
      refine (Tensor3.paint_hit (N := (N : ℤ)) hm hi (by positivity) (show (N : ℤ) < P.beta.nz from ?_)).trans ?_
      · rw [p2.beta.2.2, p2.np, p3]; exact_mod_cast hN
      · rw [p3]

/-- State after two objects of Debye media with different names: the poles at the nodes of the second are its own. -/
theorem otherName {c : Core ℝ} (hc : c.Std) (hd : c.debye = []) (hr : c.drude = []) (hl : c.lorentz = []) {o1 o2 : Object ℝ} (s1 : o1.Safe c.g)
    (s2 : o2.Safe c.g) (cov : o2.Covered c.g) {m1 m2 : Debye ℝ} (k1 : o1.mat.kind = .debye m1) (k2 : o2.mat.kind = .debye m2)
    (hn : o2.mat.name ≠ o1.mat.name) :
    ∃ c2 P, addAll [o1, o2] c = .ok c2 ∧ c2.Std ∧ c2.g = c.g ∧ c2.tfsf = c.tfsf ∧ P.mat = m2 ∧ (∀ x y N, P.J.val x y N = 0) ∧
      c2.f = paintAll c.g [o1, o2] c.f ∧ ∀ i j, 0 ≤ i → i < c.g.Nx → 0 ≤ j → j < c.g.Ny → o2.inside (c.g.toReal ⟨i, j⟩) = true →
        o1.inside (c.g.toReal ⟨i, j⟩) = false → ∃ b a, InDebye c2 o2.mat.name P b a i j := by
  obtain ⟨ca, ia, sa, ga⟩ := hc.insertObject s1
  obtain ⟨cb, ib, sb, gb⟩ := sa.insertObject (by rw [ga]; exact s2)
  have f1 := insertObject_f hc.wf.f s1 ia
  have f2 := insertObject_f sa.wf.f (by rw [ga]; exact s2) ib
  have ex : ∃ P, ca.debye = [(o1.mat.name, P)] ∧ (∀ i j, o1.inside (c.g.toReal ⟨i, j⟩) = false → DebyeQuiet P i j) ∧ ca.drude = [] ∧ ca.lorentz = [] := by
    have h := ia
    unfold Core.insertObject at h
    rw [paintObject_closed hc.wf.f s1, k1, hd] at h
    simp only [Except.ok_bind, Except.bind_ok, addPol, mapFind, mapInsert] at h
    obtain ⟨l, ⟨P, hP, hl'⟩, h⟩ := h
    rw [DebyePol.insert_closed (DebyePol.make_wf c.g m1)] at hP
    cases hP
    cases hl'
    cases h
    refine ⟨_, rfl, fun i j hi N h0 h1 => ⟨rfl, ?_⟩, hr, hl⟩
    show Tensor3.val (Tensor3.paint _ _ _ _) i j N = 0
    unfold Tensor3.paint Tensor3.setv
    simp only [hi]
    rw [if_neg (by simp)]
    rfl
  obtain ⟨Q, p1, p2, p5, p6⟩ := ex
  have h := ib
  unfold Core.insertObject at h
  rw [paintObject_closed sa.wf.f (by rw [ga]; exact s2), k2, p1, ga] at h
  simp only [Except.ok_bind, Except.bind_ok, addPol, mapFind, if_neg (Ne.symm hn)] at h
  obtain ⟨l, ⟨P, hP, hl'⟩, h⟩ := h
  rw [DebyePol.insert_closed (DebyePol.make_wf c.g m2)] at hP
  have hP := (Except.ok.inj hP).symm
  have hl' := (Except.ok.inj hl').symm
  have h := (Except.ok.inj h).symm
  refine ⟨cb, P, ?_, sb, gb.trans ga, ?_, by rw [hP]; rfl, by rw [hP]; exact fun _ _ _ => rfl, ?_, ?_⟩
  · unfold addAll
    rw [forList_cons, ia, Except.ok_bind, forList_cons, ib]; rfl
  · rw [(insertObject_parts ib).2.2.1, (insertObject_parts ia).2.2.1]
  · rw [f2.1, f1.1, ga]; rfl
  · intro i j i0 i1 j0 j1 hi hi1
    have md : HasMedium cb.f (.debye P.mat) cb.g.dt i j := by
      rw [f2.1, gb, ga, show P.mat = m2 from by rw [hP]; rfl]
      have := Flds.paint_hit (f := ca.f) (k := o2.mat.kind) (dt := c.g.dt) (D := scan c.g o2)
        (q := fun x y => o2.inside (c.g.toReal ⟨x, y⟩)) (cov i j i0 i1 j0 j1 hi) hi
      rw [k2] at this ⊢
      exact this
    have st : ∀ (N : ℕ) (h : N < P.mat.poles.length), P.beta.val i j N = P.mat.poles[N].beta cb.g.dt := by
      intro N hN
      rw [gb, ga]
      simp only [hP] at hN ⊢
      have hN' : N < m2.poles.length := hN
      have hm : (i, j) ∈ rect 0 c.g.Nx 0 c.g.Ny := mem_rect.mpr ⟨⟨i0, i1⟩, j0, j1⟩
      refine (Tensor3.paint_hit (N := (N : ℤ)) hm hi (by positivity) (show (N : ℤ) < (m2.poles.length : ℤ) by exact_mod_cast hN')).trans ?_
      simp [DebyePol.make, Arr.ofList, List.getD, List.getElem?_eq_getElem, hN']
    have q := p2 i j hi1
    have ed : cb.debye = l := by rw [h]
    by_cases lt : o2.mat.name < o1.mat.name
    · refine ⟨[], [(o1.mat.name, Q)], ?_, ?_, ?_, ?_, md, st⟩
      · rw [ed, hl']; simp [mapInsert, lt]
      · simpa using q
      · rw [h]; show ∀ q ∈ ca.drude, _; rw [p5]; simp
      · rw [h]; exact p6
    · refine ⟨[(o1.mat.name, Q)], [], ?_, ?_, ?_, ?_, md, st⟩
      · rw [ed, hl']; simp [mapInsert, lt]
      · simpa using q
      · rw [h]; show ∀ q ∈ ca.drude, _; rw [p5]; simp
      · rw [h]; exact p6

/-- **C61, what the code does**: of two Debye media with the same name, the first gives the poles for both. In a state without dispersive materials, the
fields at a node of the second object differ after one or two updates from those obtained when the media have different names, if the first update
changes the electric field there and the poles act differently. -/
theorem C61_same_name_effect (c : Core ℝ) (hc : c.Std) (hd : c.debye = []) (hr : c.drude = []) (hl : c.lorentz = [])
    (srcs : List (Source ℝ)) (hf : ∀ s ∈ srcs, Fits c.g s) (o1 o2 : Object ℝ) (n : String)
    (hsound : ∀ x ∈ [o1, o2], BoxSound x) (hclear : ∀ x ∈ [o1, o2], ClearOfUnguardedEdges c.g x)
    (m1 m2 : Debye ℝ) (k1 : o1.mat.kind = .debye m1) (k2 : o2.mat.kind = .debye m2) (hn : o2.mat.name = o1.mat.name) (hn' : n ≠ o1.mat.name)
    (i j : ℤ) (hb : Beyond c.g i j) (hu : Undriven c srcs i j) (hi : o2.inside (c.g.toReal ⟨i, j⟩) = true)
    (hi1 : o1.inside (c.g.toReal ⟨i, j⟩) = false) (hw : debyeWeight m1 c.g.dt ≠ debyeWeight m2 c.g.dt) :
    ∃ c1 c2, addAll [o1, o2] c = .ok c1 ∧ addAll [o1, { o2 with mat := { o2.mat with name := n } }] c = .ok c2 ∧ c1.f = c2.f ∧
      ∃ a1 b1 a2 b2 l1 l1' l2 l2', c1.run 1 srcs = .ok (a1, l1) ∧ c2.run 1 srcs = .ok (b1, l1') ∧ c1.run 2 srcs = .ok (a2, l2) ∧
        c2.run 2 srcs = .ok (b2, l2') ∧ b1.f.Ez.val i j - c.f.Ez.val i j = m2.Cb c.g.dt * curlH c.f c.g.dx i j ∧
        (b1.f.Ez.val i j ≠ c.f.Ez.val i j → a1.f = b1.f → a2.f.Ez.val i j ≠ b2.f.Ez.val i j) := by
  obtain ⟨i0, i1, j0, j1⟩ := Beyond_mem hc.thick hb
  have s1 : o1.Safe c.g := safe_of_clear hc.law (hclear o1 (by simp))
  have s2 : o2.Safe c.g := safe_of_clear hc.law (hclear o2 (by simp))
  have cov : o2.Covered c.g := covered_of_sound hc.law (hsound o2 (by simp))
  obtain ⟨A, P, a1, a2, a3, a4, a5, a6, a7, a8, a9, -, a11, a12⟩ := sameName hc hd hr hl s1 s2 cov k1 k2 hn
  obtain ⟨B, Q, b1, b2, b3, b4, b5, b6, b7, b8⟩ := otherName hc hd hr hl (o2 := { o2 with mat := { o2.mat with name := n } }) s1 s2 cov k1 k2 hn'
  obtain ⟨med, str⟩ := a12 i j i0 i1 j0 j1 hi
  obtain ⟨bb, ba, hin⟩ := b8 i j i0 i1 j0 j1 hi hi1
  have fAB : A.f = B.f := by rw [a11, b7]; rfl
  have EA : A.f.Ez = c.f.Ez := by rw [a11]; rfl
  have CA : curlH A.f A.g.dx i j = curlH c.f c.g.dx i j := by rw [a11, a3]; rfl
  have uA : Undriven A srcs i j := ⟨by rw [a3]; exact hu.src, by rw [a4]; exact hu.tfsf⟩
  have uB : Undriven B srcs i j := ⟨by rw [b3]; exact hu.src, by rw [b4]; exact hu.tfsf⟩
  obtain ⟨A1, kA, _, _, _, _, uA1, SA⟩ := Core.update_step a2 srcs (by rw [a3]; exact hf)
  obtain ⟨A2, kA2, _, _, _, _, uA2, SA2⟩ := Core.update_step SA.std kA SA.fits
  obtain ⟨B1, kB, _, _, _, _, uB1, SB⟩ := Core.update_step b2 srcs (by rw [b3]; exact hf)
  obtain ⟨B2, kB2, _, _, _, _, uB2, SB2⟩ := Core.update_step SB.std kB SB.fits
  have bA : Beyond A.g i j := by rw [a3]; exact hb
  have bB : Beyond B.g i j := by rw [b3]; exact hb
  obtain ⟨P1, q1, q2, q3, q4, q5, q6⟩ := SA.overDebye a2 bA uA a5 a6 a7
  obtain ⟨P2, -, -, -, -, t5, -⟩ := SA2.overDebye SA.std (by rw [SA.g]; exact bA) (SA.undriven a2 uA) q1 q2 q3
  obtain ⟨Q1, b', a', in1, -, r4, r5, r6⟩ := SB.inDebye b2 bB uB hin
  obtain ⟨Q2, _, _, -, -, -, w5, -⟩ := SB2.inDebye SB.std (by rw [SB.g]; exact bB) (SB.undriven b2 uB) in1
  have zP : ∀ M : ℕ, P.J.val i j M = 0 := fun M => a9 i j M
  have zQ : ∀ M : ℕ, Q.J.val i j M = 0 := fun M => b6 i j M
  simp only [zP, mul_zero, Finset.sum_const_zero, sub_zero, zero_add] at q5 q6
  simp only [zQ, mul_zero, Finset.sum_const_zero, sub_zero, zero_add] at r5 r6
  have EB1 : B1.f.Ez.val i j - c.f.Ez.val i j = m2.Cb c.g.dt * curlH c.f c.g.dx i j := by
    rw [r5, b5, b3, ← fAB, EA]
    rw [show curlH A.f c.g.dx i j = curlH c.f c.g.dx i j from by rw [← a3] ; exact CA.trans (by rw [a3])]
    ring
  refine ⟨A, B, a1, b1, fAB, A1, B1, A2, B2, kA, kB, kA2, kB2, ?_, ?_, ?_, ?_, EB1, ?_⟩
  · unfold Core.run; rw [uA1]; rfl
  · unfold Core.run; rw [uB1]; rfl
  · unfold Core.run; rw [uA1]; simp only [Except.ok_bind]; unfold Core.run; rw [uA2]; rfl
  · unfold Core.run; rw [uB1]; simp only [Except.ok_bind]; unfold Core.run; rw [uB2]; rfl
  · intro hne e1 e2
    have E0 : B.f.Ez.val i j = c.f.Ez.val i j := by rw [← fAB, EA]
    have hA : ∀ N : ℕ, N < m1.poles.length → P1.J.val i j N =
        (Arr.ofList (m1.poles.map (·.beta c.g.dt))).val N / c.g.dt * (B1.f.Ez.val i j - c.f.Ez.val i j) := by
      intro N hN
      have := q6 N (by rw [a8]; exact hN)
      rw [← q5, e1, str N hN, a3, EA] at this
      exact this
    have hB : ∀ N : ℕ, N < m2.poles.length → Q1.J.val i j N =
        (Arr.ofList (m2.poles.map (·.beta c.g.dt))).val N / c.g.dt * (B1.f.Ez.val i j - c.f.Ez.val i j) := by
      intro N hN
      have hN' : N < Q.mat.poles.length := by rw [b5]; exact hN
      have := r6 N hN'
      rw [← r5, hin.strength N hN', b3, E0] at this
      rw [this, arr_val _ _ _ hN]
      simp only [b5]
    have sA : ∑ M ∈ Finset.range m1.poles.length, (1 + (Arr.ofList (m1.poles.map (·.kappa c.g.dt))).val M) * P1.J.val i j M
        = (∑ M ∈ Finset.range m1.poles.length, (1 + (Arr.ofList (m1.poles.map (·.kappa c.g.dt))).val M) *
          ((Arr.ofList (m1.poles.map (·.beta c.g.dt))).val M / c.g.dt)) * (B1.f.Ez.val i j - c.f.Ez.val i j) := by
      rw [Finset.sum_mul]
      exact Finset.sum_congr rfl fun N hN => by rw [hA N (Finset.mem_range.mp hN)]; ring
    have sB : ∑ M ∈ Finset.range m2.poles.length, (1 + (Arr.ofList (m2.poles.map (·.kappa c.g.dt))).val M) * Q1.J.val i j M
        = (∑ M ∈ Finset.range m2.poles.length, (1 + (Arr.ofList (m2.poles.map (·.kappa c.g.dt))).val M) *
          ((Arr.ofList (m2.poles.map (·.beta c.g.dt))).val M / c.g.dt)) * (B1.f.Ez.val i j - c.f.Ez.val i j) := by
      rw [Finset.sum_mul]
      exact Finset.sum_congr rfl fun N hN => by rw [hB N (Finset.mem_range.mp hN)]; ring
    have gA : A1.g = c.g := by rw [SA.g, a3]
    have gB : B1.g = c.g := by rw [SB.g, b3]
    rw [t5, w5, gA, gB, q4, a8, r4, b5, sA, sB, e1] at e2
    have mc := in1.medium
    rw [r4, b5, gB] at mc
    have ca : (MatKind.debye m2).Ca c.g.dt = 1 := by simp [MatKind.Ca, Debye.Ca]
    rw [mc.Ca, mc.Cb, ca, show (MatKind.debye m2).Cb c.g.dt = m2.Cb c.g.dt from rfl] at e2
    refine hw (mul_right_cancel₀ (sub_ne_zero.mpr hne) ?_)
    unfold debyeWeight
    linarith

theorem no_weight (e dt : ℝ) : debyeWeight ⟨e, []⟩ dt = 0 := by simp [debyeWeight]

theorem weight_pos {m : Debye ℝ} {dt : ℝ} (hdt : 0 < dt) (hm : DebyePhysical m) (hr : ∃ p ∈ m.poles, 0 < p.dEps) : debyeWeight m dt ≠ 0 := by
  have := debye_weights (x := 1) hdt hm hr one_ne_zero
  simpa [debyeWeight] using this

/-- **C61 is false**: two discs of Debye media, the first without poles, with the same name or with different names. -/
theorem C61_false : ¬ C61_statement := by
  intro H
  obtain ⟨c, hc, hg, hd, hr, hl, hu, hE, hcurl⟩ := kicked
  have sound : ∀ x ∈ [disc ⟨"a", .debye ⟨1, []⟩⟩ 6 10, disc ⟨"a", .debye twoDebye⟩ 10 10], BoxSound x := by simp [disc_sound]
  have clear : ∀ x ∈ [disc ⟨"a", .debye ⟨1, []⟩⟩ 6 10, disc ⟨"a", .debye twoDebye⟩ 10 10], ClearOfUnguardedEdges c.g x := by
    rw [hg]
    intro o ho
    simp only [List.mem_cons, List.not_mem_nil, or_false] at ho
    rcases ho with rfl | rfl <;> exact disc_clear _ (by norm_num) (by norm_num)
  have hw : debyeWeight (⟨1, []⟩ : Debye ℝ) c.g.dt ≠ debyeWeight twoDebye c.g.dt := by
    rw [no_weight]
    exact (weight_pos hc.dt_pos twoDebye_phys ⟨⟨1, 1⟩, by simp [twoDebye], by norm_num⟩).symm
  have out : (disc ⟨"a", .debye ⟨1, []⟩⟩ 6 10).inside (c.g.toReal ⟨10, 10⟩) = false := by
    rw [hg, Bool.eq_false_iff, ne_eq, disc_inside]
    simp only [Grid.toReal, gEx_dx, ofInt_real]
    norm_num
  obtain ⟨c1, c2, h1, h2, -, a1, b1, a2, b2, l1, l1', l2, l2', r1, r2, r3, r4, x, E⟩ := C61_same_name_effect c hc hd hr hl [] (by simp)
    (disc ⟨"a", .debye ⟨1, []⟩⟩ 6 10) (disc ⟨"a", .debye twoDebye⟩ 10 10) "b" sound clear _ _ rfl rfl rfl (by decide) 10 10
    (by rw [hg]; exact gEx_beyond (by norm_num) (by norm_num) (by norm_num) (by norm_num)) hu (by rw [hg]; exact disc_center _) out hw
  have ren : List.Forall₂ (Renamed fun _ _ => True) [disc ⟨"a", .debye ⟨1, []⟩⟩ 6 10, disc ⟨"a", .debye twoDebye⟩ 10 10]
      [disc ⟨"a", .debye ⟨1, []⟩⟩ 6 10, { disc ⟨"a", .debye twoDebye⟩ 10 10 with mat := ⟨"b", .debye twoDebye⟩ }] :=
    .cons ⟨rfl, Or.inr trivial⟩ (.cons ⟨rfl, Or.inr trivial⟩ .nil)
  have e1 := H c hc [] (by simp) _ _ sound clear ren 1 c1 c2 a1 b1 l1 l1' h1 h2 r1 r2
  have e2 := H c hc [] (by simp) _ _ sound clear ren 2 c1 c2 a2 b2 l2 l2' h1 h2 r3 r4
  refine E (fun h => ?_) e1 (by rw [e2])
  rw [h, sub_self, hcurl, mul_one] at x
  have : 0 < twoDebye.Cb c.g.dt := by
    have := debye_den_pos hc.dt_pos twoDebye_phys.1 twoDebye_phys.2
    have := hc.dt_pos
    simp only [Debye.Cb, ofInt_real, arr_sum]
    push_cast
    positivity
  exact absurd x (ne_of_lt this)

/-- Non-dispersive materials can have any names: no correspondence is needed. -/
theorem C61_plain_any {K : Type} [Scalar K] (now : ℕ → ℝ) (g : Grid K) (fn : String) (s0 : Sim K) (h0 : Sim.make now g fn = .ok s0)
    (ops ops' : List (Op K)) (hops : List.Forall₂ (RenamedOp fun _ _ => False) ops ops') (s : Sim K) (h : s0.run now ops = .ok s) :
    ∃ s', s0.run now ops' = .ok s' ∧ s'.core.f = s.core.f :=
  let ⟨s', h1, h2, _⟩ := (C61_names_partial (fun _ _ => False) (fun _ _ _ _ h => h.elim) now g fn s0 h0 ops ops' hops).2 s h
  ⟨s', h1, h2⟩

/-- The hypotheses of `C61_names_partial`: two Debye media called a and b, renamed to gold and silver, and glass renamed to water. -/
example : KeepsOrder (fun a a' => (a = "a" ∧ a' = "gold") ∨ (a = "b" ∧ a' = "silver")) ∧
    List.Forall₂ (RenamedOp fun a a' => (a = "a" ∧ a' = "gold") ∨ (a = "b" ∧ a' = "silver"))
      [.addObject (disc ⟨"a", .debye twoDebye⟩ 5 5), .addObject (disc ⟨"b", .debye ⟨1, []⟩⟩ 10 10), .addObject (disc ⟨"glass", .simple ⟨2, 1, 0⟩⟩ 10 10), .update]
      [.addObject (disc ⟨"gold", .debye twoDebye⟩ 5 5), .addObject (disc ⟨"silver", .debye ⟨1, []⟩⟩ 10 10), .addObject (disc ⟨"water", .simple ⟨2, 1, 0⟩⟩ 10 10), .update] := by
  refine ⟨?_, .cons (.object ⟨rfl, Or.inr (Or.inl ⟨rfl, rfl⟩)⟩) (.cons (.object ⟨rfl, Or.inr (Or.inr ⟨rfl, rfl⟩)⟩)
    (.cons (.object ⟨rfl, Or.inl ⟨_, rfl⟩⟩) (.cons (.same (by simp)) .nil)))⟩
  rintro a a' b b' (⟨rfl, rfl⟩ | ⟨rfl, rfl⟩) (⟨rfl, rfl⟩ | ⟨rfl, rfl⟩) <;> decide

end Qbox.Props
