import Verif.Lemmas.Cover
import Verif.Props.MediumProps

/-!
# C60: objects covered by later ones
-/

namespace Qbox.Props
open Qbox Scalar Spec

/-- The result of adding objects one after the other. -/
def addAll {K : Type} [Scalar K] (l : List (Object K)) (c : Core K) : M (Core K) := forList l c (fun o c => c.insertObject o)

/-- **C60** in full: an object hidden completely by later ones has no effect on the fields. False, see `C60_false`. -/
def C60_statement : Prop :=
  ∀ (c : Core ℝ) (_ : c.Std) (srcs : List (Source ℝ)) (_ : ∀ s ∈ srcs, Fits c.g s) (o : Object ℝ) (l : List (Object ℝ))
    (_ : ∀ x ∈ o :: l, BoxSound x) (_ : ∀ x ∈ o :: l, ClearOfUnguardedEdges c.g x) (_ : Hides c.g l o) (n : ℕ) (c1 c2 d1 d2 : Core ℝ)
    (k1 k2 : List (Source ℝ)), addAll (o :: l) c = .ok c1 → addAll l c = .ok c2 → c1.run n srcs = .ok (d1, k1) →
      c2.run n srcs = .ok (d2, k2) → d1.f = d2.f

/-- **C60** for any scalar type and any history before and after: if the hidden object has a material without memory, the simulation is in the
very same state as if it had never been added. -/
theorem C60_plain_any {K : Type} [Scalar K] (c : Core K) (hc : c.WF) (o : Object K) (l : List (Object K)) (hs : ∀ x ∈ o :: l, x.Safe c.g)
    (hcov : ∀ x ∈ l, x.Covered c.g) (hh : Hides c.g l o) (hp : Plain o) : ∃ c', addAll (o :: l) c = .ok c' ∧ addAll l c = .ok c' := by
  obtain ⟨c', h1, -⟩ := insertAll_ok l hc (fun x hx => hs x (by simp [hx]))
  refine ⟨c', ?_, h1⟩
  obtain ⟨m, hm⟩ := hp
  have h2 : c.insertObject o = .ok { c with f := c.f.paint o.mat.kind c.g.dt (fun x y => o.inside (c.g.toReal ⟨x, y⟩)) (scan c.g o) } := by
    unfold Core.insertObject
    rw [paintObject_closed hc.f (hs o (by simp)), Except.ok_bind, hm]; rfl
  unfold addAll
  rw [forList_cons, h2, Except.ok_bind, insertAll_other l hc.f (Flds.paint_dims hc.f _ _ _ _) rfl (fun x hx => hs x (by simp [hx])) h1]
  have e := paintAll_hidden (hs o (by simp)) hcov hh c.f
  rw [show paintAll c.g l (c.f.paint o.mat.kind c.g.dt (fun x y => o.inside (c.g.toReal ⟨x, y⟩)) (scan c.g o)) = paintAll c.g l c.f from e]
  rw [← (insertAll_f l hc.f (fun x hx => hs x (by simp [hx])) h1).1]

/-- What is missing from C60: hidden objects of dispersive materials, for which it is false. -/
theorem C60_hidden_partial (c : Core ℝ) (hc : c.Std) (o : Object ℝ) (l : List (Object ℝ)) (hsound : ∀ x ∈ o :: l, BoxSound x)
    (hs : ∀ x ∈ o :: l, ClearOfUnguardedEdges c.g x) (hh : Hides c.g l o) (hp : Plain o) :
    ∃ c', addAll (o :: l) c = .ok c' ∧ addAll l c = .ok c' :=
  C60_plain_any c hc.wf o l (fun x hx => safe_of_clear hc.law (hs x hx)) (fun x hx => covered_of_sound hc.law (hsound x (by simp [hx]))) hh hp

theorem debye_weights {m : Debye ℝ} {dt x : ℝ} (hdt : 0 < dt) (hm : DebyePhysical m) (hr : ∃ p ∈ m.poles, 0 < p.dEps) (hx : x ≠ 0) :
    m.Cb dt / 2 * ∑ M ∈ Finset.range m.poles.length,
      (1 + (Arr.ofList (m.poles.map (·.kappa dt))).val M) * ((Arr.ofList (m.poles.map (·.beta dt))).val M / dt * x) ≠ 0 := by
  have hk : ∀ N (h : N < m.poles.length), 0 < 1 + m.poles[N].kappa dt := by
    intro N h
    obtain ⟨h1, h2⟩ := hm.2 _ (List.getElem_mem h)
    simp only [DebyePole.kappa, ofInt_real]
    have : (0 : ℝ) < 1 + dt / ((2 : ℤ) * m.poles[N].tau) := by positivity
    have e : (1 : ℝ) + (1 - dt / ((2 : ℤ) * m.poles[N].tau)) / (1 + dt / ((2 : ℤ) * m.poles[N].tau)) = 2 / (1 + dt / ((2 : ℤ) * m.poles[N].tau)) := by
      field_simp; ring
    rw [e]; positivity
  have hsum : 0 < ∑ M ∈ Finset.range m.poles.length,
      (1 + (Arr.ofList (m.poles.map (·.kappa dt))).val M) * ((Arr.ofList (m.poles.map (·.beta dt))).val M / dt) := by
    obtain ⟨p, hp, hpos⟩ := hr
    obtain ⟨k, hk', rfl⟩ := List.mem_iff_getElem.mp hp
    refine Finset.sum_pos' ?_ ⟨k, Finset.mem_range.mpr hk', ?_⟩
    · intro N hN
      rw [Finset.mem_range] at hN
      rw [arr_val _ _ _ hN, arr_val _ _ _ hN]
      have := hk N hN
      have := debye_beta_nonneg hdt (hm.2 _ (List.getElem_mem hN)).1 (hm.2 _ (List.getElem_mem hN)).2
      positivity
    · rw [arr_val _ _ _ hk', arr_val _ _ _ hk']
      have := hk k hk'
      have ht := (hm.2 _ (List.getElem_mem hk')).1
      have : 0 < m.poles[k].beta dt := by simp only [DebyePole.beta, ofInt_real]; positivity
      positivity
  have hcb : 0 < m.Cb dt := by
    have := debye_den_pos hdt hm.1 hm.2
    simp only [Debye.Cb, ofInt_real, arr_sum]
    push_cast
    positivity
  have e : ∑ M ∈ Finset.range m.poles.length,
      (1 + (Arr.ofList (m.poles.map (·.kappa dt))).val M) * ((Arr.ofList (m.poles.map (·.beta dt))).val M / dt * x)
      = (∑ M ∈ Finset.range m.poles.length,
      (1 + (Arr.ofList (m.poles.map (·.kappa dt))).val M) * ((Arr.ofList (m.poles.map (·.beta dt))).val M / dt)) * x := by
    rw [Finset.sum_mul]; refine Finset.sum_congr rfl fun _ _ => by ring
  rw [e]
  positivity

/-- **C60, what the code does**: a hidden object of a Debye medium still acts. In a state without dispersive materials, hide such an object by objects
without memory. If the first update changes the electric field at a node of the hidden object, the fields of the simulations with and without the
hidden object differ after one or two updates. -/
theorem C60_debye_effect (c : Core ℝ) (hc : c.Std) (hd : c.debye = []) (hr : c.drude = []) (hl : c.lorentz = [])
    (srcs : List (Source ℝ)) (hf : ∀ s ∈ srcs, Fits c.g s) (o : Object ℝ) (l : List (Object ℝ))
    (hsound : ∀ x ∈ o :: l, BoxSound x) (hclear : ∀ x ∈ o :: l, ClearOfUnguardedEdges c.g x) (hh : Hides c.g l o) (hp : ∀ x ∈ l, Plain x)
    (m : Debye ℝ) (hm : o.mat.kind = .debye m) (hphys : DebyePhysical m) (hres : ∃ p ∈ m.poles, 0 < p.dEps)
    (i j : ℤ) (hb : Beyond c.g i j) (hu : Undriven c srcs i j) (hi : o.inside (c.g.toReal ⟨i, j⟩) = true) :
    ∃ c1 c2, addAll (o :: l) c = .ok c1 ∧ addAll l c = .ok c2 ∧ c1.f = c2.f ∧
      ∃ a1 b1 a2 b2 k1 k1' k2 k2', c1.run 1 srcs = .ok (a1, k1) ∧ c2.run 1 srcs = .ok (b1, k1') ∧ c1.run 2 srcs = .ok (a2, k2) ∧
        c2.run 2 srcs = .ok (b2, k2') ∧ (b1.f.Ez.val i j ≠ c.f.Ez.val i j → a1.f = b1.f → a2.f.Ez.val i j ≠ b2.f.Ez.val i j) := by
  obtain ⟨i0, i1, j0, j1⟩ := Beyond_mem hc.thick hb
  have safe : ∀ x ∈ o :: l, x.Safe c.g := fun x hx => safe_of_clear hc.law (hclear x hx)
  have cov : ∀ x ∈ o :: l, x.Covered c.g := fun x hx => covered_of_sound hc.law (hsound x hx)
  have h2 := insertAll_plain l hc.wf.f (fun x hx => safe x (by simp [hx])) hp
  obtain ⟨co, ho, so, go⟩ := hc.insertObject (safe o (by simp))
  obtain ⟨P, p1, p2, -, p4⟩ := firstDebye hc.wf.f (safe o (by simp)) (cov o (by simp)) hm hd hr hl ho
  have hin := p4 i j i0 i1 j0 j1 hi
  obtain ⟨f1, -⟩ := insertObject_f hc.wf.f (safe o (by simp)) ho
  have h1 := insertAll_plain l (c := co) so.wf.f (by rw [go]; exact fun x hx => safe x (by simp [hx])) hp
  have ef : paintAll co.g l co.f = paintAll c.g l c.f := by
    rw [go, f1]
    exact paintAll_hidden (safe o (by simp)) (fun x hx => cov x (by simp [hx])) hh c.f
  have s2 : addAll l c = .ok { c with f := paintAll c.g l c.f } := h2
  have s1 : addAll (o :: l) c = .ok { co with f := paintAll co.g l co.f } := by
    unfold addAll; rw [forList_cons, ho, Except.ok_bind, h1]
  obtain ⟨x1, y1, w1, g1⟩ := insertAll_ok l (c := co) so.wf (by rw [go]; exact fun x hx => safe x (by simp [hx]))
  rw [h1] at y1; cases y1
  obtain ⟨x2, y2, w2, g2⟩ := insertAll_ok l (c := c) hc.wf (fun x hx => safe x (by simp [hx]))
  rw [h2] at y2; cases y2
  have std1 : ({ co with f := paintAll co.g l co.f } : Core ℝ).Std := so.of_same w1 rfl rfl rfl rfl
  have std2 : ({ c with f := paintAll c.g l c.f } : Core ℝ).Std := hc.of_same w2 rfl rfl rfl rfl
  generalize hA : ({ co with f := paintAll co.g l co.f } : Core ℝ) = A at *
  generalize hB : ({ c with f := paintAll c.g l c.f } : Core ℝ) = B at *
  have gA : A.g = c.g := by rw [← hA]; exact go
  have gB : B.g = c.g := by rw [← hB]
  have fAB : A.f = B.f := by rw [← hA, ← hB]; exact ef
  have EB : B.f.Ez = c.f.Ez := by rw [← hB]; exact (paintAll_rest c.g l c.f).1
  have dA : A.debye = [(o.mat.name, P)] := by rw [← hA]; exact hin.entry
  have rA : A.drude = [] := by
    rw [← hA]
    show co.drude = []
    unfold Core.insertObject at ho
    rw [paintObject_closed hc.wf.f (safe o (by simp)), Except.ok_bind, hm] at ho
    simp only [Except.bind_ok] at ho
    obtain ⟨_, -, ho⟩ := ho
    cases ho; exact hr
  have lA : A.lorentz = [] := by rw [← hA]; exact hin.lorentz
  have uA : Undriven A srcs i j := by
    refine ⟨by rw [gA]; exact hu.src, ?_⟩
    rw [← hA]
    show ∀ w, co.tfsf = some w → _
    rw [(insertObject_parts ho).2.2.1]; exact hu.tfsf
  have uB : Undriven B srcs i j := by
    refine ⟨by rw [gB]; exact hu.src, ?_⟩
    rw [← hB]; exact hu.tfsf
  have dB : B.debye = [] := by rw [← hB]; exact hd
  have rB : B.drude = [] := by rw [← hB]; exact hr
  have lB : B.lorentz = [] := by rw [← hB]; exact hl
  obtain ⟨A1, kA, _, _, _, _, uA1, SA⟩ := Core.update_step std1 srcs (by rw [gA]; exact hf)
  obtain ⟨A2, kA2, _, _, _, _, uA2, SA2⟩ := Core.update_step SA.std kA SA.fits
  obtain ⟨B1, kB, _, _, _, _, uB1, SB⟩ := Core.update_step std2 srcs (by rw [gB]; exact hf)
  obtain ⟨B2, kB2, _, _, _, _, uB2, SB2⟩ := Core.update_step SB.std kB SB.fits
  have bA : Beyond A.g i j := by rw [gA]; exact hb
  have bB : Beyond B.g i j := by rw [gB]; exact hb
  obtain ⟨P1, q1, q2, q3, q4, q5, q6⟩ := SA.overDebye std1 bA uA dA rA lA
  obtain ⟨P2, -, -, -, -, t5, -⟩ := SA2.overDebye SA.std (by rw [SA.g]; exact bA) (SA.undriven std1 uA) q1 q2 q3
  obtain ⟨n1, n2, n3, n4⟩ := SB.overNone std2 bB uB rB dB lB
  obtain ⟨-, -, -, o4⟩ := SB2.overNone SB.std (by rw [SB.g]; exact bB) (SB.undriven std2 uB) n2 n1 n3
  refine ⟨A, B, s1, s2, fAB, A1, B1, A2, B2, kA, kB, kA2, kB2, ?_, ?_, ?_, ?_, ?_⟩
  · unfold Core.run; rw [uA1]; rfl
  · unfold Core.run; rw [uB1]; rfl
  · unfold Core.run; rw [uA1]; simp only [Except.ok_bind]; unfold Core.run; rw [uA2]; rfl
  · unfold Core.run; rw [uB1]; simp only [Except.ok_bind]; unfold Core.run; rw [uB2]; rfl
  · intro hne e1 e2
    rw [t5, o4, e1, SA.g, SB.g, gA, gB, q4, p1] at e2
    have hJ : ∀ N : ℕ, N < m.poles.length → P1.J.val i j N =
        (Arr.ofList (m.poles.map (·.beta c.g.dt))).val N / c.g.dt * (B1.f.Ez.val i j - c.f.Ez.val i j) := by
      intro N hN
      have := q6 N (by rw [p1]; exact hN)
      rw [this, n4, gA, gB, fAB, EB]
      have hstr := hin.strength N (by rw [p1]; exact hN)
      rw [go] at hstr
      have hz : ∀ M : ℕ, P.J.val i j M = 0 := fun M => p2 i j M
      simp only [hz, mul_zero, Finset.sum_const_zero, sub_zero, zero_add]
      rw [hstr, arr_val _ _ _ hN]
      simp only [p1]
    have hs : ∑ M ∈ Finset.range m.poles.length, (1 + (Arr.ofList (m.poles.map (·.kappa c.g.dt))).val M) * P1.J.val i j M
        = ∑ M ∈ Finset.range m.poles.length, (1 + (Arr.ofList (m.poles.map (·.kappa c.g.dt))).val M) *
          ((Arr.ofList (m.poles.map (·.beta c.g.dt))).val M / c.g.dt * (B1.f.Ez.val i j - c.f.Ez.val i j)) :=
      Finset.sum_congr rfl fun N hN => by rw [hJ N (Finset.mem_range.mp hN)]
    rw [hs] at e2
    refine debye_weights (m := m) hc.dt_pos hphys hres (sub_ne_zero.mpr hne) ?_
    linarith

theorem drude_weights {m : Drude ℝ} {dt x : ℝ} (hdt : 0 < dt) (hm : DrudePhysical m) (hr : ∃ p ∈ m.poles, p.omega ≠ 0) (hx : x ≠ 0) :
    m.Cb dt / 2 * ∑ M ∈ Finset.range m.poles.length,
      (1 + (Arr.ofList (m.poles.map (·.kappa dt))).val M) * ((Arr.ofList (m.poles.map (·.beta dt))).val M * x) ≠ 0 := by
  have hk : ∀ N (h : N < m.poles.length), 0 < 1 + m.poles[N].kappa dt := by
    intro N h
    have h1 := hm.2 _ (List.getElem_mem h)
    simp only [DrudePole.kappa, ofInt_real]
    have : (0 : ℝ) < 1 + m.poles[N].gamma * dt / (2 : ℤ) := by positivity
    have e : (1 : ℝ) + (1 - m.poles[N].gamma * dt / (2 : ℤ)) / (1 + m.poles[N].gamma * dt / (2 : ℤ)) = 2 / (1 + m.poles[N].gamma * dt / (2 : ℤ)) := by
      field_simp; ring
    rw [e]; positivity
  have hbn : ∀ N (h : N < m.poles.length), 0 ≤ m.poles[N].beta dt := by
    intro N h
    have h1 := hm.2 _ (List.getElem_mem h)
    simp only [DrudePole.beta, ofInt_real, npow_real]; positivity
  have hsum : 0 < ∑ M ∈ Finset.range m.poles.length,
      (1 + (Arr.ofList (m.poles.map (·.kappa dt))).val M) * ((Arr.ofList (m.poles.map (·.beta dt))).val M) := by
    obtain ⟨p, hp, hpos⟩ := hr
    obtain ⟨k, hk', rfl⟩ := List.mem_iff_getElem.mp hp
    refine Finset.sum_pos' ?_ ⟨k, Finset.mem_range.mpr hk', ?_⟩
    · intro N hN
      rw [Finset.mem_range] at hN
      rw [arr_val _ _ _ hN, arr_val _ _ _ hN]
      have := hk N hN
      have := hbn N hN
      positivity
    · rw [arr_val _ _ _ hk', arr_val _ _ _ hk']
      have := hk k hk'
      have ht := hm.2 _ (List.getElem_mem hk')
      have : 0 < m.poles[k].beta dt := by simp only [DrudePole.beta, ofInt_real, npow_real]; positivity
      positivity
  have hcb : 0 < m.Cb dt := by
    have h0 : 0 ≤ ∑ N ∈ Finset.range m.poles.length, (Arr.ofList (m.poles.map (·.beta dt))).val N :=
      Finset.sum_nonneg fun N hN => by rw [arr_val _ _ _ (Finset.mem_range.mp hN)]; exact hbn N _
    have := hm.1
    simp only [Drude.Cb, ofInt_real, arr_sum]
    push_cast
    positivity
  have e : ∑ M ∈ Finset.range m.poles.length,
      (1 + (Arr.ofList (m.poles.map (·.kappa dt))).val M) * ((Arr.ofList (m.poles.map (·.beta dt))).val M * x)
      = (∑ M ∈ Finset.range m.poles.length,
      (1 + (Arr.ofList (m.poles.map (·.kappa dt))).val M) * ((Arr.ofList (m.poles.map (·.beta dt))).val M)) * x := by
    rw [Finset.sum_mul]; refine Finset.sum_congr rfl fun _ _ => by ring
  rw [e]
  positivity

/-- The same for a hidden object of a Drude medium, if the sum of the fields before and after the first update is not zero. -/
theorem C60_drude_effect (c : Core ℝ) (hc : c.Std) (hd : c.debye = []) (hr : c.drude = []) (hl : c.lorentz = [])
    (srcs : List (Source ℝ)) (hf : ∀ s ∈ srcs, Fits c.g s) (o : Object ℝ) (l : List (Object ℝ))
    (hsound : ∀ x ∈ o :: l, BoxSound x) (hclear : ∀ x ∈ o :: l, ClearOfUnguardedEdges c.g x) (hh : Hides c.g l o) (hp : ∀ x ∈ l, Plain x)
    (m : Drude ℝ) (hm : o.mat.kind = .drude m) (hphys : DrudePhysical m) (hres : ∃ p ∈ m.poles, p.omega ≠ 0)
    (i j : ℤ) (hb : Beyond c.g i j) (hu : Undriven c srcs i j) (hi : o.inside (c.g.toReal ⟨i, j⟩) = true) :
    ∃ c1 c2, addAll (o :: l) c = .ok c1 ∧ addAll l c = .ok c2 ∧ c1.f = c2.f ∧
      ∃ a1 b1 a2 b2 k1 k1' k2 k2', c1.run 1 srcs = .ok (a1, k1) ∧ c2.run 1 srcs = .ok (b1, k1') ∧ c1.run 2 srcs = .ok (a2, k2) ∧
        c2.run 2 srcs = .ok (b2, k2') ∧ (b1.f.Ez.val i j + c.f.Ez.val i j ≠ 0 → a1.f = b1.f → a2.f.Ez.val i j ≠ b2.f.Ez.val i j) := by
  obtain ⟨i0, i1, j0, j1⟩ := Beyond_mem hc.thick hb
  have safe : ∀ x ∈ o :: l, x.Safe c.g := fun x hx => safe_of_clear hc.law (hclear x hx)
  have cov : ∀ x ∈ o :: l, x.Covered c.g := fun x hx => covered_of_sound hc.law (hsound x hx)
  have h2 := insertAll_plain l hc.wf.f (fun x hx => safe x (by simp [hx])) hp
  obtain ⟨co, ho, so, go⟩ := hc.insertObject (safe o (by simp))
  obtain ⟨P, p1, p2, -, p4⟩ := firstDrude hc.wf.f (safe o (by simp)) (cov o (by simp)) hm hd hr hl ho
  have hin := p4 i j i0 i1 j0 j1 hi
  obtain ⟨f1, -⟩ := insertObject_f hc.wf.f (safe o (by simp)) ho
  have h1 := insertAll_plain l (c := co) so.wf.f (by rw [go]; exact fun x hx => safe x (by simp [hx])) hp
  have ef : paintAll co.g l co.f = paintAll c.g l c.f := by
    rw [go, f1]
    exact paintAll_hidden (safe o (by simp)) (fun x hx => cov x (by simp [hx])) hh c.f
  have s2 : addAll l c = .ok { c with f := paintAll c.g l c.f } := h2
  have s1 : addAll (o :: l) c = .ok { co with f := paintAll co.g l co.f } := by
    unfold addAll; rw [forList_cons, ho, Except.ok_bind, h1]
  obtain ⟨x1, y1, w1, g1⟩ := insertAll_ok l (c := co) so.wf (by rw [go]; exact fun x hx => safe x (by simp [hx]))
  rw [h1] at y1; cases y1
  obtain ⟨x2, y2, w2, g2⟩ := insertAll_ok l (c := c) hc.wf (fun x hx => safe x (by simp [hx]))
  rw [h2] at y2; cases y2
  have std1 : ({ co with f := paintAll co.g l co.f } : Core ℝ).Std := so.of_same w1 rfl rfl rfl rfl
  have std2 : ({ c with f := paintAll c.g l c.f } : Core ℝ).Std := hc.of_same w2 rfl rfl rfl rfl
  generalize hA : ({ co with f := paintAll co.g l co.f } : Core ℝ) = A at *
  generalize hB : ({ c with f := paintAll c.g l c.f } : Core ℝ) = B at *
  have gA : A.g = c.g := by rw [← hA]; exact go
  have gB : B.g = c.g := by rw [← hB]
  have fAB : A.f = B.f := by rw [← hA, ← hB]; exact ef
  have EB : B.f.Ez = c.f.Ez := by rw [← hB]; exact (paintAll_rest c.g l c.f).1
  have dA : A.drude = [(o.mat.name, P)] := by rw [← hA]; exact hin.entry
  have rA : A.debye = [] := by
    rw [← hA]
    show co.debye = []
    unfold Core.insertObject at ho
    rw [paintObject_closed hc.wf.f (safe o (by simp)), Except.ok_bind, hm] at ho
    simp only [Except.bind_ok] at ho
    obtain ⟨_, -, ho⟩ := ho
    cases ho; exact hd
  have lA : A.lorentz = [] := by rw [← hA]; exact hin.lorentz
  have uA : Undriven A srcs i j := by
    refine ⟨by rw [gA]; exact hu.src, ?_⟩
    rw [← hA]
    show ∀ w, co.tfsf = some w → _
    rw [(insertObject_parts ho).2.2.1]; exact hu.tfsf
  have uB : Undriven B srcs i j := by
    refine ⟨by rw [gB]; exact hu.src, ?_⟩
    rw [← hB]; exact hu.tfsf
  have dB : B.debye = [] := by rw [← hB]; exact hd
  have rB : B.drude = [] := by rw [← hB]; exact hr
  have lB : B.lorentz = [] := by rw [← hB]; exact hl
  obtain ⟨A1, kA, _, _, _, _, uA1, SA⟩ := Core.update_step std1 srcs (by rw [gA]; exact hf)
  obtain ⟨A2, kA2, _, _, _, _, uA2, SA2⟩ := Core.update_step SA.std kA SA.fits
  obtain ⟨B1, kB, _, _, _, _, uB1, SB⟩ := Core.update_step std2 srcs (by rw [gB]; exact hf)
  obtain ⟨B2, kB2, _, _, _, _, uB2, SB2⟩ := Core.update_step SB.std kB SB.fits
  have bA : Beyond A.g i j := by rw [gA]; exact hb
  have bB : Beyond B.g i j := by rw [gB]; exact hb
  obtain ⟨P1, q1, q2, q3, q4, q5, q6⟩ := SA.overDrude std1 bA uA dA rA lA
  obtain ⟨P2, -, -, -, -, t5, -⟩ := SA2.overDrude SA.std (by rw [SA.g]; exact bA) (SA.undriven std1 uA) q1 q2 q3
  obtain ⟨n1, n2, n3, n4⟩ := SB.overNone std2 bB uB rB dB lB
  obtain ⟨-, -, -, o4⟩ := SB2.overNone SB.std (by rw [SB.g]; exact bB) (SB.undriven std2 uB) n2 n1 n3
  refine ⟨A, B, s1, s2, fAB, A1, B1, A2, B2, kA, kB, kA2, kB2, ?_, ?_, ?_, ?_, ?_⟩
  · unfold Core.run; rw [uA1]; rfl
  · unfold Core.run; rw [uB1]; rfl
  · unfold Core.run; rw [uA1]; simp only [Except.ok_bind]; unfold Core.run; rw [uA2]; rfl
  · unfold Core.run; rw [uB1]; simp only [Except.ok_bind]; unfold Core.run; rw [uB2]; rfl
  · intro hne e1 e2
    rw [t5, o4, e1, SA.g, SB.g, gA, gB, q4, p1] at e2
    have hJ : ∀ N : ℕ, N < m.poles.length → P1.J.val i j N =
        (Arr.ofList (m.poles.map (·.beta c.g.dt))).val N * (B1.f.Ez.val i j + c.f.Ez.val i j) := by
      intro N hN
      have := q6 N (by rw [p1]; exact hN)
      rw [this, n4, gA, gB, fAB, EB]
      have hstr := hin.strength N (by rw [p1]; exact hN)
      rw [go] at hstr
      have hz : ∀ M : ℕ, P.J.val i j M = 0 := fun M => p2 i j M
      simp only [hz, mul_zero, Finset.sum_const_zero, sub_zero, zero_add]
      rw [hstr, arr_val _ _ _ hN]
      simp only [p1]
    have hs : ∑ M ∈ Finset.range m.poles.length, (1 + (Arr.ofList (m.poles.map (·.kappa c.g.dt))).val M) * P1.J.val i j M
        = ∑ M ∈ Finset.range m.poles.length, (1 + (Arr.ofList (m.poles.map (·.kappa c.g.dt))).val M) *
          ((Arr.ofList (m.poles.map (·.beta c.g.dt))).val M * (B1.f.Ez.val i j + c.f.Ez.val i j)) :=
      Finset.sum_congr rfl fun N hN => by rw [hJ N (Finset.mem_range.mp hN)]
    rw [hs] at e2
    refine drude_weights (m := m) hc.dt_pos hphys hres hne ?_
    linarith

/-- The example grid without objects and with a magnetic field at its centre. -/
theorem kicked : ∃ c : Core ℝ, c.Std ∧ c.g = gEx ∧ c.debye = [] ∧ c.drude = [] ∧ c.lorentz = [] ∧ Undriven c [] 10 10 ∧ c.f.Ez.val 10 10 = 0 ∧
    curlH c.f c.g.dx 10 10 = 1 := by
  obtain ⟨c0, h1, h2, h3, h4⟩ := gEx_std
  obtain ⟨n1, n2, n3⟩ := Core.make_no_pol h1
  refine ⟨withHy c0 kick, withHy_std h2 _, h3, n1, n2, n3, ⟨by simp, ?_⟩, h4.Ez 10 10, ?_⟩
  · intro w hw
    have : c0.tfsf = some w := hw
    rw [h4.tfsf] at this; cases this
  · show curlH (withHy c0 kick).f c0.g.dx 10 10 = 1
    rw [h3]; exact kick_curl h4

theorem disc_hides (m m' : Material ℝ) : Hides gEx [disc m' 10 10] (disc m 10 10) := by
  intro i j _ _ _ _ h
  exact ⟨disc m' 10 10, by simp, by rw [disc_inside] at h ⊢; exact h⟩

theorem disc_pair (m m' : Material ℝ) : (∀ x ∈ [disc m 10 10, disc m' 10 10], BoxSound x) ∧
    ∀ x ∈ [disc m 10 10, disc m' 10 10], ClearOfUnguardedEdges gEx x := by
  constructor
  · simp [disc_sound]
  · intro o ho
    simp only [List.mem_cons, List.not_mem_nil, or_false] at ho
    rcases ho with rfl | rfl <;> exact disc_clear _ (by norm_num) (by norm_num)

/-- The field at the centre of a disc of vacuum moves in the first update after the kick. -/
theorem kicked_moves {c c2 b1 : Core ℝ} {k : List (Source ℝ)} (hc : c.Std) (hg : c.g = gEx) (hd : c.debye = []) (hr : c.drude = []) (hl : c.lorentz = [])
    (hu : Undriven c [] 10 10) (hE : c.f.Ez.val 10 10 = 0) (hcurl : curlH c.f c.g.dx 10 10 = 1)
    (h2 : addAll [disc ⟨"v", .simple vacuum⟩ 10 10] c = .ok c2) (h : c2.run 1 [] = .ok (b1, k)) : b1.f.Ez.val 10 10 = 1 / 2 := by
  have safe : ∀ x ∈ [disc ⟨"v", .simple vacuum⟩ 10 10], x.Safe c.g := by
    intro x hx
    rw [List.mem_singleton.mp hx, hg]
    exact safe_of_clear gEx_lawful (disc_clear _ (by norm_num) (by norm_num))
  have cov : ∀ x ∈ [disc ⟨"v", .simple vacuum⟩ 10 10], x.Covered c.g := by
    intro x hx
    rw [List.mem_singleton.mp hx, hg]
    exact covered_of_sound gEx_lawful (disc_sound _ _ _)
  obtain ⟨x2, y2, w2, g2⟩ := insertAll_ok _ (c := c) hc.wf safe
  have p2 := insertAll_plain _ hc.wf.f safe (by intro x hx; rw [List.mem_singleton.mp hx]; exact ⟨_, rfl⟩)
  unfold addAll at h2
  rw [h2] at y2 p2
  cases y2
  have p2 := Except.ok.inj p2
  have std : c2.Std := hc.of_same w2 g2 (by rw [p2]) (by rw [p2]) (by rw [p2])
  have med : HasMedium c2.f (.simple vacuum) c.g.dt 10 10 := by
    rw [p2]
    refine paintAll_top (o := disc ⟨"v", .simple vacuum⟩ 10 10) (by norm_num) (by rw [hg, gEx_Nx]; norm_num) (by norm_num) (by rw [hg, gEx_Ny]; norm_num) cov ?_
    exact ⟨[], [], rfl, by rw [hg]; exact disc_center _, by simp⟩
  have hb : Beyond c2.g 10 10 := by rw [g2, hg]; exact gEx_beyond (by norm_num) (by norm_num) (by norm_num) (by norm_num)
  obtain ⟨B, kB, _, _, _, _, u, S⟩ := Core.update_step std [] (by simp)
  have u2 : Undriven c2 [] 10 10 := ⟨by simp, by rw [p2]; exact hu.tfsf⟩
  obtain ⟨-, -, -, v⟩ := S.overNone std hb u2 (by rw [p2]; exact hr) (by rw [p2]; exact hd) (by rw [p2]; exact hl)
  unfold Core.run at h
  rw [u] at h
  cases h
  obtain ⟨r1, r2, r3, -⟩ := paintAll_rest c.g [disc ⟨"v", .simple vacuum⟩ 10 10] c.f
  have e1 : c2.f.Ez = c.f.Ez := by rw [p2]; exact r1
  have e2 : curlH c2.f c2.g.dx 10 10 = 1 := by
    rw [g2, ← hcurl]
    have a : c2.f.Hx = c.f.Hx := by rw [p2]; exact r2
    have b : c2.f.Hy = c.f.Hy := by rw [p2]; exact r3
    unfold curlH
    rw [a, b]
  rw [v, e1, hE, e2, med.Cb, hg, gEx_dt]
  simp [MatKind.Cb, Simple.Cb, vacuum]

/-- **C60 is false**: a disc of a Debye medium covered by a disc of vacuum. -/
theorem C60_false : ¬ C60_statement := by
  intro H
  obtain ⟨c, hc, hg, hd, hr, hl, hu, hE, hcurl⟩ := kicked
  obtain ⟨s1, s2⟩ := disc_pair ⟨"m", .debye twoDebye⟩ ⟨"v", .simple vacuum⟩
  have hh := disc_hides ⟨"m", .debye twoDebye⟩ ⟨"v", .simple vacuum⟩
  rw [← hg] at hh s2
  obtain ⟨c1, c2, h1, h2, -, a1, b1, a2, b2, k1, k1', k2, k2', r1, r2, r3, r4, E⟩ := C60_debye_effect c hc hd hr hl [] (by simp)
    (disc ⟨"m", .debye twoDebye⟩ 10 10) [disc ⟨"v", .simple vacuum⟩ 10 10] s1 s2 hh (by intro x hx; rw [List.mem_singleton.mp hx]; exact ⟨_, rfl⟩) twoDebye rfl
    twoDebye_phys ⟨⟨1, 1⟩, by simp [twoDebye], by norm_num⟩ 10 10 (by rw [hg]; exact gEx_beyond (by norm_num) (by norm_num) (by norm_num) (by norm_num))
    hu (by rw [hg]; exact disc_center _)
  have e1 := H c hc [] (by simp) _ _ s1 s2 hh 1 c1 c2 a1 b1 k1 k1' h1 h2 r1 r2
  have e2 := H c hc [] (by simp) _ _ s1 s2 hh 2 c1 c2 a2 b2 k2 k2' h1 h2 r3 r4
  refine E ?_ e1 (by rw [e2])
  rw [kicked_moves hc hg hd hr hl hu hE hcurl h2 r2, hE]
  norm_num

/-- The hypotheses of `C60_hidden_partial` are met by a disc of glass covered by a disc of vacuum, and by one of a Debye medium. -/
example : ∃ c : Core ℝ, c.Std ∧ ∀ k, (∀ x ∈ [disc ⟨"a", .simple ⟨2, 1, 0⟩⟩ 10 10, disc ⟨"b", k⟩ 10 10], BoxSound x) ∧
    (∀ x ∈ [disc ⟨"a", .simple ⟨2, 1, 0⟩⟩ 10 10, disc ⟨"b", k⟩ 10 10], ClearOfUnguardedEdges c.g x) ∧
    Hides c.g [disc ⟨"b", k⟩ 10 10] (disc ⟨"a", .simple ⟨2, 1, 0⟩⟩ 10 10) ∧ Plain (disc ⟨"a", .simple ⟨2, 1, 0⟩⟩ 10 10) := by
  obtain ⟨c, hc, hg, -⟩ := kicked
  refine ⟨c, hc, fun k => ⟨(disc_pair _ _).1, ?_, ?_, ⟨_, rfl⟩⟩⟩
  · rw [hg]; exact (disc_pair _ _).2
  · rw [hg]; exact disc_hides _ _

end Qbox.Props
