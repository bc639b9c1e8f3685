import Verif.Lemmas.PoleKin
import Verif.Lemmas.PoleWave
import Verif.Props.RenameOrderProps

/-!
# C82: a dispersive material is given by its poles, not by the way they are listed
-/

namespace Qbox
open Scalar Spec Props

theorem KinCore.addAll {l l' : List (Object ℝ)} (hl : List.Forall₂ (fun o o' => Relisted o o' ∧ ((∃ m, o.mat.kind = .lorentz m) → o' = o)) l l') :
    ∀ {c c' : Core ℝ}, KinCore c c' → (∀ o ∈ l, o.Safe c.g) →
    ∃ d d', Props.addAll l c = .ok d ∧ Props.addAll l' c' = .ok d' ∧ d.g = c.g ∧ KinCore d d' := by
  induction hl with
  | nil => exact fun {c c'} h _ => ⟨c, c', rfl, rfl, rfl, h⟩
  | @cons o o' l l' hr hl ih =>
    intro c c' h hs
    obtain ⟨d, d', h1, h2, g, t⟩ := h.insertObject (hs o (by simp)) hr.1 hr.2
    obtain ⟨e, e', h3, h4, g', t'⟩ := ih t (by rw [g]; exact fun x hx => hs x (by simp [hx]))
    refine ⟨e, e', ?_, ?_, by rw [g', g], t'⟩
    · unfold Props.addAll at h3 ⊢
      rw [forList_cons, h1]
      exact h3
    · unfold Props.addAll at h4 ⊢
      rw [forList_cons, h2]
      exact h4

namespace Props

/-- **C82 as stated**, for objects that are also related by `Φ`: the fields do not depend on the order in which the poles of a material are listed, nor on
poles of no strength. -/
def C82_with (Φ : Object ℝ → Object ℝ → Prop) : Prop :=
  ∀ c : Core ℝ, c.Std → c.debye = [] → c.drude = [] → c.lorentz = [] → ∀ srcs : List (Source ℝ), (∀ s ∈ srcs, Fits c.g s) → ∀ l l' : List (Object ℝ),
    (∀ x ∈ l, BoxSound x) → (∀ x ∈ l, ClearOfUnguardedEdges c.g x) → List.Forall₂ (fun o o' => Relisted o o' ∧ Φ o o') l l' →
    ∀ n c1 c2 d1 d2 k1 k2, addAll l c = .ok c1 → addAll l' c = .ok c2 → c1.run n srcs = .ok (d1, k1) → c2.run n srcs = .ok (d2, k2) → d2.f = d1.f

/-- **C82 for Debye and Drude media**: listing the poles in another order, adding poles of no strength or leaving them out changes nothing, after any number of
updates, with any sources and any overlapping objects. What is missing: Lorentz media, for which both are false, see `C82_lorentz_order_false`
and `C82_lorentz_idle_false`. -/
theorem C82_poles_partial (c : Core ℝ) (hc : c.Std) (hd : c.debye = []) (hr : c.drude = []) (srcs : List (Source ℝ)) (hf : ∀ s ∈ srcs, Fits c.g s)
    (l l' : List (Object ℝ)) (hclear : ∀ x ∈ l, ClearOfUnguardedEdges c.g x)
    (hrel : List.Forall₂ (fun o o' => Relisted o o' ∧ ((∃ m, o.mat.kind = .lorentz m) → o' = o)) l l') :
    ∃ c1 c2, addAll l c = .ok c1 ∧ addAll l' c = .ok c2 ∧ ∀ n, ∃ d1 d2 k, c1.run n srcs = .ok (d1, k) ∧ c2.run n srcs = .ok (d2, k) ∧ d2.f = d1.f := by
  have h0 : KinCore c c := ⟨hc, hc, rfl, by rw [hd]; exact .nil, by rw [hr]; exact .nil⟩
  obtain ⟨c1, c2, h1, h2, g, t⟩ := KinCore.addAll hrel h0 fun o ho => safe_of_clear hc.law (hclear o ho)
  refine ⟨c1, c2, h1, h2, fun n => ?_⟩
  obtain ⟨d, d', k, h3, h4, t'⟩ := t.alike.run n srcs (by rw [g]; exact hf)
  exact ⟨d, d', k, h3, h4, by rw [t'.parts.same]⟩

/-- **C82 for Debye and Drude media**, in the form of the statement. -/
theorem C82_with_partial : C82_with fun o o' => (∃ m, o.mat.kind = .lorentz m) → o' = o := by
  intro c hc hd hr _ srcs hf l l' _ hclear hrel n c1 c2 d1 d2 k1 k2 h1 h2 h3 h4
  obtain ⟨e1, e2, r1, r2, r⟩ := C82_poles_partial c hc hd hr srcs hf l l' hclear hrel
  rw [h1] at r1
  rw [h2] at r2
  cases r1
  cases r2
  obtain ⟨f1, f2, k, s1, s2, e⟩ := r n
  rw [h3] at s1
  rw [h4] at s2
  cases s1
  cases s2
  exact e

/-- Debye and Drude discs that overlap; the poles of the first are changed round, the second has one more pole in the middle that does nothing. -/
example : List.Forall₂ (fun o o' => Relisted o o' ∧ ((∃ m, o.mat.kind = .lorentz m) → o' = o))
      [disc ⟨"a", .debye ⟨2, [⟨1, 1⟩, ⟨3, 2⟩]⟩⟩ 9 10, disc ⟨"b", .drude ⟨1, [⟨1, 1⟩, ⟨2, 1⟩]⟩⟩ 10 10]
      [disc ⟨"a", .debye ⟨2, [⟨3, 2⟩, ⟨1, 1⟩]⟩⟩ 9 10, disc ⟨"b", .drude ⟨1, [⟨1, 1⟩, ⟨0, 5⟩, ⟨2, 1⟩]⟩⟩ 10 10] ∧
    (∀ x ∈ [disc ⟨"a", .debye ⟨2, [⟨1, 1⟩, ⟨3, 2⟩]⟩⟩ 9 10, disc ⟨"b", .drude ⟨1, [⟨1, 1⟩, ⟨2, 1⟩]⟩⟩ 10 10], ClearOfUnguardedEdges gEx x) := by
  refine ⟨.cons ⟨⟨rfl, .debye _ _ _ ?_⟩, fun ⟨m, h⟩ => by cases h⟩ (.cons ⟨⟨rfl, .drude _ _ _ ?_⟩, fun ⟨m, h⟩ => by cases h⟩ .nil), ?_⟩
  · exact (List.Perm.swap _ _ _).filter _
  · unfold SamePoles
    simp
  · intro o ho
    simp only [List.mem_cons, List.not_mem_nil, or_false] at ho
    rcases ho with rfl | rfl <;> exact disc_clear _ (by norm_num) (by norm_num)

/-! ## Lorentz media -/

/-- A field of one everywhere on the example grid. -/
theorem flat_start : ∃ c : Core ℝ, c.Std ∧ c.g = gEx ∧ c.debye = [] ∧ c.drude = [] ∧ c.lorentz = [] ∧ (∀ i j, c.f.Ez.val i j = 1) ∧ c.prevE = none ∧
    ∀ i j, Undriven c [] i j := by
  obtain ⟨c0, h1, h2, h3, h4⟩ := gEx_std
  obtain ⟨n1, n2, n3⟩ := Core.make_no_pol h1
  refine ⟨withEz c0 fun _ _ => 1, withEz_std h2 fun _ _ => 1, h3, n1, n2, n3, fun _ _ => rfl, ?_, fun i j => ⟨by simp, fun w hw => ?_⟩⟩
  · have h := h1
    unfold Core.make at h
    simp only [Except.bind_ok] at h
    obtain ⟨_, -, _, -, _, -, h⟩ := h
    cases h
    rfl
  · have : c0.tfsf = some w := hw
    rw [h4.tfsf] at this
    cases this

/-- The first two updates at a node of a Lorentz disc. -/
theorem lorentz_two {c : Core ℝ} (hc : c.Std) (hg : c.g = gEx) (hd : c.debye = []) (hr : c.drude = []) (hl : c.lorentz = []) (h1 : ∀ i j, c.f.Ez.val i j = 1)
    (hp : c.prevE = none) (hu : ∀ i j, Undriven c [] i j) (m : Lorentz ℝ) :
    ∃ c1 d1 d2, addAll [disc ⟨"m", .lorentz m⟩ 10 10] c = .ok c1 ∧ c1.run 1 [] = .ok (d1, []) ∧ c1.run 2 [] = .ok (d2, []) ∧
      d1.f.Ez.val 10 10 = m.Ca (1 / 2) + m.Cb (1 / 2) * curlH c.f c.g.dx 10 10 + m.poles.length * m.CaPrev (1 / 2) ∧
      d2.f.Ez.val 10 10 = m.Ca (1 / 2) * d1.f.Ez.val 10 10 + m.Cb (1 / 2) * curlH d1.f c.g.dx 10 10 + m.poles.length * m.CaPrev (1 / 2) - m.Cb (1 / 2) / 2 *
        ∑ M ∈ Finset.range m.poles.length, (1 + (Arr.ofList (m.poles.map (·.alpha (1 / 2)))).val M) * ((Arr.ofList (m.poles.map (·.delta (1 / 2)))).val M *
          (m.Ca (1 / 2) + m.Cb (1 / 2) * curlH c.f c.g.dx 10 10 + (M + 1 : ℕ) * m.CaPrev (1 / 2) - 1)) := by
  have dt : c.g.dt = 1 / 2 := by rw [hg]; exact gEx_dt
  have clear : ClearOfUnguardedEdges c.g (disc ⟨"m", .lorentz m⟩ 10 10) := by rw [hg]; exact disc_clear _ (by norm_num) (by norm_num)
  obtain ⟨c1, i1, s1, g1⟩ := hc.insertObject (safe_of_clear hc.law clear)
  obtain ⟨P, p1, p2, p3, p4, p5, p6, p7, -, p9⟩ := firstLorentz hc.wf.f (safe_of_clear hc.law clear) (covered_of_sound hc.law (disc_sound _ _ _)) rfl hd hr hl i1
  have hf := insertObject_f hc.wf.f (safe_of_clear hc.law clear) i1
  have hb : Beyond c.g 10 10 := by rw [hg]; exact gEx_beyond (by norm_num) (by norm_num) (by norm_num) (by norm_num)
  obtain ⟨a0, a1, a2, a3⟩ := Beyond_mem hc.thick hb
  have hin := p9 10 10 a0 a1 a2 a3 (by rw [hg]; exact disc_center _)
  have hu1 : Undriven c1 [] 10 10 := ⟨by simp, by rw [(insertObject_parts i1).2.2.1]; exact (hu 10 10).tfsf⟩
  obtain ⟨d1, k1, _, _, _, _, u1, S1⟩ := Core.update_step s1 [] (by simp)
  obtain rfl : k1 = [] := by have := S1.same; cases this; rfl
  obtain ⟨d2, k2, _, _, _, _, u2, S2⟩ := Core.update_step S1.std [] (by simp)
  obtain rfl : k2 = [] := by have := S2.same; cases this; rfl
  rw [hp] at p4
  obtain ⟨P1, q1, q2, q3, q4, q5⟩ := S1.inLorentz s1 (by rw [g1]; exact hb) hu1 p4 hin
  obtain ⟨P2, -, -, -, z4, -⟩ := S2.inLorentz S1.std (by rw [S1.g, g1]; exact hb) (S1.undriven s1 hu1) q3 q1
  have e1 : c1.f.Ez.val 10 10 = 1 := by rw [hf.1]; exact h1 10 10
  have cu : curlH c1.f c1.g.dx 10 10 = curlH c.f c.g.dx 10 10 := by rw [hf.1, g1]; rfl
  have cb : curlH d1.f d1.g.dx 10 10 = curlH d1.f c.g.dx 10 10 := by rw [S1.g, g1]
  rw [q2, S1.g, g1, dt] at z4
  rw [g1, dt] at q4 q5
  rw [S1.g, g1] at cb
  rw [g1] at cu
  have pv : ((none : Option (Tensor ℝ)).getD c.f.Ez).val 10 10 = 1 := h1 10 10
  refine ⟨c1, d1, d2, ?_, ?_, ?_, ?_, ?_⟩
  · unfold addAll
    rw [forList_cons, i1]
    rfl
  · unfold Core.run; rw [u1]; rfl
  · unfold Core.run; rw [u1]; simp only [Except.ok_bind]; unfold Core.run; rw [u2]; rfl
  · rw [q4, p1, e1, cu, pv, Finset.sum_eq_zero fun M _ => by rw [p2, p3]; ring]
    ring
  · rw [z4, p1, e1]
    congr 1
    · ring
    · congr 1
      refine Finset.sum_congr rfl fun M hM => ?_
      have hM' : M < P.mat.poles.length := by rw [p1]; exact Finset.mem_range.mp hM
      obtain ⟨j1, j2⟩ := q5 M hM'
      have st : P.delta.val 10 10 M = (Arr.ofList (m.poles.map (·.delta (1 / 2)))).val M := by
        rw [hin.strength M hM', g1, dt, ← p1]
        simp [Arr.ofList, hM']
      rw [j1, j2, p2, p3, e1, cu, pv, st, p1, Finset.sum_eq_zero fun M _ => by rw [p2, p3]; ring]
      push_cast
      ring

/-- Two resonances of different frequencies. -/
noncomputable def pair : Lorentz ℝ := ⟨1, [⟨2, 3, 0⟩, ⟨1, 3, 0⟩]⟩
/-- The same two, the other way round. -/
noncomputable def pair' : Lorentz ℝ := ⟨1, [⟨1, 3, 0⟩, ⟨2, 3, 0⟩]⟩
/-- `stiff` with a second pole of no strength. -/
noncomputable def stiffIdle : Lorentz ℝ := ⟨1, [⟨2, 3, 0⟩, ⟨2, 0, 0⟩]⟩

theorem pair_coeffs : pair'.Ca (1 / 2) = pair.Ca (1 / 2) ∧ pair'.Cb (1 / 2) = pair.Cb (1 / 2) ∧ pair'.CaPrev (1 / 2) = pair.CaPrev (1 / 2) := by
  norm_num [pair, pair', Lorentz.Ca, Lorentz.Cb, Lorentz.CaPrev, LorentzPole.delta, sumL]

theorem stiffIdle_coeffs : stiffIdle.Ca (1 / 2) = stiff.Ca (1 / 2) ∧ stiffIdle.Cb (1 / 2) = stiff.Cb (1 / 2) ∧ stiffIdle.CaPrev (1 / 2) = stiff.CaPrev (1 / 2) := by
  norm_num [stiff, stiffIdle, Lorentz.Ca, Lorentz.Cb, Lorentz.CaPrev, LorentzPole.delta, sumL]

/-- **The order of the poles of a Lorentz material matters**: C82 is false for objects that have no pole without strength, so that the two lists of poles differ
by their order alone. -/
theorem C82_lorentz_order_false : ¬ C82_with fun o o' => Bare o.mat.kind ∧ Bare o'.mat.kind := by
  intro H
  obtain ⟨c, h1, h2, h3, h4, h5, h6, h7, h8⟩ := flat_start
  obtain ⟨a, a1, a2, i1, r1, r2, e1, e2⟩ := lorentz_two h1 h2 h3 h4 h5 h6 h7 h8 pair
  obtain ⟨b, b1, b2, i1', r1', r2', e1', e2'⟩ := lorentz_two h1 h2 h3 h4 h5 h6 h7 h8 pair'
  have rel : List.Forall₂ (fun o o' => Relisted o o' ∧ (Bare o.mat.kind ∧ Bare o'.mat.kind)) [disc ⟨"m", .lorentz pair⟩ 10 10]
      [disc ⟨"m", .lorentz pair'⟩ 10 10] := by
    refine .cons ⟨⟨rfl, .lorentz _ _ _ ((List.Perm.swap _ _ _).filter _)⟩, ?_, ?_⟩ .nil <;>
    · intro p hp
      simp only [pair, pair', List.mem_cons, List.not_mem_nil, or_false] at hp
      rcases hp with rfl | rfl <;> norm_num
  have sound : ∀ x ∈ [disc ⟨"m", .lorentz pair⟩ 10 10], BoxSound x := by
    intro x hx
    rw [List.mem_singleton.mp hx]
    exact disc_sound _ _ _
  have clear : ∀ x ∈ [disc ⟨"m", .lorentz pair⟩ 10 10], ClearOfUnguardedEdges c.g x := by
    intro x hx
    rw [List.mem_singleton.mp hx, h2]
    exact disc_clear _ (by norm_num) (by norm_num)
  have f1 := H c h1 h3 h4 h5 [] (by simp) _ _ sound clear rel 1 a b a1 b1 [] [] i1 i1' r1 r1'
  have f2 := H c h1 h3 h4 h5 [] (by simp) _ _ sound clear rel 2 a b a2 b2 [] [] i1 i1' r2 r2'
  obtain ⟨k1, k2, k3⟩ := pair_coeffs
  rw [f2, f1, e2, k1, k2, k3] at e2'
  have l : pair.poles.length = 2 := rfl
  have l' : pair'.poles.length = 2 := rfl
  rw [l, l', Finset.sum_range_succ, Finset.sum_range_succ, Finset.sum_range_zero, Finset.sum_range_succ, Finset.sum_range_succ, Finset.sum_range_zero] at e2'
  norm_num [pair, pair', Arr.ofList, Lorentz.Ca, Lorentz.Cb, Lorentz.CaPrev, LorentzPole.delta, LorentzPole.alpha, sumL] at e2'
  linarith

/-- **A pole of no strength changes a Lorentz material**: C82 is false for materials of one pole to which idle poles are added. -/
theorem C82_lorentz_idle_false : ¬ C82_with fun o _ => ∃ eps p, o.mat.kind = .lorentz ⟨eps, [p]⟩ := by
  intro H
  obtain ⟨c, h1, h2, h3, h4, h5, h6, h7, h8⟩ := flat_start
  obtain ⟨a, a1, a2, i1, r1, -, e1, -⟩ := lorentz_two h1 h2 h3 h4 h5 h6 h7 h8 stiff
  obtain ⟨b, b1, b2, i1', r1', -, e1', -⟩ := lorentz_two h1 h2 h3 h4 h5 h6 h7 h8 stiffIdle
  have rel : List.Forall₂ (fun o o' => Relisted o o' ∧ ∃ eps p, o.mat.kind = .lorentz ⟨eps, [p]⟩) [disc ⟨"m", .lorentz stiff⟩ 10 10]
      [disc ⟨"m", .lorentz stiffIdle⟩ 10 10] := by
    refine .cons ⟨⟨rfl, .lorentz 1 [⟨2, 3, 0⟩] [⟨2, 3, 0⟩, ⟨2, 0, 0⟩] ?_⟩, _, _, rfl⟩ .nil
    unfold SamePoles
    simp
  have sound : ∀ x ∈ [disc ⟨"m", .lorentz stiff⟩ 10 10], BoxSound x := by
    intro x hx
    rw [List.mem_singleton.mp hx]
    exact disc_sound _ _ _
  have clear : ∀ x ∈ [disc ⟨"m", .lorentz stiff⟩ 10 10], ClearOfUnguardedEdges c.g x := by
    intro x hx
    rw [List.mem_singleton.mp hx, h2]
    exact disc_clear _ (by norm_num) (by norm_num)
  have f1 := H c h1 h3 h4 h5 [] (by simp) _ _ sound clear rel 1 a b a1 b1 [] [] i1 i1' r1 r1'
  obtain ⟨k1, k2, k3⟩ := stiffIdle_coeffs
  rw [f1, e1, k1, k2, k3, stiff_CaPrev] at e1'
  have l : stiff.poles.length = 1 := rfl
  have l' : stiffIdle.poles.length = 2 := rfl
  rw [l, l'] at e1'
  norm_num at e1'

/-- **C82 is false as stated.** -/
theorem C82_false : ¬ C82_with fun _ _ => True := fun H => C82_lorentz_idle_false fun c hc hd hr hl srcs hf l l' hs hcl hrel =>
  H c hc hd hr hl srcs hf l l' hs hcl (hrel.imp fun _ _ h => ⟨h.1, trivial⟩)

/-! ## Poles given in two parts -/

/-- One pole given as two of the same relaxation time. -/
def C82_split : Prop :=
  ∀ c : Core ℝ, c.Std → c.debye = [] → c.drude = [] → c.lorentz = [] → ∀ o o' : Object ℝ,
    BoxSound o → ClearOfUnguardedEdges c.g o → o' = { o with mat := { o.mat with kind := o'.mat.kind } } → SplitMedium o.mat.kind o'.mat.kind →
    ∀ n c1 c2 d1 d2 k1 k2, addAll [o] c = .ok c1 → addAll [o'] c = .ok c2 → c1.run n [] = .ok (d1, k1) → c2.run n [] = .ok (d2, k2) → d2.f = d1.f

/-- Three steps of the standing wave in a domain filled with a Debye medium. -/
theorem wave_three : ∃ c : Core ℝ, c.Std ∧ c.g = gSix ∧ c.debye = [] ∧ c.drude = [] ∧ c.lorentz = [] ∧ ∀ m : Debye ℝ,
    ∃ c1 d, addAll [fill ⟨"m", .debye m⟩] c = .ok c1 ∧ c1.run 3 [] = .ok (d, []) ∧ Standing d.f ((poleMode m)^[3] (0, 1, fun _ => 0)).1 ((poleMode m)^[3] (0, 1, fun _ => 0)).2.1 := by
  obtain ⟨c0, h1, h2, h3, h4, h5⟩ := make_empty gSix_wide gSix_lawful (.inl gSix_T)
  have hs : (withFields c0 (fun _ _ => 0) startX startY).Std :=
    h2.of_same { h2.wf with f := { h2.wf.f with Ez := h2.wf.f.Ez, Hx := h2.wf.f.Hx, Hy := h2.wf.f.Hy } } rfl rfl rfl rfl
  obtain ⟨s1, s2⟩ := startH_wave c0
  have g0 : (withFields c0 (fun _ _ => 0) startX startY).g = gSix := h3
  have t0 : (withFields c0 (fun _ _ => 0) startX startY).tfsf = none := h4.tfsf
  refine ⟨withFields c0 (fun _ _ => 0) startX startY, hs, g0, h5.debye, h5.drude, h5.lorentz, fun m => ?_⟩
  have n1 : (withFields c0 (fun _ _ => 0) startX startY).debye = [] := h5.debye
  have n2 : (withFields c0 (fun _ _ => 0) startX startY).drude = [] := h5.drude
  have n3 : (withFields c0 (fun _ _ => 0) startX startY).lorentz = [] := h5.lorentz
  generalize withFields c0 (fun _ _ => 0) startX startY = c at hs g0 t0 s1 s2 n1 n2 n3
  have safe : (fill ⟨"m", .debye m⟩).Safe c.g := by rw [g0]; exact safe_of_clear gSix_lawful (fill_clear _)
  obtain ⟨c1, i1, i2, i3⟩ := hs.insertObject safe
  obtain ⟨P, p1, p2, -, p4⟩ := firstDebye hs.wf.f safe (by rw [g0]; exact covered_of_sound gSix_lawful (fill_sound _)) rfl n1 n2 n3 i1
  have hf := (insertObject_f hs.wf.f safe i1).1
  have node : ∀ i j, 1 ≤ i → i ≤ 4 → 1 ≤ j → j ≤ 4 → InDebye c1 "m" P [] [] i j := fun i j i0 i1 j0 j1 =>
    p4 i j (by omega) (by rw [g0, gSix_Nx]; omega) (by omega) (by rw [g0, gSix_Ny]; omega) (by rw [g0]; exact fill_node _ i0 i1 j0 j1)
  have N := node 1 1 (by norm_num) (by norm_num) (by norm_num) (by norm_num)
  have pts := insertObject_parts i1
  have w : PoleWave m c1 (0, 1, fun _ => 0) := by
    refine ⟨i2, i3.trans g0, pts.2.2.1.trans t0, N.lorentz, ⟨fun q hq i j N' _ _ _ _ _ _ _ => ?_, ?_⟩, ?_, ?_, "m", P, [], p1,
      fun i j i0 i1 j0 j1 => ⟨node i j i0 i1 j0 j1, fun N _ => by rw [p2]; ring⟩⟩
    · rw [N.entry] at hq
      obtain rfl : q = ("m", P) := by simpa using hq
      exact p2 _ _ _
    · have : c1.drude = [] := by
        have i := i1
        unfold Core.insertObject at i
        rw [paintObject_closed hs.wf.f safe] at i
        simp only [Except.ok_bind, fill, Except.bind_ok] at i
        obtain ⟨_, -, i⟩ := i
        cases i
        exact n2
      rw [this]
      simp
    · rw [hf]; exact ⟨s2.left, s2.right, s2.bottom, s2.top⟩
    · rw [hf]; exact ⟨s1.Ez, s1.Hx, s1.Hy⟩
  obtain ⟨d, r, w'⟩ := w.run 3
  refine ⟨c1, d, ?_, r, w'.wave⟩
  unfold addAll
  rw [forList_cons, i1]
  rfl

/-- **Giving a pole as two of half the strength changes the fields** of a Debye medium, from the third update on. -/
theorem C82_split_false : ¬ C82_split := by
  intro H
  obtain ⟨c, h1, h2, h3, h4, h5, W⟩ := wave_three
  obtain ⟨a, d, i1, r1, w1⟩ := W ⟨1, [⟨1 + 1, 1 / 4⟩]⟩
  obtain ⟨a', d', i1', r1', w1'⟩ := W ⟨1, [⟨1, 1 / 4⟩, ⟨1, 1 / 4⟩]⟩
  have e := H c h1 h3 h4 h5 (fill ⟨"m", .debye ⟨1, [⟨1 + 1, 1 / 4⟩]⟩⟩) (fill ⟨"m", .debye ⟨1, [⟨1, 1 / 4⟩, ⟨1, 1 / 4⟩]⟩⟩) (fill_sound _) (by rw [h2]; exact fill_clear _) rfl
    (.debye 1 [] [] 1 1 (1 / 4)) 3 a a' d d' [] [] i1 i1' r1 r1'
  have x := w1.Ez 1 1 (by norm_num) (by norm_num) (by norm_num) (by norm_num)
  have y := w1'.Ez 1 1 (by norm_num) (by norm_num) (by norm_num) (by norm_num)
  rw [e, x] at y
  norm_num [poleMode, kapOf, betOf, Arr.ofList, Debye.Cb, DebyePole.beta, DebyePole.kappa, sumL, wa, Finset.sum_range_succ] at y

end Props
end Qbox
