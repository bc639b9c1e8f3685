import Verif.Lemmas.LorentzBound
import Verif.Props.DrivenWaveProps

/-! # Programs with a Lorentz medium solve Maxwell's equations, to first order (C93) -/

namespace Qbox
open Scalar Spec Props

variable {w : Spec.Wave} {S : ℝ → ℝ → Prop} {τ M δ : ℝ} {eps sig : ℝ → ℝ → ℝ} {Pw K Kt I : ℝ → ℝ → ℝ → ℝ} {inside : ℝ → ℝ → Prop}
    {med : ℤ → ℤ → Simple ℝ} {inn : ℤ → ℤ → Prop} {e : ℝ} {p : LorentzPole ℝ} {epsMax sigMax : ℝ}

theorem Near.mono {g : Grid ℝ} {m : ℕ} {c : Core ℝ} {P : LorentzPol ℝ} {pE : Tensor ℝ} {X Y : ℝ} {d : Flds ℝ} (h : Near w g M Pw K med inn p m c P pE X d) (hXY : X ≤ Y) :
    Near w g M Pw K med inn p m c P pE Y d :=
  ⟨h.mix, h.field.trans hXY, h.pol.trans hXY, h.last.trans (by linarith)⟩

theorem swingNoise_nonneg (S : ℝ → ℝ → Prop) (g : Grid ℝ) (M epsMax sigMax q δ : ℝ) : 0 ≤ swingNoise S g M epsMax sigMax q δ := Real.sqrt_nonneg _

theorem rates_nonneg (hp : p.Sound) (he : 0 ≤ epsMax) (hs : 0 ≤ sigMax) {dt : ℝ} (hd : 0 ≤ dt) :
    0 ≤ leakRate p epsMax sigMax dt ∧ 0 ≤ fieldRate p epsMax sigMax dt ∧ 0 ≤ swingRate p epsMax sigMax dt := by
  have := hp.dEps
  have a : 0 ≤ leakRate p epsMax sigMax dt := by unfold leakRate; positivity
  have b : 0 ≤ fieldRate p epsMax sigMax dt := by unfold fieldRate; positivity
  exact ⟨a, b, by unfold swingRate; positivity⟩

/-- Any number of steps. -/
theorem swings_run {g : Grid ℝ} (H : Swung w S g τ M eps sig Pw K Kt I inside med inn e p epsMax sigMax) (hM : 0 ≤ M) (hδ : 0 ≤ δ) {n : String} :
    ∀ (k m : ℕ) {c : Core ℝ} {P : LorentzPol ℝ} {pE : Tensor ℝ} {srcs : List (Source ℝ)} {X : ℝ} {d : Flds ℝ}, c.g = g → Swings c n P pE med inn e p → c.t = m * g.dt →
      ((m : ℝ) + k + 1 / 2) * g.dt ≤ τ → (∀ s ∈ srcs, Fits g s) → Spec.Carries g srcs eps sig I τ δ → (∀ t i j, inn i j → addedE g srcs t i j = 0) → 0 ≤ X →
      Near w g M Pw K med inn p m c P pE X d →
      ∃ c' l' P' pE' d', c.run k srcs = .ok (c', l') ∧ Swings c' n P' pE' med inn e p ∧ c'.g = g ∧
        Near w g M Pw K med inn p (m + k) c' P' pE' ((1 + swingRate p epsMax sigMax g.dt * g.dt) ^ k * (X + k * (g.dt * swingError S g p M epsMax sigMax δ))) d' := by
  have dt0 : 0 < g.dt := by rw [H.lawful.dt]; linarith [H.lawful.dx]
  have e0 : 0 ≤ epsMax := by linarith [H.eps1]
  obtain ⟨l0, -, r0⟩ := rates_nonneg H.sound e0 H.sig0 dt0.le
  have g0 : 0 ≤ swingError S g p M epsMax sigMax δ := by
    have := swingNoise_nonneg S g M epsMax sigMax (swingStiff p) δ
    unfold swingError
    positivity
  intro k
  induction k with
  | zero =>
    intro m c P pE srcs X d hg h _ _ _ _ _ _ hn
    exact ⟨c, srcs, P, pE, d, rfl, h, hg, by simpa using hn⟩
  | succ k ih =>
    intro m c P pE srcs X d hg h ht hτ hf hk ho hX hn
    subst hg
    have k0 : (0 : ℝ) ≤ k := Nat.cast_nonneg k
    obtain ⟨c1, l1, P1, d1, u, h1, g1, t1, same, f1, n1⟩ := swings_one H hδ h ht (by push_cast at hτ; nlinarith) hf hk ho hX hn
    obtain ⟨c2, l2, P2, pE2, d2, v, h2, g2, n2⟩ := ih (m + 1) (c := c1) (srcs := l1) g1 h1 t1 (by push_cast at hτ ⊢; linarith) f1 (hk.same same)
      (fun t i j hi => by
        have : addedE c.g l1 t i j = addedE c.g srcs t i j := totalContrib_same same
        rw [this]; exact ho t i j hi) (by positivity) n1
    refine ⟨c2, l2, P2, pE2, d2, by unfold Core.run; rw [u]; exact v, h2, g2, ?_⟩
    rw [show m + (k + 1) = m + 1 + k by ring]
    refine n2.mono ?_
    obtain ⟨q, hq⟩ : ∃ q, q = 1 + swingRate p epsMax sigMax c.g.dt * c.g.dt := ⟨_, rfl⟩
    obtain ⟨G, hG⟩ : ∃ G, G = c.g.dt * swingError S c.g p M epsMax sigMax δ := ⟨_, rfl⟩
    rw [← hq, ← hG]
    have q1 : 1 ≤ q := by rw [hq]; have := mul_nonneg r0 dt0.le; linarith
    have G0 : 0 ≤ G := by rw [hG]; positivity
    rw [pow_succ, mul_assoc]
    refine mul_le_mul_of_nonneg_left ?_ (by positivity)
    push_cast
    have := mul_le_mul_of_nonneg_right q1 (by positivity : 0 ≤ (k + 1) * G)
    linarith

/-- A closed domain with objects of simple media, to which an object of a Lorentz medium of one pole is added last. -/
theorem swings_setup (g : Grid ℝ) (hw : g.Wide) (hl : Lawful g) (hT : g.T = 0) (objs : List (Object ℝ)) (hb : ∀ o ∈ objs, BoxSound o)
    (hc : ∀ o ∈ objs, ClearOfUnguardedEdges g o) (hp : ∀ o ∈ objs, PassiveObject o) (epsMax sigMax : ℝ) (he : AtMost epsMax objs)
    (hs : ConductAtMost sigMax objs) (eps sig : ℝ → ℝ → ℝ) (hmed : MediumOf objs eps sig) (o : Object ℝ) (e : ℝ) (p : LorentzPole ℝ)
    (hk : o.mat.kind = .lorentz ⟨e, [p]⟩) (bo : BoxSound o) (co : ClearOfUnguardedEdges g o) (e1 : 1 ≤ e) (e2 : e ≤ epsMax) :
    ∃ c0 c1 med P pE, Core.make g = .ok c0 ∧ forList (objs ++ [o]) c0 (fun o c => c.insertObject o) = .ok c1 ∧ c1.g = g ∧ c1.t = 0 ∧ Silent c1 ∧
      Swings c1 o.mat.name P pE med (fun i j => o.inside ⟨i * g.dx, j * g.dx⟩ = true) e p ∧ (∀ x y N, P.J.val x y N = 0) ∧ (∀ x y N, P.prevJ.val x y N = 0) ∧
      (∀ x y, pE.val x y = 0) ∧
      ∀ i j, (updatedNodes g).Mem i j → (med i j).eps = coated o e eps (i * g.dx) (j * g.dx) ∧ (med i j).conduc = coated o 0 sig (i * g.dx) (j * g.dx) ∧
        1 ≤ (med i j).eps ∧ (med i j).eps ≤ epsMax ∧ 0 ≤ (med i j).conduc ∧ (med i j).conduc ≤ sigMax := by
  classical
  obtain ⟨c0, c1, med, h1, h2, h3, h4, same, cl, hmd⟩ := closed_setup g hw hl hT objs hb hc hp epsMax sigMax he hs eps sig hmed
  have hcl := cl _ _ _ fun _ _ _ => ⟨rfl, rfl, rfl⟩
  rw [same] at hcl
  obtain ⟨c0', j1, j2, j3, j4, j5⟩ := make_empty hw hl (.inl hT)
  obtain rfl := Except.ok.inj (h1.symm.trans j1)
  obtain ⟨c1', i1, -, -, i4⟩ := Core.Std.insertAll objs j2 j4 fun o ho => by rw [j3]; exact safe_of_clear hl (hc o ho)
  obtain rfl := Except.ok.inj (h2.symm.trans i1)
  have safe : o.Safe c1.g := by rw [h3]; exact safe_of_clear hl co
  obtain ⟨c2, u, s2, g2⟩ := hcl.std.insertObject safe
  obtain ⟨-, -, tf, t2, -⟩ := insertObject_parts u
  have sil := i4.insertObject hcl.std.wf.f safe u
  obtain ⟨P, m1, m2, m3, m4, m5, m6, m7, m8, m9⟩ := firstLorentz hcl.std.wf.f safe (by rw [h3]; exact covered_of_sound hl bo) hk hcl.debye hcl.drude hcl.media.lorentz u
  obtain ⟨pE, hpE⟩ : ∃ x, x = c1.prevE.getD c1.f.Ez := ⟨_, rfl⟩
  rw [← hpE] at m4
  have z : ∀ x y, pE.val x y = 0 := sil.prevE pE m4
  have ev : ∀ i j : ℤ, c1.g.toReal ⟨i, j⟩ = ⟨i * g.dx, j * g.dx⟩ := fun i j => by rw [h3]; simp [Grid.toReal, mul_comm]
  have mg : (updatedNodes c2.g) = updatedNodes g := by rw [g2, h3]
  refine ⟨c0, c2, fun i j => if o.inside ⟨i * g.dx, j * g.dx⟩ = true then ⟨e, 1, 0⟩ else med i j, P, pE, h1, ?_, g2.trans h3, t2.trans h4, sil, ?_, m2, m3, z, ?_⟩
  · rw [forList_append, h2]
    simp only [Except.ok_bind, forList_cons, u]
    rfl
  · refine ⟨s2, by rw [g2, h3, hT], by rw [tf]; exact hcl.wave, m6, m7, m5, m1, m4, ?_, ?_, fun _ _ _ _ _ _ _ => ⟨m2 _ _ _, m3 _ _ _, z _ _⟩, ?_⟩
    · intro i j hm hi
      have hm' := hm
      rw [mg] at hm'
      unfold Box.Mem updatedNodes at hm'
      simp only at hm'
      have hi' : o.inside ⟨i * g.dx, j * g.dx⟩ = true := hi
      simp only [if_pos hi']
      exact ⟨m9 i j (by omega) (by rw [h3]; omega) (by omega) (by rw [h3]; omega) (by rw [ev]; exact hi'), trivial, trivial⟩
    · intro i j hm hi
      rw [mg] at hm
      have hi' : ¬ (o.inside ⟨i * g.dx, j * g.dx⟩ = true) := hi
      simp only [if_neg hi']
      refine ⟨(hcl.media.medium i j (by rw [h3]; exact hm)).insertObject hcl.std.wf safe (by rw [ev]; simpa using hi') u, (hmd i j hm).2.2.1, (hmd i j hm).2.2.2.2.1⟩
    · rw [mg]
      exact within_frame fun i j _ => ⟨sil.Ez i j, sil.Hx i j, sil.Hy i j⟩
  · intro i j hm
    by_cases hi : o.inside ⟨i * g.dx, j * g.dx⟩ = true
    · have s0 := hs.1
      simp only [if_pos hi, coated]
      exact ⟨trivial, trivial, e1, e2, le_rfl, s0⟩
    · simp only [if_neg hi, coated]
      exact hmd i j hm

namespace Props

/-- **C93**. A program makes a closed domain, adds any objects of passive simple media and on top of them an object of a Lorentz medium of one pole, and any sources
that add to `Ez` outside of it, and takes any number of steps. For every solution of Maxwell's equations together with the law of the bound charges of the medium that
starts from rest: if the sources carry the current of the solution up to `δ`, then the program runs without a fault, and its fields differ from the solution by at most
a multiple of the differences that the size of the cells and the time step make. The multiple grows with time, and the differences are of first order: unlike in
Debye and Drude media of one pole. -/
theorem C93_solves (n : ℕ) (g : Grid ℝ) (hw : g.Wide) (hl : Lawful g) (hT : g.T = 0) (objs : List (Object ℝ)) (hb : ∀ o ∈ objs, BoxSound o)
    (hc : ∀ o ∈ objs, ClearOfUnguardedEdges g o) (hp : ∀ o ∈ objs, PassiveObject o) (epsMax sigMax : ℝ) (he : AtMost epsMax objs)
    (hs : ConductAtMost sigMax objs) (eps sig : ℝ → ℝ → ℝ) (hmed : MediumOf objs eps sig) (o : Object ℝ) (e : ℝ) (p : LorentzPole ℝ)
    (hk : o.mat.kind = .lorentz ⟨e, [p]⟩) (bo : BoxSound o) (co : ClearOfUnguardedEdges g o) (e1 : 1 ≤ e) (e2 : e ≤ epsMax)
    (p1 : p.omega ≠ 0) (p2 : 0 < p.dEps) (p3 : 0 ≤ p.gamma)
    (w : Spec.Wave) (S : ℝ → ℝ → Prop) (P K Kt I : ℝ → ℝ → ℝ → ℝ) (τ M δ : ℝ) (hsm : w.Smooth S g τ M) (hst : w.Steady g τ M)
    (hmx : w.Driven S (coated o e eps) (coated o 0 sig) (fun t x y => K t x y + I t x y) g τ)
    (hq : w.Swinging P K Kt S (fun x y => o.inside ⟨x, y⟩ = true) p g τ M) (hI : CurrentAtMost I g τ M) (hwl : w.Walls g τ) (hr : w.AtRest g)
    (hP : ∀ x y, InDomain g x y → P 0 x y = 0 ∧ K 0 x y = 0)
    (srcs : List (Source ℝ)) (fits : ∀ s ∈ srcs, Fits g s) (hδ : 0 ≤ δ) (hcr : Spec.Carries g srcs (coated o e eps) (coated o 0 sig) I τ δ)
    (ho : ∀ t (i j : ℤ), o.inside ⟨i * g.dx, j * g.dx⟩ = true → addedE g srcs t i j = 0) (hn : ((n : ℝ) + 1 / 2) * g.dt ≤ τ) :
    ∃ c, (⟨objs ++ [o], srcs, none⟩ : Scene).run g n = .ok c ∧
      Real.sqrt (gap w g n c.f (updatedNodes g)) ≤ 3 * (Real.exp (swingRate p epsMax sigMax g.dt * (n * g.dt)) *
        (swingStart S g p M epsMax + n * g.dt * swingError S g p M epsMax sigMax δ)) := by
  obtain ⟨c0, c1, med, Q, pE, h1, h2, h3, h4, sil, sw, j0, j1, z, hmd⟩ := swings_setup g hw hl hT objs hb hc hp epsMax sigMax he hs eps sig hmed o e p hk bo co e1 e2
  have hx := hl.dx
  have dt0 : 0 < g.dt := by rw [hl.dt]; linarith
  have n0 : (0 : ℝ) ≤ n := Nat.cast_nonneg n
  have snd : p.Sound := ⟨p1, p2, p3⟩
  have t0 : g.dt / 2 ≤ τ := by nlinarith
  have M0 : 0 ≤ M := by
    refine (abs_nonneg (I 0 0 0)).trans (hI 0 0 0 le_rfl (by linarith) ⟨le_rfl, ?_, le_rfl, ?_⟩)
    · have := node_le_x hl (k := 0) (by have := hw.nx; rw [hT] at this; omega)
      simpa using this
    · have := node_le_y hl (k := 0) (by have := hw.ny; rw [hT] at this; omega)
      simpa using this
  have inner : ∀ i j, (updatedNodes g).Mem i j → InDomain g (i * g.dx) (j * g.dx) := by
    intro i j hm
    unfold Box.Mem updatedNodes at hm
    simp only at hm
    exact ⟨node_pos hl (by omega), node_le_x hl (by omega), node_pos hl (by omega), node_le_y hl (by omega)⟩
  have H : Swung w S g τ M (coated o e eps) (coated o 0 sig) P K Kt I (fun x y => o.inside ⟨x, y⟩ = true) med (fun i j => o.inside ⟨i * g.dx, j * g.dx⟩ = true) e p
      epsMax sigMax := ⟨hw, hl, hT, hwl, hsm, hst, hmx, hI, hq, snd, e1, he.1, hs.1, hmd, fun i j _ => Iff.rfl⟩
  obtain ⟨d, md⟩ := mix_exists 1 (-1) c1.f (sampled w g 0 c1.f)
  have b1 : (updatedNodes g).l ≤ (updatedNodes g).r + 1 := by have := hw.nx; rw [hT] at this; simp only [updatedNodes]; omega
  have b2 : (updatedNodes g).b ≤ (updatedNodes g).t + 1 := by have := hw.ny; rw [hT] at this; simp only [updatedNodes]; omega
  have sd := Real.sqrt_pos.mpr p2
  have r0 : 0 ≤ restError S g M epsMax := Real.sqrt_nonneg _
  have v0 : 0 ≤ M * g.dx / 4 * Real.sqrt (g.Lx * g.Ly) / Real.sqrt p.dEps := by positivity
  have field : Real.sqrt (ptotal g med (swingRes (fun i j => o.inside ⟨i * g.dx, j * g.dx⟩ = true) p) d
      (fun i j => Q.J.val i j 0 - K ((0 : ℕ) * g.dt) (i * g.dx) (j * g.dx)) (updatedNodes g)) ≤ swingStart S g p M epsMax := by
    have zero : ptotal g med (swingRes (fun i j => o.inside ⟨i * g.dx, j * g.dx⟩ = true) p) d
        (fun i j => Q.J.val i j 0 - K ((0 : ℕ) * g.dt) (i * g.dx) (j * g.dx)) (updatedNodes g) = energy g med d (updatedNodes g) := by
      unfold ptotal
      have : (updatedNodes g).sum (fun i j => (swingRes (fun i j => o.inside ⟨i * g.dx, j * g.dx⟩ = true) p i j).store (d.Ez.val i j)
          (Q.J.val i j 0 - K ((0 : ℕ) * g.dt) (i * g.dx) (j * g.dx))) = (updatedNodes g).sum fun _ _ => 0 := by
        refine Box.sum_congr _ fun i j hm => ?_
        rw [j0, Nat.cast_zero, zero_mul, (hP _ _ (inner i j hm)).2]
        unfold swingRes
        split <;> simp [Response.store]
      rw [this]
      simp [Box.sum]
    rw [zero]
    have wd : Within d (updatedNodes g) := by
      intro i j h
      have s1 : (sampled w g 0 c1.f).Ez.val i j = 0 := if_neg h
      have s2 : (sampled w g 0 c1.f).Hx.val i j = 0 := if_neg h
      have s3 : (sampled w g 0 c1.f).Hy.val i j = 0 := if_neg h
      rw [md.Ez, md.Hx, md.Hy, s1, s2, s3, sil.Ez, sil.Hx, sil.Hy]
      norm_num
    have es := energy_le_size hl b1 b2 he.1 (fun i j h => (hmd i j h).2.2.2.1) wd
    have q := rest_gap hw hl hT hsm hst hmx hr t0 (f := c1.f) fun i j => ⟨sil.Ez i j, sil.Hx i j, sil.Hy i j⟩
    rw [gap_eq_size 0 md] at q
    unfold swingStart
    refine le_trans ?_ (le_add_of_nonneg_right v0)
    unfold restError
    refine Real.sqrt_le_sqrt (es.trans ?_)
    have e0 : 0 ≤ (epsMax + 1) / 2 := by linarith [he.1]
    have q' := mul_le_mul_of_nonneg_left q e0
    have s0 : 0 ≤ size g d (updatedNodes g) := mul_nonneg (sq_nonneg _) (Box.sum_nonneg _ fun i j _ => by positivity)
    have q2 : 0 ≤ g.Lx * g.Ly * (1 / 16 * M * g.dx ^ 2) ^ 2 + crossedArea S g (updatedNodes g) * (1 / 4 * M * g.dx) ^ 2 := by linarith
    have q3 := mul_nonneg e0 q2
    show _ ≤ 12 * (epsMax + 1) * (g.Lx * g.Ly * (1 / 16 * M * g.dx ^ 2) ^ 2 + crossedArea S g (updatedNodes g) * (1 / 4 * M * g.dx) ^ 2)
    linarith
  have pol : l2 g (polGap g P (fun i j => o.inside ⟨i * g.dx, j * g.dx⟩ = true) p 0 c1 Q pE) / Real.sqrt p.dEps ≤ swingStart S g p M epsMax := by
    unfold swingStart
    refine le_trans (div_le_div_of_nonneg_right (l2_const hw hl hT (M := M * g.dx / 4) (by positivity) fun i j hm => ?_) sd.le) (le_add_of_nonneg_left r0)
    have dom := inner i j hm
    have sp := hq.steadyP 0 (g.dt / 2) _ _ le_rfl (by linarith) t0 dom
    rw [(hP _ _ dom).1, sub_zero, sub_zero] at sp
    have k : M * (g.dt / 2) = M * g.dx / 4 := by rw [hl.dt]; ring
    rw [k] at sp
    unfold polGap
    split
    · rw [j0, j1, z, sil.Ez]
      have : displaced p g.dt 0 0 0 0 = 0 := by unfold displaced; simp
      rw [this, zero_sub, abs_neg, Nat.cast_zero, zero_add, show (1 / 2 : ℝ) * g.dt = g.dt / 2 by ring]
      exact sp
    · rw [abs_zero]; positivity
  have X0 : 0 ≤ swingStart S g p M epsMax := add_nonneg r0 v0
  have near : Near w g M P K med (fun i j => o.inside ⟨i * g.dx, j * g.dx⟩ = true) p 0 c1 Q pE (swingStart S g p M epsMax) d := by
    refine ⟨md, field, pol, ?_⟩
    have : l2 g (fun i j => pE.val i j) = 0 := by
      unfold l2
      simp [z, Box.sum]
    rw [this]
    positivity
  obtain ⟨c2, l2, P2, pE2, d2, r, sw2, g2, n2⟩ := swings_run H M0 hδ n 0 h3 sw (by rw [h4]; simp) (by push_cast; linarith) fits hcr (fun t i j hi => ho t i j hi) X0 near
  refine ⟨c2, ?_, ?_⟩
  · unfold Scene.run
    simp only [h1, h2, r, bind, Except.bind, pure, Except.pure]
  rw [zero_add] at n2
  have q2 : FrameQuiet d2 (updatedNodes g) := n2.mix.quiet (by rw [← g2]; exact sw2.frame) (sampled_quiet ..)
  rw [gap_eq_size n n2.mix]
  have df := sqrt_size hl (med := med) b1 b2 (fun i j hm => (hmd i j hm).2.2.1) q2
  have en : Real.sqrt (energy g med d2 (updatedNodes g)) ≤ (1 + swingRate p epsMax sigMax g.dt * g.dt) ^ n *
      (swingStart S g p M epsMax + n * (g.dt * swingError S g p M epsMax sigMax δ)) := by
    refine le_trans (Real.sqrt_le_sqrt ?_) n2.field
    unfold ptotal
    have := store_sum_nonneg (g := g) (res := swingRes (fun i j => o.inside ⟨i * g.dx, j * g.dx⟩ = true) p) (R := updatedNodes g)
      (fun i j _ => swingRes_passive snd _ i j) d2 (fun i j => P2.J.val i j 0 - K (n * g.dt) (i * g.dx) (j * g.dx))
    linarith
  have i5 : Real.sqrt 8 ≤ 3 := by rw [Real.sqrt_le_left (by norm_num)]; norm_num
  have i6 := mul_le_mul i5 en (Real.sqrt_nonneg _) (by norm_num)
  refine (df.trans i6).trans ?_
  obtain ⟨l0, -, w0⟩ := rates_nonneg snd (by linarith [he.1] : 0 ≤ epsMax) hs.1 dt0.le
  have g0 : 0 ≤ swingError S g p M epsMax sigMax δ := by
    have := swingNoise_nonneg S g M epsMax sigMax (swingStiff p) δ
    unfold swingError
    positivity
  rw [mul_assoc (n : ℝ) g.dt]
  refine mul_le_mul_of_nonneg_left (mul_le_mul_of_nonneg_right ?_ (by positivity)) (by norm_num)
  have pw : 1 + swingRate p epsMax sigMax g.dt * g.dt ≤ Real.exp (swingRate p epsMax sigMax g.dt * g.dt) := by
    linarith [Real.add_one_le_exp (swingRate p epsMax sigMax g.dt * g.dt)]
  refine (pow_le_pow_left₀ (by positivity) pw n).trans (le_of_eq ?_)
  rw [← Real.exp_nat_mul]
  congr 1
  ring

theorem sqrt_two_terms {a b c d k : ℝ} (ha : 0 ≤ a) (hb : 0 ≤ b) (hc : 0 ≤ c) (hd : 0 ≤ d) (hk : 0 ≤ k) :
    Real.sqrt (k * (a * b ^ 2 + c * d ^ 2)) ≤ Real.sqrt k * (Real.sqrt a * b + Real.sqrt c * d) := by
  rw [Real.sqrt_mul hk]
  refine mul_le_mul_of_nonneg_left ?_ (Real.sqrt_nonneg _)
  rw [Real.sqrt_le_left (by positivity)]
  have h1 : (Real.sqrt a * b) ^ 2 = a * b ^ 2 := by rw [mul_pow, Real.sq_sqrt ha]
  have h2 : (Real.sqrt c * d) ^ 2 = c * d ^ 2 := by rw [mul_pow, Real.sq_sqrt hc]
  have : 0 ≤ Real.sqrt a * b * (Real.sqrt c * d) := by positivity
  nlinarith

/-- **C93**, the order. For a given medium, a given duration and solutions of a given size the bound of `C93_solves` is at most a constant times the size of the cells,
the current that the sources do not carry, and the root of the area of the cells in which the solution is not smooth. -/
theorem C93_order (p : LorentzPole ℝ) (p1 : p.omega ≠ 0) (p2 : 0 < p.dEps) (p3 : 0 ≤ p.gamma) (epsMax sigMax M A T : ℝ) (he : 1 ≤ epsMax) (hs : 0 ≤ sigMax) (hM : 0 ≤ M)
    (hA : 0 ≤ A) (hT : 0 ≤ T) : ∃ C, ∀ (S : ℝ → ℝ → Prop) (g : Grid ℝ) (n : ℕ) (δ : ℝ), Lawful g → g.dx ≤ 1 → 0 ≤ g.Lx * g.Ly → g.Lx * g.Ly ≤ A → n * g.dt ≤ T → 0 ≤ δ → δ ≤ 1 →
      3 * (Real.exp (swingRate p epsMax sigMax g.dt * (n * g.dt)) * (swingStart S g p M epsMax + n * g.dt * swingError S g p M epsMax sigMax δ)) ≤
        C * (g.dx + δ + Real.sqrt (crossedArea S g (updatedNodes g))) := by
  have snd : p.Sound := ⟨p1, p2, p3⟩
  have e0 : 0 ≤ epsMax := by linarith
  obtain ⟨q, hq⟩ : ∃ q, q = swingStiff p := ⟨_, rfl⟩
  have q0 : 0 ≤ q := by rw [hq]; unfold swingStiff; positivity
  have sd := Real.sqrt_pos.mpr p2
  obtain ⟨l1, f1, r1⟩ := rates_nonneg snd e0 hs (zero_le_one (α := ℝ))
  obtain ⟨N, hN⟩ : ∃ N, N = Real.sqrt 4 * (Real.sqrt A * ((epsMax + sigMax + q + 9) / 16 * M + 1) + ((epsMax + sigMax + q + 4) * M + 1)) := ⟨_, rfl⟩
  have N0 : 0 ≤ N := by rw [hN]; positivity
  obtain ⟨R, hR⟩ : ∃ R, R = Real.sqrt (12 * (epsMax + 1)) * (Real.sqrt A * (1 / 16 * M) + 1 / 4 * M) + M / 4 * Real.sqrt A / Real.sqrt p.dEps := ⟨_, rfl⟩
  obtain ⟨G, hG⟩ : ∃ G, G = (1 + 2 * |p.omega|) * (2 * Real.sqrt ((epsMax + 2) / 2) * (N + leakRate p epsMax sigMax 1 * (M * Real.sqrt A))) + N / Real.sqrt p.dEps := ⟨_, rfl⟩
  have R0 : 0 ≤ R := by rw [hR]; positivity
  have G0 : 0 ≤ G := by rw [hG]; positivity
  refine ⟨3 * (Real.exp (swingRate p epsMax sigMax 1 * T) * (R + T * G)), fun S g n δ hl hx1 a0 a1 hn d0 d1 => ?_⟩
  have hx := hl.dx
  have dt0 : 0 < g.dt := by rw [hl.dt]; linarith
  have dt1 : g.dt ≤ g.dx := by rw [hl.dt]; linarith
  have n0 : (0 : ℝ) ≤ n := Nat.cast_nonneg n
  have t0 : 0 ≤ n * g.dt := by positivity
  obtain ⟨c, hc⟩ : ∃ c, c = crossedArea S g (updatedNodes g) := ⟨_, rfl⟩
  have c0 : 0 ≤ c := by rw [hc]; exact crossedArea_nonneg ..
  rw [← hc]
  have sA : Real.sqrt (g.Lx * g.Ly) ≤ Real.sqrt A := Real.sqrt_le_sqrt a1
  obtain ⟨h, hh⟩ : ∃ h, h = g.dx + δ + Real.sqrt c := ⟨_, rfl⟩
  have sc := Real.sqrt_nonneg c
  have h0 : 0 ≤ h := by rw [hh]; positivity
  rw [← hh]
  have xh : g.dx ≤ h := by rw [hh]; linarith
  have dh : δ ≤ h := by rw [hh]; linarith
  have ch : Real.sqrt c ≤ h := by rw [hh]; linarith
  have x2 : g.dx ^ 2 ≤ g.dx := by nlinarith
  have noise : swingNoise S g M epsMax sigMax (swingStiff p) δ ≤ N * h := by
    unfold swingNoise
    rw [← hq]
    refine (sqrt_two_terms a0 (by positivity) (show 0 ≤ crossedArea S g ⟨1, g.Nx - 2, 1, g.Ny - 2⟩ from crossedArea_nonneg ..) (by positivity) (by norm_num)).trans ?_
    rw [show crossedArea S g ⟨1, g.Nx - 2, 1, g.Ny - 2⟩ = c from hc.symm, hN, mul_assoc (Real.sqrt 4), add_mul (Real.sqrt A * _)]
    refine mul_le_mul_of_nonneg_left (add_le_add ?_ ?_) (Real.sqrt_nonneg _)
    · rw [mul_assoc (Real.sqrt A)]
      refine mul_le_mul sA ?_ (by positivity) (Real.sqrt_nonneg _)
      have i1 : (epsMax + sigMax + q + 9) / 16 * M * g.dx ^ 2 ≤ (epsMax + sigMax + q + 9) / 16 * M * h := mul_le_mul_of_nonneg_left (x2.trans xh) (by positivity)
      linarith
    · rw [mul_comm]
      refine mul_le_mul ?_ ch sc (by positivity)
      linarith
  have leak : leakRate p epsMax sigMax g.dt ≤ leakRate p epsMax sigMax 1 * g.dx := by
    unfold leakRate
    have y0 : 0 ≤ p.dEps * p.omega ^ 2 := by positivity
    have y1 : g.dt ≤ 1 := dt1.trans hx1
    have y2 : g.dt ^ 2 ≤ 1 := pow_le_one₀ dt0.le y1
    have i1 : epsMax + sigMax * g.dt + p.dEps * p.omega ^ 2 * g.dt ^ 2 ≤ epsMax + sigMax * 1 + p.dEps * p.omega ^ 2 * 1 ^ 2 := by
      have := mul_le_mul_of_nonneg_left y1 hs
      have := mul_le_mul_of_nonneg_left y2 y0
      linarith
    have i2 := mul_le_mul (mul_le_mul_of_nonneg_left dt1 y0) i1 (by positivity) (by positivity)
    refine i2.trans (le_of_eq (by ring))
  have leak1 : leakRate p epsMax sigMax g.dt ≤ leakRate p epsMax sigMax 1 := leak.trans (mul_le_of_le_one_right l1 hx1)
  have y1 : g.dt ≤ 1 := dt1.trans hx1
  obtain ⟨lt, ft, rt⟩ := rates_nonneg snd e0 hs dt0.le
  have fr : fieldRate p epsMax sigMax g.dt ≤ fieldRate p epsMax sigMax 1 := by
    unfold fieldRate
    refine mul_le_mul_of_nonneg_left (by linarith) (by positivity)
  have rate : swingRate p epsMax sigMax g.dt ≤ swingRate p epsMax sigMax 1 := by
    unfold swingRate
    have := mul_le_mul fr y1 dt0.le f1
    have i2 := mul_le_mul_of_nonneg_left (add_le_add_left this 1) (by positivity : 0 ≤ 2 * |p.omega|)
    linarith
  have start : swingStart S g p M epsMax ≤ R * h := by
    unfold swingStart restError
    have i1 := sqrt_two_terms (k := 12 * (epsMax + 1)) a0 (by positivity : 0 ≤ 1 / 16 * M * g.dx ^ 2)
      (show 0 ≤ crossedArea S g ⟨1, g.Nx - 2, 1, g.Ny - 2⟩ from crossedArea_nonneg ..) (by positivity : 0 ≤ 1 / 4 * M * g.dx) (by positivity)
    refine (add_le_add_left i1 _).trans ?_
    rw [show crossedArea S g ⟨1, g.Nx - 2, 1, g.Ny - 2⟩ = c from hc.symm, hR, add_mul, mul_assoc (Real.sqrt (12 * (epsMax + 1)))]
    refine add_le_add (mul_le_mul_of_nonneg_left ?_ (Real.sqrt_nonneg _)) ?_
    · rw [add_mul]
      refine add_le_add ?_ ?_
      · rw [mul_assoc (Real.sqrt A)]
        exact mul_le_mul sA (mul_le_mul_of_nonneg_left (x2.trans xh) (by positivity)) (by positivity) (Real.sqrt_nonneg _)
      · have i2 : 1 / 4 * M * g.dx ≤ 1 / 4 * M := mul_le_of_le_one_right (by positivity) hx1
        have := mul_le_mul ch i2 (by positivity) h0
        linarith
    · rw [div_mul_eq_mul_div (M / 4 * Real.sqrt A)]
      refine div_le_div_of_nonneg_right ?_ sd.le
      have := mul_le_mul (mul_le_mul_of_nonneg_left xh (by positivity : 0 ≤ M / 4)) sA (Real.sqrt_nonneg _) (by positivity)
      refine le_trans (le_of_eq (by ring)) (this.trans (le_of_eq (by ring)))
  have err : swingError S g p M epsMax sigMax δ ≤ G * h := by
    unfold swingError
    rw [hG, add_mul _ (N / Real.sqrt p.dEps) h, mul_assoc (1 + 2 * |p.omega|)]
    refine add_le_add (mul_le_mul ?_ ?_ ?_ (by positivity)) ?_
    · have := mul_le_mul_of_nonneg_left y1 (by positivity : 0 ≤ 2 * |p.omega|)
      linarith
    · rw [mul_assoc _ _ h]
      refine mul_le_mul_of_nonneg_left ?_ (by positivity)
      have i1 := mul_le_mul (leak.trans (mul_le_mul_of_nonneg_left xh l1)) (mul_le_mul_of_nonneg_left sA hM) (by positivity) (by positivity)
      rw [add_mul]
      refine add_le_add noise (i1.trans (le_of_eq (by ring)))
    · have := swingNoise_nonneg S g M epsMax sigMax (swingStiff p) δ
      positivity
    · rw [div_mul_eq_mul_div]
      exact div_le_div_of_nonneg_right noise sd.le
  have ex : Real.exp (swingRate p epsMax sigMax g.dt * (n * g.dt)) ≤ Real.exp (swingRate p epsMax sigMax 1 * T) := Real.exp_le_exp.mpr (mul_le_mul rate hn t0 r1)
  have er0 : 0 ≤ swingError S g p M epsMax sigMax δ := by
    have := swingNoise_nonneg S g M epsMax sigMax (swingStiff p) δ
    unfold swingError
    positivity
  have st0 : 0 ≤ swingStart S g p M epsMax := by
    unfold swingStart
    have : 0 ≤ restError S g M epsMax := Real.sqrt_nonneg _
    positivity
  have fin : swingStart S g p M epsMax + n * g.dt * swingError S g p M epsMax sigMax δ ≤ (R + T * G) * h := by
    have := mul_le_mul hn err er0 hT
    linarith
  have := mul_le_mul ex fin (by positivity) (Real.exp_pos _).le
  linarith

end Props
end Qbox
