import Verif.Lemmas.DrivenWave
import Verif.Props.TotalErrorProps

/-! # A program with sources computes the field that a current radiates (C84) -/

namespace Qbox.Props
open Qbox Scalar Spec

/-- The distance between the fields of a program with sources and the wave of a current, in the norm of the energy. -/
theorem driven_error_run {w : Spec.Wave} {S : ℝ → ℝ → Prop} {g : Grid ℝ} {τ M δ : ℝ} (hwd : g.Wide) (hl : Lawful g) (hT : g.T = 0) (hw : w.Walls g τ)
    (hs : w.Smooth S g τ M) (hb : w.Steady g τ M) {eps sig : ℝ → ℝ → ℝ} {J : ℝ → ℝ → ℝ → ℝ} (hm : w.Driven S eps sig J g τ) (hJ : CurrentAtMost J g τ M)
    (hδ : 0 ≤ δ) {med : ℤ → ℤ → Simple ℝ} {epsMax sigMax : ℝ} (h0 : 1 ≤ epsMax)
    (he : ∀ i j, (updatedNodes g).Mem i j → (med i j).eps = eps (i * g.dx) (j * g.dx) ∧ (med i j).conduc = sig (i * g.dx) (j * g.dx) ∧
      1 ≤ (med i j).eps ∧ (med i j).eps ≤ epsMax ∧ 0 ≤ (med i j).conduc ∧ (med i j).conduc ≤ sigMax) :
    ∀ (n m : ℕ) (c : Core ℝ), Closed c med → c.g = g → c.t = m * g.dt → ((m : ℝ) + n + 1 / 2) * g.dt ≤ τ → ∀ srcs : List (Source ℝ),
      (∀ s ∈ srcs, Fits g s) → Spec.Carries g srcs eps sig J τ δ → ∀ d, Mix 1 (-1) c.f (sampled w g m c.f) d →
      ∃ c' srcs', c.run n srcs = .ok (c', srcs') ∧ Closed c' med ∧ c'.g = g ∧ ∃ d', Mix 1 (-1) c'.f (sampled w g (m + n) c'.f) d' ∧
        Real.sqrt (energy g med d' (updatedNodes g)) ≤ Real.sqrt (energy g med d (updatedNodes g)) +
          n * (Real.sqrt ((epsMax + 1) / 2) * (g.dt * Real.sqrt (3 * (g.Lx * g.Ly * ((epsMax + sigMax + 8) / 16 * M * g.dx ^ 2 + δ) ^ 2 +
            crossedArea S g (updatedNodes g) * ((epsMax + sigMax + 3) * M + δ) ^ 2))))
  | 0, m, c, h, hg, _, _, srcs, _, _, d, md => ⟨c, srcs, rfl, h, hg, d, md, by simp⟩
  | n + 1, m, c, h, hg, ht, hτ, srcs, hf, hk, d, md => by
    subst hg
    obtain ⟨b1, b2⟩ := h.box
    obtain ⟨c1, l1, E2, E3, E4, f, u, St⟩ := Core.update_step h.std srcs hf
    obtain ⟨h1, -⟩ := driven_step h St hk.inner
    have laws := current_step h St hk
    have dt0 := h.std.dt_pos
    have tm : c.t + c.g.dt = ((m : ℝ) + 1) * c.g.dt := by rw [ht]; ring
    obtain ⟨rE, rX, rY, L, bd⟩ := driven_laws hl hw hs hb hm he (n := m) (by push_cast at hτ; nlinarith [Nat.cast_nonneg (α := ℝ) n]) c.f c1.f
    obtain ⟨d1, md1⟩ := mix_exists 1 (-1) c1.f (sampled w c.g (m + 1) c1.f)
    have q : FrameQuiet d (updatedNodes c.g) := md.quiet h.frame (sampled_quiet ..)
    have q1 : FrameQuiet d1 (updatedNodes c.g) := md1.quiet (by rw [← St.g]; exact h1.frame) (sampled_quiet ..)
    have M0 : 0 ≤ M := by
      refine (abs_nonneg (J 0 0 0)).trans (hJ 0 0 0 le_rfl ?_ ⟨le_rfl, ?_, le_rfl, ?_⟩)
      · refine le_trans ?_ hτ
        positivity
      · have := node_le_x hl (k := 0) (by have := hwd.nx; omega)
        simpa using this
      · have := node_le_y hl (k := 0) (by have := hwd.ny; omega)
        simpa using this
    have key : ∀ i j, (updatedNodes c.g).Mem i j →
        |((med i j).eps / c.g.dt + (med i j).conduc / 2) * addedE c.g srcs (c.t + c.g.dt) i j + J ((m + 1 / 2) * c.g.dt) (i * c.g.dx) (j * c.g.dx)| ≤ δ ∧
        |J ((m + 1 / 2) * c.g.dt) (i * c.g.dx) (j * c.g.dx)| ≤ M := by
      intro i j hm
      have hm' := hm
      unfold Box.Mem updatedNodes at hm'
      simp only at hm'
      constructor
      · have := hk.node m i j (by omega) (by omega) (by omega) (by omega) (by push_cast at hτ; nlinarith [Nat.cast_nonneg (α := ℝ) n])
        rwa [← (he i j hm).1, ← (he i j hm).2.1, ← tm] at this
      · refine hJ _ _ _ (by positivity) (by push_cast at hτ; nlinarith [Nat.cast_nonneg (α := ℝ) n]) ⟨node_pos hl (by omega), node_le_x hl (by omega),
          node_pos hl (by omega), node_le_y hl (by omega)⟩
    have step := residual_steps hl b1 b2 (epsMax := epsMax) (fun i j hm => ⟨(he i j hm).2.2.1, (he i j hm).2.2.2.1⟩) (fun i j hm => (he i j hm).2.2.2.2.1)
      (f := c.f) (f' := c1.f) (D := Real.sqrt (3 * (c.g.Lx * c.g.Ly * ((epsMax + sigMax + 8) / 16 * M * c.g.dx ^ 2 + δ) ^ 2 +
            crossedArea S c.g (updatedNodes c.g) * ((epsMax + sigMax + 3) * M + δ) ^ 2))) laws L h0 (Real.sqrt_nonneg _) (by
        have k := spread_bound hwd hl hT (S := S) (A := (epsMax + sigMax + 8) / 16 * M * c.g.dx ^ 2 + δ) (B := (epsMax + sigMax + 3) * M + δ)
          (rE := fun i j => rE i j - ((med i j).eps / c.g.dt + (med i j).conduc / 2) * addedE c.g srcs (c.t + c.g.dt) i j) (rX := fun i j => rX i j - 0)
          (rY := fun i j => rY i j - 0) fun i j hm => by
            obtain ⟨k1, k2⟩ := key i j hm
            obtain ⟨p, p1, p2, p3⟩ := bd i j hm
            simp only [sub_zero]
            rw [abs_le] at k1 k2 p1
            refine ⟨fun hc => ?_, ?_, by linarith, by linarith⟩
            · obtain ⟨o1, o2, o3⟩ := p hc
              refine ⟨?_, by linarith, by linarith⟩
              rw [abs_le] at o1 ⊢
              constructor <;> linarith [o1.1, o1.2]
            · rw [abs_le]
              constructor <;> linarith [k1.1, k1.2, k2.1, k2.2, p1.1, p1.2]
        rw [Real.sq_sqrt (le_trans (mul_nonneg (sq_nonneg _) (Box.sum_nonneg _ fun i j _ => by positivity)) k)]
        exact k) md md1 q q1
    obtain ⟨c2, l2, v, k2, g2, d2, md2, e2⟩ := driven_error_run hwd hl hT hw hs hb hm hJ hδ h0 he n (m + 1) c1 h1 St.g (by rw [St.t, tm]; push_cast; rfl)
      (by push_cast at hτ ⊢; linarith) l1 (by rw [← St.g]; exact St.fits) (hk.same St.same) d1 md1
    refine ⟨c2, l2, by unfold Core.run; rw [u]; exact v, k2, g2, d2, ?_, ?_⟩
    · rw [show m + (n + 1) = m + 1 + n by ring]; exact md2
    · refine e2.trans ?_
      push_cast
      linarith

/-- A closed domain with objects of passive simple media. -/
theorem closed_setup (g : Grid ℝ) (hw : g.Wide) (hl : Lawful g) (hT : g.T = 0) (objs : List (Object ℝ)) (hb : ∀ o ∈ objs, BoxSound o)
    (hc : ∀ o ∈ objs, ClearOfUnguardedEdges g o) (hp : ∀ o ∈ objs, PassiveObject o) (epsMax sigMax : ℝ) (he : AtMost epsMax objs)
    (hs : ConductAtMost sigMax objs) (eps sig : ℝ → ℝ → ℝ) (hmed : MediumOf objs eps sig) :
    ∃ c0 c1 med, Core.make g = .ok c0 ∧ forList objs c0 (fun o c => c.insertObject o) = .ok c1 ∧ c1.g = g ∧ c1.t = 0 ∧
      withFields c1 (fun _ _ => 0) (fun _ _ => 0) (fun _ _ => 0) = c1 ∧
      (∀ e x y : ℤ → ℤ → ℝ, (∀ i j, ¬ (updatedNodes g).Mem i j → e i j = 0 ∧ x i j = 0 ∧ y i j = 0) → Closed (withFields c1 e x y) med) ∧
      ∀ i j, (updatedNodes g).Mem i j → (med i j).eps = eps (i * g.dx) (j * g.dx) ∧ (med i j).conduc = sig (i * g.dx) (j * g.dx) ∧
        1 ≤ (med i j).eps ∧ (med i j).eps ≤ epsMax ∧ 0 ≤ (med i j).conduc ∧ (med i j).conduc ≤ sigMax := by
  obtain ⟨med, hm⟩ := filled_exists g objs hp
  obtain ⟨c0, c1, h1, h2, h3, h4, -⟩ := objects_passive hw hl (.inl hT) objs hb hc hp med hm (fun _ _ => 0) (fun _ _ => 0) (fun _ _ => 0)
  have cl : ∀ e x y : ℤ → ℤ → ℝ, (∀ i j, ¬ (updatedNodes g).Mem i j → e i j = 0 ∧ x i j = 0 ∧ y i j = 0) → Closed (withFields c1 e x y) med := by
    intro e x y hout
    obtain ⟨c0', c1', k1, k2, k3, k4, -, k6, k7, k8, k9⟩ := objects_passive hw hl (.inl hT) objs hb hc hp med hm e x y
    obtain rfl := Except.ok.inj (h1.symm.trans k1)
    obtain rfl := Except.ok.inj (h2.symm.trans k2)
    have eg : (withFields c1 e x y).g = g := h4
    have psv : Passive (withFields c1 e x y) med (updatedNodes g) := k9 _ fun i j h => by
      unfold Box.Mem updatedNodes at h
      simp only at h
      constructor <;> rw [hT] <;> omega
    exact ⟨k3, by rw [eg, hT], k8, k6, k7, by rw [eg]; exact psv, by rw [eg]; exact within_frame fun i j h => hout i j h⟩
  have hcl := cl _ _ _ fun _ _ _ => ⟨rfl, rfl, rfl⟩
  have psv := hcl.media
  rw [show (withFields c1 (fun _ _ => 0) (fun _ _ => 0) (fun _ _ => 0)).g = g from h4] at psv
  obtain ⟨c0', j1, j2, j3, j4, j5⟩ := make_empty hw hl (.inl hT)
  obtain rfl := Except.ok.inj (h1.symm.trans j1)
  obtain ⟨c1', i1, i2, i3, i4⟩ := Core.Std.insertAll objs j2 j4 fun o ho => by rw [j3]; exact safe_of_clear hl (hc o ho)
  obtain rfl := Except.ok.inj (h2.symm.trans i1)
  have t1 : c1.t = 0 := by
    rw [insertAll_time objs c0 c1 j2.wf (fun o ho => by rw [j3]; exact safe_of_clear hl (hc o ho)) h2]
    obtain ⟨c, k, -, -, -, t, -⟩ := Core.make_std hw hl (.inl hT)
    obtain rfl := Except.ok.inj (h1.symm.trans k)
    exact t
  refine ⟨c0, c1, med, h1, h2, h4, t1, ?_, cl, ?_⟩
  · have e1 : c1.f.Ez.setv (fun _ _ => 0) = c1.f.Ez := Tensor.ext' rfl rfl fun x y => (i4.Ez x y).symm
    have e2 : c1.f.Hx.setv (fun _ _ => 0) = c1.f.Hx := Tensor.ext' rfl rfl fun x y => (i4.Hx x y).symm
    have e3 : c1.f.Hy.setv (fun _ _ => 0) = c1.f.Hy := Tensor.ext' rfl rfl fun x y => (i4.Hy x y).symm
    unfold withFields
    rw [e1, e2, e3]
  · intro i j h
    have pt : g.toReal ⟨i, j⟩ = ⟨i * g.dx, j * g.dx⟩ := by simp [Grid.toReal, mul_comm]
    have q1 := psv.eps i j h
    have q2 := psv.conduc i j h
    have q3 := filled_atMost hm he i j
    rcases C09_total objs (g.toReal ⟨i, j⟩) with hv | ⟨o, ho⟩
    · have v := hm.vacuum i j hv
      have := hmed.vacuum _ hv
      rw [pt] at this
      rw [v] at q1 q2 q3 ⊢
      refine ⟨by rw [this.1]; simp [Qbox.vacuum], by rw [this.2]; simp [Qbox.vacuum], q1, q3, q2, ?_⟩
      simpa [Qbox.vacuum] using hs.1
    · have k := hm.object i j o ho
      have := hmed.object _ o _ ho k
      rw [pt] at this
      have hmem : o ∈ objs := by
        obtain ⟨b, a, e, -, -⟩ := ho
        rw [e]; simp
      exact ⟨this.1.symm, this.2.symm, q1, q3, q2, hs.2 o hmem _ k⟩

/-- From the norm of the energy to the integral of the square. -/
theorem gap_eq_size {w : Spec.Wave} {g : Grid ℝ} (m : ℕ) {f d : Flds ℝ} (md : Mix 1 (-1) f (sampled w g m f) d) :
    gap w g m f (updatedNodes g) = size g d (updatedNodes g) := by
  unfold gap size
  congr 1
  refine Box.sum_congr _ fun i j h => ?_
  rw [md.Ez, md.Hx, md.Hy]
  have s1 : (sampled w g m f).Ez.val i j = w.nodeE g m i j := if_pos h
  have s2 : (sampled w g m f).Hx.val i j = w.nodeX g m i j := if_pos h
  have s3 : (sampled w g m f).Hy.val i j = w.nodeY g m i j := if_pos h
  rw [s1, s2, s3]
  ring

theorem twice_root {e Z : ℝ} (he : 0 ≤ e + 1) : Real.sqrt 8 * (Real.sqrt ((e + 1) / 2) * Real.sqrt (3 * Z)) = Real.sqrt (12 * (e + 1) * Z) := by
  rw [← mul_assoc, ← Real.sqrt_mul (by norm_num), ← Real.sqrt_mul (by positivity)]
  congr 1
  ring

/-- **C84**, from any start. A closed domain with any objects of passive simple media and any sources that add to `Ez`. For every solution of Maxwell's
equations with a current: if the sources carry this current up to `δ`, then after any number of updates the fields of the program differ from the
solution by at most a fixed multiple of the difference at the start, and the time multiplied by a term that contains `δ` and the square of the size of the
cells, and a term for the cells in which the solution is not smooth. -/
theorem C84_start (n : ℕ) (g : Grid ℝ) (hw : g.Wide) (hl : Lawful g) (hT : g.T = 0) (objs : List (Object ℝ)) (hb : ∀ o ∈ objs, BoxSound o)
    (hc : ∀ o ∈ objs, ClearOfUnguardedEdges g o) (hp : ∀ o ∈ objs, PassiveObject o) (epsMax sigMax : ℝ) (he : AtMost epsMax objs)
    (hs : ConductAtMost sigMax objs) (eps sig : ℝ → ℝ → ℝ) (hmed : MediumOf objs eps sig) (w : Spec.Wave) (S : ℝ → ℝ → Prop) (J : ℝ → ℝ → ℝ → ℝ) (τ M δ : ℝ)
    (hsm : w.Smooth S g τ M) (hst : w.Steady g τ M) (hmx : w.Driven S eps sig J g τ) (hJ : CurrentAtMost J g τ M) (hwl : w.Walls g τ)
    (srcs : List (Source ℝ)) (fits : ∀ s ∈ srcs, Fits g s) (hδ : 0 ≤ δ) (hk : Spec.Carries g srcs eps sig J τ δ) (hn : ((n : ℝ) + 1 / 2) * g.dt ≤ τ)
    (e x y : ℤ → ℤ → ℝ) (hout : ∀ i j, ¬ (updatedNodes g).Mem i j → e i j = 0 ∧ x i j = 0 ∧ y i j = 0) :
    ∃ c0 c1 c2 srcs', Core.make g = .ok c0 ∧ forList objs c0 (fun o c => c.insertObject o) = .ok c1 ∧ (withFields c1 e x y).run n srcs = .ok (c2, srcs') ∧
      Real.sqrt (gap w g n c2.f (updatedNodes g)) ≤ 2 * Real.sqrt (epsMax + 1) * Real.sqrt (gap w g 0 (withFields c1 e x y).f (updatedNodes g)) +
        n * g.dt * drivenError S g M epsMax sigMax δ := by
  obtain ⟨c0, c1, med, h1, h2, h3, h4, -, cl, hmd⟩ := closed_setup g hw hl hT objs hb hc hp epsMax sigMax he hs eps sig hmed
  have hcl := cl e x y hout
  have eg : (withFields c1 e x y).g = g := h3
  have et : (withFields c1 e x y).t = 0 := h4
  have psv := hcl.media
  rw [eg] at psv
  obtain ⟨d, md⟩ := mix_exists 1 (-1) (withFields c1 e x y).f (sampled w g 0 (withFields c1 e x y).f)
  obtain ⟨c2, l2, r, k, g2, d2, md2, er⟩ := driven_error_run hw hl hT hwl hsm hst hmx hJ hδ he.1 hmd n 0 _ hcl eg (by rw [et]; simp) (by push_cast; linarith) srcs
    fits hk d md
  refine ⟨c0, c1, c2, l2, h1, h2, r, ?_⟩
  obtain ⟨b1, b2⟩ := hcl.box
  rw [eg] at b1 b2
  have q2 : FrameQuiet d2 (updatedNodes g) := md2.quiet (by rw [← g2]; exact k.frame) (sampled_quiet ..)
  have df := sqrt_size hl (med := med) b1 b2 psv.eps q2
  rw [zero_add] at md2
  rw [gap_eq_size n md2, gap_eq_size 0 md]
  have wd : Within d (updatedNodes g) := by
    intro i j h
    have s1 : (sampled w g 0 (withFields c1 e x y).f).Ez.val i j = 0 := if_neg h
    have s2 : (sampled w g 0 (withFields c1 e x y).f).Hx.val i j = 0 := if_neg h
    have s3 : (sampled w g 0 (withFields c1 e x y).f).Hy.val i j = 0 := if_neg h
    have v1 : (withFields c1 e x y).f.Ez.val i j = e i j := rfl
    have v2 : (withFields c1 e x y).f.Hx.val i j = x i j := rfl
    have v3 : (withFields c1 e x y).f.Hy.val i j = y i j := rfl
    obtain ⟨o1, o2, o3⟩ := hout i j h
    rw [md.Ez, md.Hx, md.Hy, s1, s2, s3, v1, v2, v3, o1, o2, o3]
    norm_num
  have es := Real.sqrt_le_sqrt (energy_le_size hl b1 b2 he.1 (fun i j h => (hmd i j h).2.2.2.1) wd)
  rw [Real.sqrt_mul (by linarith [he.1])] at es
  have s8 := Real.sqrt_nonneg 8
  have two : Real.sqrt 8 * Real.sqrt ((epsMax + 1) / 2) = 2 * Real.sqrt (epsMax + 1) := by
    rw [← Real.sqrt_mul (by norm_num)]
    rw [show 8 * ((epsMax + 1) / 2) = 2 ^ 2 * (epsMax + 1) by ring, Real.sqrt_mul (by norm_num), Real.sqrt_sq (by norm_num)]
  have ce : Real.sqrt 8 * (Real.sqrt ((epsMax + 1) / 2) * Real.sqrt (3 * (g.Lx * g.Ly * ((epsMax + sigMax + 8) / 16 * M * g.dx ^ 2 + δ) ^ 2 +
      crossedArea S g (updatedNodes g) * ((epsMax + sigMax + 3) * M + δ) ^ 2))) = drivenError S g M epsMax sigMax δ := twice_root (by linarith [he.1])
  have a := mul_le_mul_of_nonneg_left (er.trans (add_le_add_left es _)) s8
  refine df.trans (a.trans (le_of_eq ?_))
  rw [← two, ← ce]
  ring

/-- A function that vanishes together with its derivative at zero is of second order. -/
theorem tame_start {f f1 : ℝ → ℝ} {b M u : ℝ} (h : Tame f f1 0 b M) (f0 : f 0 = 0) (f10 : f1 0 = 0) (hu : 0 ≤ u) (hb : u ≤ b) : |f u| ≤ M * u ^ 2 := by
  obtain ⟨f2, f3, h⟩ := h
  have M0 : 0 ≤ M := (abs_nonneg _).trans (h 0 le_rfl (hu.trans hb)).2.2.2.1
  have k1 : ∀ v, 0 ≤ v → v ≤ u → |f1 v| ≤ M * v := fun v v0 v1 =>
    small_of_deriv (f := f1) (f' := f2) (δ := u) (fun s s0 s1 => ⟨(h s s0 (s1.trans hb)).2.1, (h s s0 (s1.trans hb)).2.2.2.1⟩) f10 v0 v1
  have k0 := small_of_deriv (f := f) (f' := f1) (C := M * u) (δ := u) (fun s s0 s1 => ⟨(h s s0 (s1.trans hb)).1, (k1 s s0 s1).trans
    (mul_le_mul_of_nonneg_left s1 M0)⟩) f0 hu le_rfl
  rw [pow_two, ← mul_assoc]
  exact k0

/-- A function that is zero around a point has the derivative zero there. -/
theorem flat_deriv {f : ℝ → ℝ} {f' a b s : ℝ} (h : HasDerivAt f f' s) (ha : a < s) (hb : s < b) (h0 : ∀ u, a < u → u < b → f u = 0) : f' = 0 := by
  have : f =ᶠ[nhds s] fun _ => 0 := by
    filter_upwards [Ioo_mem_nhds ha hb] with u hu
    exact h0 u hu.1 hu.2
  exact h.unique ((hasDerivAt_const s (0 : ℝ)).congr_of_eventuallyEq this)

/-- A program that starts from rest is close to a wave that starts from rest. -/
theorem rest_gap {g : Grid ℝ} (hw : g.Wide) (hl : Lawful g) (hT : g.T = 0) {w : Spec.Wave} {S : ℝ → ℝ → Prop} {eps sig : ℝ → ℝ → ℝ} {J : ℝ → ℝ → ℝ → ℝ} {τ M : ℝ}
    (hsm : w.Smooth S g τ M) (hst : w.Steady g τ M) (hmx : w.Driven S eps sig J g τ) (hr : w.AtRest g) (hτ : g.dt / 2 ≤ τ) {f : Flds ℝ}
    (hf : ∀ i j, f.Ez.val i j = 0 ∧ f.Hx.val i j = 0 ∧ f.Hy.val i j = 0) :
    gap w g 0 f (updatedNodes g) ≤ 3 * (g.Lx * g.Ly * (1 / 16 * M * g.dx ^ 2) ^ 2 + crossedArea S g (updatedNodes g) * (1 / 4 * M * g.dx) ^ 2) := by
  have hx := hl.dx
  have dt2 : g.dt / 2 = g.dx / 4 := by rw [hl.dt]; ring
  have k := spread_bound hw hl hT (S := S) (A := 1 / 16 * M * g.dx ^ 2) (B := 1 / 4 * M * g.dx) (rE := fun i j => f.Ez.val i j - w.nodeE g 0 i j)
    (rX := fun i j => f.Hx.val i j - w.nodeX g 0 i j) (rY := fun i j => f.Hy.val i j - w.nodeY g 0 i j) fun i j hm => by
      unfold Box.Mem updatedNodes at hm
      simp only at hm
      obtain ⟨f1, f2, f3⟩ := hf i j
      have px := node_pos hl (k := i) (by omega)
      have py := node_pos hl (k := j) (by omega)
      have qx := node_le_x hl (k := i + 1) (by omega)
      have qy := node_le_y hl (k := j + 1) (by omega)
      push_cast at qx qy
      have dom : InDomain g (i * g.dx) (j * g.dx) := ⟨px, by linarith, py, by linarith⟩
      have domX : InDomain g (i * g.dx) ((j + 1 / 2) * g.dx) := ⟨px, by linarith, by linarith, by linarith⟩
      have domY : InDomain g ((i + 1 / 2) * g.dx) (j * g.dx) := ⟨by linarith, by linarith, py, by linarith⟩
      have e0 : w.nodeE g 0 i j = 0 := by unfold Wave.nodeE; simp [(hr _ _ dom).1]
      have e1 : w.nodeX g 0 i j = w.X (g.dx / 4) (i * g.dx) ((j + 1 / 2) * g.dx) := by
        unfold Wave.nodeX; rw [← dt2]; push_cast; congr 1; ring
      have e2 : w.nodeY g 0 i j = w.Y (g.dx / 4) ((i + 1 / 2) * g.dx) (j * g.dx) := by
        unfold Wave.nodeY; rw [← dt2]; push_cast; congr 1; ring
      have M0 : 0 ≤ M := (abs_nonneg _).trans (hst.E0 0 _ _ le_rfl (by linarith) dom)
      simp only [f1, f2, f3, e0, e1, e2, zero_sub, abs_neg]
      rw [abs_zero]
      refine ⟨fun hc => ⟨by positivity, ?_, ?_⟩, by positivity, ?_, ?_⟩
      · have col : ∀ y : ℝ, j * g.dx ≤ y → y ≤ (j + 1) * g.dx → InDomain g (i * g.dx) y ∧ S (i * g.dx) y := fun y h1 h2 =>
          ⟨⟨px, by linarith, by linarith, by linarith⟩, by
            by_contra hS
            exact hc (.inr ⟨y, by linarith, h2, hS⟩)⟩
        have mid := col ((j + 1 / 2) * g.dx) (by linarith) (by linarith)
        obtain ⟨a2, a3, ha⟩ := hsm.Ey 0 (i * g.dx) _ _ le_rfl (by linarith) col
        have z : w.Ey 0 (i * g.dx) ((j + 1 / 2) * g.dx) = 0 :=
          flat_deriv (ha _ (by linarith) (by linarith)).1 (a := j * g.dx) (b := (j + 1) * g.dx) (by linarith) (by linarith) fun u u1 u2 => (hr _ _ (col u u1.le u2.le).1).1
        have := tame_start (hsm.Xt _ _ mid.1 mid.2) (hr _ _ mid.1).2.1 (by
          show w.Xt 0 _ _ = 0
          rw [hmx.faradayX 0 _ _ le_rfl (by linarith) mid.1 mid.2, z, neg_zero]) (u := g.dx / 4) (by linarith) (by linarith)
        refine this.trans (le_of_eq (by ring))
      · have row : ∀ x : ℝ, i * g.dx ≤ x → x ≤ (i + 1) * g.dx → InDomain g x (j * g.dx) ∧ S x (j * g.dx) := fun x h1 h2 =>
          ⟨⟨by linarith, by linarith, py, by linarith⟩, by
            by_contra hS
            exact hc (.inl ⟨x, by linarith, h2, hS⟩)⟩
        have mid := row ((i + 1 / 2) * g.dx) (by linarith) (by linarith)
        obtain ⟨a2, a3, ha⟩ := hsm.Ex 0 (j * g.dx) _ _ le_rfl (by linarith) row
        have z : w.Ex 0 ((i + 1 / 2) * g.dx) (j * g.dx) = 0 :=
          flat_deriv (ha _ (by linarith) (by linarith)).1 (a := i * g.dx) (b := (i + 1) * g.dx) (by linarith) (by linarith) fun u u1 u2 => (hr _ _ (row u u1.le u2.le).1).1
        have := tame_start (hsm.Yt _ _ mid.1 mid.2) (hr _ _ mid.1).2.2 (by
          show w.Yt 0 _ _ = 0
          rw [hmx.faradayY 0 _ _ le_rfl (by linarith) mid.1 mid.2, z]) (u := g.dx / 4) (by linarith) (by linarith)
        refine this.trans (le_of_eq (by ring))
      · have := hst.Xt 0 (g.dx / 4) _ _ le_rfl (by linarith) (by linarith) domX
        rw [(hr _ _ domX).2.1, sub_zero, sub_zero] at this
        exact this.trans (le_of_eq (by ring))
      · have := hst.Yt 0 (g.dx / 4) _ _ le_rfl (by linarith) (by linarith) domY
        rw [(hr _ _ domY).2.2, sub_zero, sub_zero] at this
        exact this.trans (le_of_eq (by ring))
  exact k

/-- **C84**. A program that makes a closed domain, adds any objects of passive simple media and any sources that add to `Ez`, and takes any number of
steps. For every solution of Maxwell's equations with a current that starts from rest: if the sources carry this current up to `δ`, then the program runs without a
fault, and its fields differ from the solution by at most a term of second order in the size of the cells and the time multiplied by `δ` and a term
of second order; to this is added the contribution of those cells in which the solution is not smooth. -/
theorem C84_radiates (n : ℕ) (g : Grid ℝ) (hw : g.Wide) (hl : Lawful g) (hT : g.T = 0) (objs : List (Object ℝ)) (hb : ∀ o ∈ objs, BoxSound o)
    (hc : ∀ o ∈ objs, ClearOfUnguardedEdges g o) (hp : ∀ o ∈ objs, PassiveObject o) (epsMax sigMax : ℝ) (he : AtMost epsMax objs)
    (hs : ConductAtMost sigMax objs) (eps sig : ℝ → ℝ → ℝ) (hmed : MediumOf objs eps sig) (w : Spec.Wave) (S : ℝ → ℝ → Prop) (J : ℝ → ℝ → ℝ → ℝ) (τ M δ : ℝ)
    (hsm : w.Smooth S g τ M) (hst : w.Steady g τ M) (hmx : w.Driven S eps sig J g τ) (hJ : CurrentAtMost J g τ M) (hwl : w.Walls g τ) (hr : w.AtRest g)
    (srcs : List (Source ℝ)) (fits : ∀ s ∈ srcs, Fits g s) (hδ : 0 ≤ δ) (hk : Spec.Carries g srcs eps sig J τ δ) (hn : ((n : ℝ) + 1 / 2) * g.dt ≤ τ) :
    ∃ c, (⟨objs, srcs, none⟩ : Scene).run g n = .ok c ∧
      Real.sqrt (gap w g n c.f (updatedNodes g)) ≤ restError S g M epsMax + n * g.dt * drivenError S g M epsMax sigMax δ := by
  obtain ⟨c0, c1, c2, l2, h1, h2, h3, h4⟩ := C84_start n g hw hl hT objs hb hc hp epsMax sigMax he hs eps sig hmed w S J τ M δ hsm hst hmx hJ hwl srcs fits hδ hk hn
    (fun _ _ => 0) (fun _ _ => 0) (fun _ _ => 0) fun _ _ _ => ⟨rfl, rfl, rfl⟩
  obtain ⟨c0', c1', med, k1, k2, -, -, same, -⟩ := closed_setup g hw hl hT objs hb hc hp epsMax sigMax he hs eps sig hmed
  obtain rfl := Except.ok.inj (h1.symm.trans k1)
  obtain rfl := Except.ok.inj (h2.symm.trans k2)
  have dt0 : 0 < g.dt := by rw [hl.dt]; linarith [hl.dx]
  refine ⟨c2, ?_, h4.trans (add_le_add_left ?_ _)⟩
  · unfold Scene.run
    rw [same] at h3
    simp only [h1, h2, h3, bind, Except.bind, pure, Except.pure]
  · have q := rest_gap hw hl hT hsm hst hmx hr (by nlinarith [Nat.cast_nonneg (α := ℝ) n]) (f := (withFields c1 (fun _ _ => 0) (fun _ _ => 0) (fun _ _ => 0)).f)
      fun _ _ => ⟨rfl, rfl, rfl⟩
    refine (mul_le_mul_of_nonneg_left (Real.sqrt_le_sqrt q) (by positivity)).trans (le_of_eq ?_)
    unfold restError
    rw [show 12 * (epsMax + 1) = (2 * Real.sqrt (epsMax + 1)) ^ 2 * 3 by rw [mul_pow, Real.sq_sqrt (by linarith [he.1])]; ring]
    rw [mul_assoc ((2 * Real.sqrt (epsMax + 1)) ^ 2), Real.sqrt_mul (sq_nonneg (2 * Real.sqrt (epsMax + 1))), Real.sqrt_sq (by positivity)]
    rfl

/-! ## Programs with a source at every node -/

theorem mem_innerNodes {g : Grid ℝ} {p : V2 ℤ} : p ∈ innerNodes g ↔ 1 ≤ p.x ∧ p.x ≤ g.Nx - 2 ∧ 1 ≤ p.y ∧ p.y ≤ g.Ny - 2 := by
  unfold innerNodes
  simp only [List.mem_flatMap, List.mem_range, List.mem_map]
  constructor
  · rintro ⟨i, hi, j, hj, rfl⟩
    simp only; omega
  · rintro ⟨a, b, e, f⟩
    refine ⟨(p.x - 1).toNat, by omega, (p.y - 1).toNat, by omega, ?_⟩
    ext <;> simp <;> omega

theorem innerNodes_nodup (g : Grid ℝ) : (innerNodes g).Nodup := by
  unfold innerNodes
  rw [List.nodup_flatMap]
  refine ⟨fun i _ => List.Nodup.map (fun a b h => by simpa using congrArg V2.y h) List.nodup_range, ?_⟩
  refine List.Pairwise.imp ?_ (List.nodup_range (n := (g.Nx - 2).toNat))
  intro a b hab
  simp only [Function.onFun, List.disjoint_left, List.mem_map]
  rintro p ⟨j, -, rfl⟩ ⟨k, -, e⟩
  have := congrArg V2.x e
  simp only at this
  omega

theorem radiators_fit {g : Grid ℝ} (hl : Lawful g) (eps sig : ℝ → ℝ → ℝ) (J : ℝ → ℝ → ℝ → ℝ) (a : ℝ) : ∀ s ∈ radiators g eps sig J a, Fits g s := by
  intro s hs
  obtain ⟨p, hp, rfl⟩ := List.mem_map.mp hs
  rw [mem_innerNodes] at hp
  exact currents_fit hl ⟨by omega, by omega, by omega, by omega⟩

/-- The sources carry the current as far as the signals know it. -/
theorem radiators_carry {g : Grid ℝ} (hl : Lawful g) {eps sig : ℝ → ℝ → ℝ} (J : ℝ → ℝ → ℝ → ℝ) {a τ δ : ℝ}
    (hm : ∀ i j, (updatedNodes g).Mem i j → 1 ≤ eps (i * g.dx) (j * g.dx) ∧ 0 ≤ sig (i * g.dx) (j * g.dx))
    (hδ : ∀ (n : ℕ) (i j : ℤ), (updatedNodes g).Mem i j → ((n : ℝ) + 1) * g.dt ≤ τ →
      |J ((n + 1 / 2) * g.dt) (i * g.dx) (j * g.dx) - J ((n + 1) * g.dt + a) (i * g.dx) (j * g.dx)| ≤ δ) :
    Spec.Carries g (radiators g eps sig J a) eps sig J τ δ := by
  refine ⟨fun s hs C i j hd => ?_, fun n i j i0 i1 j0 j1 hn => ?_⟩
  · obtain ⟨p, hp, rfl⟩ := List.mem_map.mp hs
    rw [mem_innerNodes] at hp
    obtain ⟨e, rfl⟩ := (currents_drives hl).mp hd
    exact ⟨e, hp⟩
  · have at' : addedE g (radiators g eps sig J a) ((n + 1) * g.dt) i j =
        - J ((n + 1) * g.dt + a) (i * g.dx) (j * g.dx) / (eps (i * g.dx) (j * g.dx) / g.dt + sig (i * g.dx) (j * g.dx) / 2) :=
      currents_at hl (innerNodes_nodup g) (q := ⟨i, j⟩) (mem_innerNodes.mpr ⟨i0, i1, j0, j1⟩)
    have hmem : (updatedNodes g).Mem i j := ⟨⟨i0, i1⟩, j0, j1⟩
    obtain ⟨e1, e2⟩ := hm i j hmem
    have dt0 : 0 < g.dt := by rw [hl.dt]; linarith [hl.dx]
    have K : 0 < eps (i * g.dx) (j * g.dx) / g.dt + sig (i * g.dx) (j * g.dx) / 2 := by positivity
    rw [at', mul_div_cancel₀ _ K.ne', neg_add_eq_sub]
    exact hδ n i j hmem hn

/-- **C84** for programs that have a point source at every node. With signals that are half a step behind the clock the sources are the current: the error is of
second order in the size of the cells. -/
theorem C84_behind (n : ℕ) (g : Grid ℝ) (hw : g.Wide) (hl : Lawful g) (hT : g.T = 0) (objs : List (Object ℝ)) (hb : ∀ o ∈ objs, BoxSound o)
    (hc : ∀ o ∈ objs, ClearOfUnguardedEdges g o) (hp : ∀ o ∈ objs, PassiveObject o) (epsMax sigMax : ℝ) (he : AtMost epsMax objs)
    (hs : ConductAtMost sigMax objs) (eps sig : ℝ → ℝ → ℝ) (hmed : MediumOf objs eps sig) (w : Spec.Wave) (S : ℝ → ℝ → Prop) (J : ℝ → ℝ → ℝ → ℝ) (τ M : ℝ)
    (hsm : w.Smooth S g τ M) (hst : w.Steady g τ M) (hmx : w.Driven S eps sig J g τ) (hJ : CurrentAtMost J g τ M) (hwl : w.Walls g τ) (hr : w.AtRest g)
    (hn : ((n : ℝ) + 1 / 2) * g.dt ≤ τ) :
    ∃ c, (⟨objs, radiators g eps sig J (- (g.dt / 2)), none⟩ : Scene).run g n = .ok c ∧
      Real.sqrt (gap w g n c.f (updatedNodes g)) ≤ restError S g M epsMax + n * g.dt * drivenError S g M epsMax sigMax 0 := by
  obtain ⟨-, -, med, -, -, -, -, -, -, hmd⟩ := closed_setup g hw hl hT objs hb hc hp epsMax sigMax he hs eps sig hmed
  refine C84_radiates n g hw hl hT objs hb hc hp epsMax sigMax he hs eps sig hmed w S J τ M 0 hsm hst hmx hJ hwl hr _ (radiators_fit hl eps sig J _) le_rfl
    (radiators_carry hl J (fun i j h => ?_) fun m i j _ _ => ?_) hn
  · obtain ⟨e1, e2, e3, -, e5, -⟩ := hmd i j h
    rw [← e1, ← e2]
    exact ⟨e3, e5⟩
  · rw [show ((m : ℝ) + 1) * g.dt + - (g.dt / 2) = (m + 1 / 2) * g.dt by ring, sub_self, abs_zero]

/-- **C84** for programs whose signals are the current at the time of the clock: the error is of first order, for a current that changes by at most `L` per
unit of time. -/
theorem C84_signals (n : ℕ) (g : Grid ℝ) (hw : g.Wide) (hl : Lawful g) (hT : g.T = 0) (objs : List (Object ℝ)) (hb : ∀ o ∈ objs, BoxSound o)
    (hc : ∀ o ∈ objs, ClearOfUnguardedEdges g o) (hp : ∀ o ∈ objs, PassiveObject o) (epsMax sigMax : ℝ) (he : AtMost epsMax objs)
    (hs : ConductAtMost sigMax objs) (eps sig : ℝ → ℝ → ℝ) (hmed : MediumOf objs eps sig) (w : Spec.Wave) (S : ℝ → ℝ → Prop) (J : ℝ → ℝ → ℝ → ℝ) (τ M L : ℝ)
    (hsm : w.Smooth S g τ M) (hst : w.Steady g τ M) (hmx : w.Driven S eps sig J g τ) (hJ : CurrentAtMost J g τ M) (hwl : w.Walls g τ) (hr : w.AtRest g)
    (hL : ∀ t t' x y, 0 ≤ t → t ≤ t' → t' ≤ τ → InDomain g x y → |J t' x y - J t x y| ≤ L * (t' - t)) (L0 : 0 ≤ L)
    (hn : ((n : ℝ) + 1 / 2) * g.dt ≤ τ) :
    ∃ c, (⟨objs, radiators g eps sig J 0, none⟩ : Scene).run g n = .ok c ∧
      Real.sqrt (gap w g n c.f (updatedNodes g)) ≤ restError S g M epsMax + n * g.dt * drivenError S g M epsMax sigMax (L * (g.dt / 2)) := by
  obtain ⟨-, -, med, -, -, -, -, -, -, hmd⟩ := closed_setup g hw hl hT objs hb hc hp epsMax sigMax he hs eps sig hmed
  have dt0 : 0 < g.dt := by rw [hl.dt]; linarith [hl.dx]
  refine C84_radiates n g hw hl hT objs hb hc hp epsMax sigMax he hs eps sig hmed w S J τ M _ hsm hst hmx hJ hwl hr _ (radiators_fit hl eps sig J _) (by positivity)
    (radiators_carry hl J (fun i j h => ?_) fun m i j hm ht => ?_) hn
  · obtain ⟨e1, e2, e3, -, e5, -⟩ := hmd i j h
    rw [← e1, ← e2]
    exact ⟨e3, e5⟩
  · unfold Box.Mem updatedNodes at hm
    simp only at hm
    rw [add_zero, abs_sub_comm]
    refine (hL _ _ _ _ (by positivity) (by nlinarith) ht ⟨node_pos hl (by omega), node_le_x hl (by omega), node_pos hl (by omega), node_le_y hl (by omega)⟩).trans
      (le_of_eq (by ring))

end Qbox.Props
