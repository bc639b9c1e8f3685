import Verif.Props.DrivenProps
import Verif.Props.RestartProps
import Verif.Lemmas.SimCore
import Mathlib.Analysis.SpecificLimits.Basic
import Mathlib.Topology.Algebra.InfiniteSum.Real
import Mathlib.Analysis.SpecialFunctions.Exp

/-! # Gaussian pulses end (C69), and what they leave behind stays bounded (C70) -/

namespace Qbox.Props
open Qbox Scalar Spec

/-- The signal of `gaussian_time` is a sine under a Gaussian envelope. -/
theorem C69_signal (f sig T0 t : ℝ) : (TimeProfile.gaussian f sig T0).resp t = pulse f sig T0 t := by
  simp only [TimeProfile.gaussian, gaussianResp, pulse, sin_real, exp_real, pi_real, ofInt_real, npow_real]
  push_cast
  congr 2
  ring

/-- **C69** (envelope): it is never larger than the envelope, which is at most one. -/
theorem C69_envelope (f sig T0 t : ℝ) : |(TimeProfile.gaussian f sig T0).resp t| ≤ Real.exp (-(2 * Real.pi * sig * (t - T0)) ^ 2) ∧
    |(TimeProfile.gaussian f sig T0).resp t| ≤ 1 := by
  have h : |(TimeProfile.gaussian f sig T0).resp t| ≤ Real.exp (-(2 * Real.pi * sig * (t - T0)) ^ 2) := by
    rw [C69_signal]
    unfold pulse
    rw [abs_mul, abs_of_pos (Real.exp_pos _)]
    have := Real.abs_sin_le_one (2 * Real.pi * f * t)
    nlinarith [Real.exp_pos (-(2 * Real.pi * sig * (t - T0)) ^ 2)]
  refine ⟨h, h.trans ?_⟩
  rw [Real.exp_le_one_iff]
  nlinarith [sq_nonneg (2 * Real.pi * sig * (t - T0))]

/-- **C69** (end): `w` widths before or after `T0` it is at most `exp (-w^2)`. -/
theorem C69_over (f sig T0 t w : ℝ) (hs : sig ≠ 0) (hw : 0 ≤ w) (ht : w / (2 * Real.pi * |sig|) ≤ |t - T0|) :
    |(TimeProfile.gaussian f sig T0).resp t| ≤ Real.exp (-w ^ 2) := by
  refine (C69_envelope f sig T0 t).1.trans (Real.exp_le_exp.mpr ?_)
  have hp : 0 < 2 * Real.pi * |sig| := by positivity
  have h1 : w ≤ 2 * Real.pi * |sig| * |t - T0| := by
    rw [div_le_iff₀ hp] at ht
    linarith
  have h2 : (2 * Real.pi * |sig| * |t - T0|) ^ 2 = (2 * Real.pi * sig * (t - T0)) ^ 2 := by
    rw [mul_pow, mul_pow, sq_abs, sq_abs]; ring
  nlinarith

/-- The samples of a pulse can be added up. -/
theorem C69_summable (f sig T0 t dt : ℝ) (hs : sig ≠ 0) (hd : 0 < dt) :
    Summable fun m : ℕ => |(TimeProfile.gaussian f sig T0).resp (t + ((m : ℝ) + 1) * dt)| := by
  have hp : 0 < 2 * Real.pi * |sig| := by positivity
  set a := 2 * Real.pi * |sig| * dt
  have ha : 0 < a := by positivity
  set b := 2 * Real.pi * |sig| * (t + dt - T0)
  refine Summable.of_nonneg_of_le (fun _ => abs_nonneg _) (f := fun m : ℕ => Real.exp (1 / 4 - b) * Real.exp (-a) ^ m) (fun m => ?_)
    (Summable.mul_left _ (summable_geometric_of_lt_one (Real.exp_pos _).le (by rw [Real.exp_lt_one_iff]; linarith)))
  refine (C69_envelope f sig T0 _).1.trans ?_
  rw [← Real.exp_nat_mul, ← Real.exp_add, Real.exp_le_exp]
  have e : (2 * Real.pi * sig * (t + ((m : ℝ) + 1) * dt - T0)) ^ 2 = (a * m + b) ^ 2 := by
    have : a * m + b = 2 * Real.pi * |sig| * (t + ((m : ℝ) + 1) * dt - T0) := by simp only [a, b]; ring
    rw [this]; simp only [mul_pow, sq_abs]
  rw [e]
  nlinarith [sq_nonneg (a * m + b - 1 / 2)]

/-- The spectrum that is approached: the Fourier sums over all times. -/
noncomputable def fullCos (r : ℝ → ℝ) (t dt f : ℝ) : ℝ := ∑' m : ℕ, r (t + ((m : ℝ) + 1) * dt) * Real.cos (2 * Real.pi * f * (t + ((m : ℝ) + 1) * dt))
noncomputable def fullSin (r : ℝ → ℝ) (t dt f : ℝ) : ℝ := ∑' m : ℕ, r (t + ((m : ℝ) + 1) * dt) * Real.sin (2 * Real.pi * f * (t + ((m : ℝ) + 1) * dt))

theorem list_range_sum (F : ℕ → ℝ) (n : ℕ) : ((List.range n).map F).sum = ∑ m ∈ Finset.range n, F m := by
  induction n with
  | zero => simp
  | succ n ih => rw [List.range_succ, List.map_append, List.sum_append, ih, Finset.sum_range_succ]; simp

/-- **C69** (spectrum): the spectrum that a source of a pulse records converges as the simulation goes on: from some number of updates on it stays
as close as one likes to the Fourier sums over all times, for all requested frequencies. -/
theorem C69_converges (c : Core ℝ) (hdt : 0 < c.g.dt) (ht : 0 ≤ c.t) (l : List (Source ℝ)) (i : ℕ) (s : Source ℝ) (hi : l[i]? = some s)
    (f sig T0 : ℝ) (hsig : sig ≠ 0) (fr : List ℝ) (hs : s.tp = (TimeProfile.gaussian f sig T0).freq fr) (ε : ℝ) (hε : 0 < ε) :
    ∃ N : ℕ, ∀ n ≥ N, ∀ c' l', c.run n l = .ok (c', l') → ∃ s' d A, l'[i]? = some s' ∧ s'.tp.dft = some d ∧ d.get "dft" = .ok A ∧
      ∀ (k : ℕ) (hk : k < fr.length), |A.re () k - fullCos (TimeProfile.gaussian f sig T0).resp c.t c.g.dt fr[k]| < ε ∧
        |A.im () k - fullSin (TimeProfile.gaussian f sig T0).resp c.t c.g.dt fr[k]| < ε := by
  have sum := C69_summable f sig T0 c.t c.g.dt hsig hdt
  set r := (TimeProfile.gaussian f sig T0).resp
  have key : ∀ (q : ℝ → ℝ → ℝ), (∀ a b, |q a b| ≤ 1) → ∀ x : ℝ, ∃ N : ℕ, ∀ n ≥ N,
      |((List.range n).map fun m : ℕ => r (c.t + ((m : ℝ) + 1) * c.g.dt) * q x (c.t + ((m : ℝ) + 1) * c.g.dt)).sum -
        ∑' m : ℕ, r (c.t + ((m : ℝ) + 1) * c.g.dt) * q x (c.t + ((m : ℝ) + 1) * c.g.dt)| < ε := by
    intro q hq x
    have sm : Summable fun m : ℕ => r (c.t + ((m : ℝ) + 1) * c.g.dt) * q x (c.t + ((m : ℝ) + 1) * c.g.dt) := by
      refine Summable.of_norm_bounded sum fun m => ?_
      rw [Real.norm_eq_abs, abs_mul]
      exact mul_le_of_le_one_right (abs_nonneg _) (hq _ _)
    obtain ⟨N, hN⟩ := Metric.tendsto_atTop.mp sm.hasSum.tendsto_sum_nat ε hε
    refine ⟨N, fun n hn => ?_⟩
    have := hN n hn
    rw [Real.dist_eq] at this
    rw [list_range_sum]
    exact this
  have all : ∀ fr : List ℝ, ∃ N : ℕ, ∀ n ≥ N, ∀ x ∈ fr,
      |((List.range n).map fun m : ℕ => r (c.t + ((m : ℝ) + 1) * c.g.dt) * Real.cos (2 * Real.pi * x * (c.t + ((m : ℝ) + 1) * c.g.dt))).sum -
        fullCos r c.t c.g.dt x| < ε ∧
      |((List.range n).map fun m : ℕ => r (c.t + ((m : ℝ) + 1) * c.g.dt) * Real.sin (2 * Real.pi * x * (c.t + ((m : ℝ) + 1) * c.g.dt))).sum -
        fullSin r c.t c.g.dt x| < ε := by
    intro fr
    induction fr with
    | nil => exact ⟨0, by simp⟩
    | cons x fr ih =>
      obtain ⟨N1, h1⟩ := ih
      obtain ⟨N2, h2⟩ := key (fun x t => Real.cos (2 * Real.pi * x * t)) (fun a b => Real.abs_cos_le_one _) x
      obtain ⟨N3, h3⟩ := key (fun x t => Real.sin (2 * Real.pi * x * t)) (fun a b => Real.abs_sin_le_one _) x
      refine ⟨max N1 (max N2 N3), fun n hn y hy => ?_⟩
      rcases List.mem_cons.mp hy with rfl | hy
      · exact ⟨h2 n (by omega), h3 n (by omega)⟩
      · exact h1 n (by omega) y hy
  obtain ⟨N, hN⟩ := all fr
  refine ⟨N, fun n hn c' l' hr => ?_⟩
  have F := C53_spectrum n c hdt ht l hr
  have hlen := F.length_eq
  have hil : i < l.length := (List.getElem?_eq_some_iff.mp hi).1
  have Fi := List.forall₂_iff_get.mp F
  have := Fi.2 i hil (by omega)
  have hsi : l.get ⟨i, hil⟩ = s := by
    rw [List.getElem?_eq_getElem hil] at hi
    exact Option.some.inj hi
  rw [hsi] at this
  obtain ⟨d, A, h1, h2, h3⟩ := this _ fr hs
  refine ⟨_, d, A, List.getElem?_eq_getElem (by omega), h1, h2, fun k hk => ?_⟩
  obtain ⟨e1, e2⟩ := h3 k hk
  rw [e1, e2]
  exact hN n hn _ (List.getElem_mem hk)

/-! ## Programs -/

theorem phys_objects {K : Type} [Scalar K] : ∀ (l : List (Object K)) (p p' : Phys K), p.run (l.map .addObject) = .ok p' →
    forList l p.core (fun o c => c.insertObject o) = .ok p'.core ∧ p'.srcs = p.srcs
  | [], p, p', h => by cases h; exact ⟨rfl, rfl⟩
  | o :: l, p, p', h => by
    rw [List.map_cons, Phys.run] at h
    obtain ⟨q, h1, h⟩ := (Except.bind_ok ..).mp h
    obtain ⟨c, h3, h2⟩ := (Except.bind_ok ..).mp h1
    cases h2
    obtain ⟨e1, e2⟩ := phys_objects l _ p' h
    exact ⟨by rw [forList_cons, h3, Except.ok_bind]; exact e1, e2⟩

theorem insertAll_time : ∀ (l : List (Object ℝ)) (c c' : Core ℝ), c.WF → (∀ o ∈ l, o.Safe c.g) → forList l c (fun o c => c.insertObject o) = .ok c' → c'.t = c.t
  | [], c, c', _, _, h => by cases h; rfl
  | o :: l, c, c', hw, hs, h => by
    obtain ⟨c1, h1, w1, g1, -, t1, -⟩ := Core.insertObject_ok hw (hs o (by simp))
    rw [forList_cons, h1, Except.ok_bind] at h
    rw [insertAll_time l c1 c' w1 (by rw [g1]; exact fun o' ho => hs o' (by simp [ho])) h, t1]

/-- A program that adds objects, then sources, then updates, with any calls that only look at the simulation in between. -/
structure Drive (now : ℕ → ℝ) (g : Grid ℝ) (objs : List (Object ℝ)) (srcs : List (Source ℝ)) (n : ℕ) (s : Sim ℝ) : Prop where
  wide : g.Wide
  law : Lawful g
  layer : g.T = 0
  sound : ∀ o ∈ objs, BoxSound o
  clear : ∀ o ∈ objs, ClearOfUnguardedEdges g o
  passive : ∀ o ∈ objs, PassiveObject o
  fits : ∀ x ∈ srcs, Fits g x
  inside : ∀ x ∈ srcs, DrivesIn g (updatedNodes g) x
  run : ∃ fn s0 ops, Sim.make now g fn = .ok s0 ∧ physical ops = objs.map .addObject ++ srcs.map .addSource ++ List.replicate n .update ∧
    s0.runOk now ops = .ok s

/-- No object has a permittivity above `epsMax`, and neither has the vacuum. -/
def AtMost (epsMax : ℝ) (objs : List (Object ℝ)) : Prop := 1 ≤ epsMax ∧ ∀ o ∈ objs, ∀ m, o.mat.kind = .simple m → m.eps ≤ epsMax

theorem filled_atMost {g : Grid ℝ} {objs : List (Object ℝ)} {med : ℤ → ℤ → Simple ℝ} (hm : FilledBy g objs med) {epsMax : ℝ} (h : AtMost epsMax objs)
    (i j : ℤ) : (med i j).eps ≤ epsMax := by
  rcases C09_total objs (g.toReal ⟨i, j⟩) with hn | ⟨o, ho⟩
  · rw [hm.vacuum i j hn]
    simpa [Qbox.vacuum] using h.1
  · have hmem : o ∈ objs := by
      obtain ⟨b, a, e, -, -⟩ := ho
      rw [e]; simp
    exact h.2 o hmem _ (hm.object i j o ho)

/-- **C70** for programs: nothing but the sources makes the field, and the root of its energy is at most proportional to what they have emitted. -/
theorem C70_program {now : ℕ → ℝ} {g : Grid ℝ} {objs : List (Object ℝ)} {srcs : List (Source ℝ)} {n : ℕ} {s : Sim ℝ} (h : Drive now g objs srcs n s)
    {epsMax : ℝ} (he : AtMost epsMax objs) (med : ℤ → ℤ → Simple ℝ) (hm : FilledBy g objs med) :
    Real.sqrt (energy g med s.core.f (updatedNodes g)) ≤ gain g (updatedNodes g) epsMax * emittedBy srcs 0 g.dt n ∧
    size g s.core.f (updatedNodes g) ≤ 8 * energy g med s.core.f (updatedNodes g) := by
  obtain ⟨fn, s0, ops, hs, hp, hr⟩ := h.run
  obtain ⟨-, -, c1, o1, l1, -, -⟩ := make_unwatched hs
  have r := Sim.run_phys _ _ _ hr
  rw [hp, List.append_assoc, Phys.run_append] at r
  obtain ⟨q, r1, r⟩ := (Except.bind_ok ..).mp r
  obtain ⟨e1, e2⟩ := phys_objects _ _ _ r1
  rw [Phys.run_append, phys_sources, Except.ok_bind] at r
  have r := phys_updates _ _ _ r
  simp only [e2, Sim.phys, l1, List.nil_append] at r
  obtain ⟨c0, c2, h1, h2, h3, h4, h5, h6, h7, h8, h9⟩ := objects_passive h.wide h.law (.inl h.layer) objs h.sound h.clear h.passive med hm
    (fun _ _ => 0) (fun _ _ => 0) (fun _ _ => 0)
  rw [c1] at h1
  cases h1
  have e1' : forList objs s0.core (fun o c => c.insertObject o) = .ok q.core := e1
  rw [h2] at e1'
  have eq := Except.ok.inj e1'
  -- the field before the first update is zero
  obtain ⟨d0, m1, m2, m3, m4, m5⟩ := make_empty h.wide h.law (.inl h.layer)
  rw [c1] at m1
  cases m1
  obtain ⟨d1, k1, k2, k3, k4⟩ := Core.Std.insertAll objs m2 m4 fun o ho => safe_of_clear m2.law (by rw [m3]; exact h.clear o ho)
  rw [h2] at k1
  cases k1
  have hcl : Closed c2 med := by
    refine ⟨k2, by rw [h4, h.layer], h8, h6, h7, ?_, ?_⟩
    · rw [h4]
      have p := h9 (updatedNodes g) fun i j hm => by
        unfold Box.Mem updatedNodes at hm
        simp only at hm
        constructor <;> rw [h.layer] <;> omega
      exact ⟨p.beyond, fun i j hm => ⟨(p.medium i j hm).debye, (p.medium i j hm).drude, (p.medium i j hm).lorentz,
        ⟨(p.medium i j hm).medium.Ca, (p.medium i j hm).medium.Cb, (p.medium i j hm).medium.Da, (p.medium i j hm).medium.Db⟩⟩, p.eps, p.conduc, p.lorentz⟩
    · exact ⟨fun j => k4.Hy _ _, fun j => k4.Ez _ _, fun i => k4.Hx _ _, fun i => k4.Ez _ _⟩
  obtain ⟨c', l', u, b1, b2⟩ := C70_driven n c2 med hcl epsMax (fun i j _ => filled_atMost hm he i j) srcs (by rw [h4]; exact h.fits) (by rw [h4]; exact h.inside)
  rw [eq, r] at u
  cases u
  have z : energy c2.g med c2.f (updatedNodes c2.g) = 0 := by
    unfold energy Box.sum
    refine mul_eq_zero_of_right _ (Finset.sum_eq_zero fun i _ => Finset.sum_eq_zero fun j _ => ?_)
    have e1 : ∀ i j, c2.f.Ez.val i j = 0 := k4.Ez
    have e2 : ∀ i j, c2.f.Hx.val i j = 0 := k4.Hx
    have e3 : ∀ i j, c2.f.Hy.val i j = 0 := k4.Hy
    simp only [e1, e2, e3]
    ring
  have t0 : c2.t = 0 := by
    rw [insertAll_time objs s0.core c2 m2.wf (fun o ho => safe_of_clear m2.law (by rw [m3]; exact h.clear o ho)) h2]
    obtain ⟨d, w1, -, -, -, w2, -⟩ := Core.make_ok (g := g) (by have := h.wide.nx; omega) (by have := h.wide.ny; omega)
    rw [c1] at w1
    cases w1
    exact w2
  rw [z, t0, h4, Real.sqrt_zero, zero_add] at b1
  rw [h4] at b2
  exact ⟨b1, b2⟩

/-! ## Pulses -/

/-- Every source is a pulse. -/
def Pulses (srcs : List (Source ℝ)) : Prop := ∀ x ∈ srcs, ∃ f sig T0 fr, sig ≠ 0 ∧ x.tp = (TimeProfile.gaussian f sig T0).freq fr

theorem pulses_summable : ∀ (srcs : List (Source ℝ)), Pulses srcs → ∀ (t dt : ℝ), 0 < dt →
    Summable fun m : ℕ => loudness srcs (t + ((m : ℝ) + 1) * dt)
  | [], _, _, _, _ => by
    unfold loudness
    simp only [List.map_nil, List.sum_nil]
    exact summable_zero
  | x :: l, h, t, dt, hd => by
    obtain ⟨f, sig, T0, fr, h1, h2⟩ := h x (by simp)
    have a := C69_summable f sig T0 t dt h1 hd
    have b := pulses_summable l (fun y hy => h y (by simp [hy])) t dt hd
    have : (fun m : ℕ => loudness (x :: l) (t + ((m : ℝ) + 1) * dt)) =
        fun m : ℕ => |(TimeProfile.gaussian f sig T0).resp (t + ((m : ℝ) + 1) * dt)| + loudness l (t + ((m : ℝ) + 1) * dt) := by
      funext m
      unfold loudness
      rw [List.map_cons, List.sum_cons, h2]
      rfl
    rw [this]
    exact a.add b

/-- What pulses emit, in however many updates, is at most a fixed amount. -/
theorem pulses_emit (srcs : List (Source ℝ)) (h : Pulses srcs) (t dt : ℝ) (hd : 0 < dt) : ∃ A, ∀ n, emittedBy srcs t dt n ≤ A :=
  ⟨_, fun n => (pulses_summable srcs h t dt hd).sum_le_tsum (Finset.range n) fun _ _ => loudness_nonneg _ _⟩

theorem atMost_exists : ∀ objs : List (Object ℝ), ∃ epsMax, AtMost epsMax objs
  | [] => ⟨1, le_refl _, by simp⟩
  | o :: l => by
    obtain ⟨e, h1, h2⟩ := atMost_exists l
    have : ∃ e' : ℝ, ∀ m, o.mat.kind = .simple m → m.eps ≤ e' := by
      by_cases hk : ∃ m, o.mat.kind = .simple m
      · obtain ⟨m, hm⟩ := hk
        refine ⟨m.eps, fun m' h' => ?_⟩
        rw [hm] at h'
        rw [MatKind.simple.inj h']
      · exact ⟨0, fun m h => absurd ⟨m, h⟩ hk⟩
    obtain ⟨e', h3⟩ := this
    refine ⟨max e e', le_max_of_le_left h1, fun o' ho m hm => ?_⟩
    rcases List.mem_cons.mp ho with rfl | ho
    · exact (h3 m hm).trans (le_max_right _ _)
    · exact (h2 o' ho m hm).trans (le_max_left _ _)

/-- One node's part of the size. -/
theorem size_node {g : Grid ℝ} (hg : 0 < g.dx) (f : Flds ℝ) (R : Box) {i j : ℤ} (h : R.Mem i j) {b : ℝ} (hb : size g f R ≤ b ^ 2) :
    g.dx * |f.Ez.val i j| ≤ |b| ∧ g.dx * |f.Hx.val i j| ≤ |b| ∧ g.dx * |f.Hy.val i j| ≤ |b| := by
  have hle : g.dx ^ 2 * (f.Ez.val i j ^ 2 + f.Hx.val i j ^ 2 + f.Hy.val i j ^ 2) ≤ b ^ 2 := by
    refine le_trans (mul_le_mul_of_nonneg_left ?_ (sq_nonneg _)) hb
    unfold Box.sum
    refine le_trans ?_ (Finset.single_le_sum (f := fun i => ∑ j ∈ Finset.Icc R.b R.t, (f.Ez.val i j ^ 2 + f.Hx.val i j ^ 2 + f.Hy.val i j ^ 2))
      (fun i _ => Finset.sum_nonneg fun j _ => by positivity) (Finset.mem_Icc.mpr h.1))
    exact Finset.single_le_sum (f := fun j => f.Ez.val i j ^ 2 + f.Hx.val i j ^ 2 + f.Hy.val i j ^ 2) (fun j _ => by positivity)
      (Finset.mem_Icc.mpr h.2)
  have one : ∀ v : ℝ, g.dx ^ 2 * v ^ 2 ≤ b ^ 2 → g.dx * |v| ≤ |b| := by
    intro v hv
    have := sq_le_sq.mp (show (g.dx * v) ^ 2 ≤ b ^ 2 by rw [mul_pow]; exact hv)
    rwa [abs_mul, abs_of_pos hg] at this
  refine ⟨one _ ?_, one _ ?_, one _ ?_⟩ <;>
    nlinarith [mul_nonneg (sq_nonneg g.dx) (sq_nonneg (f.Ez.val i j)), mul_nonneg (sq_nonneg g.dx) (sq_nonneg (f.Hx.val i j)),
      mul_nonneg (sq_nonneg g.dx) (sq_nonneg (f.Hy.val i j))]

/-- **C70** for programs with pulses: in a domain without layer, with passive objects and pulses for sources, there is one bound that the field never
exceeds, however long the simulation runs. -/
theorem C70_pulses (g : Grid ℝ) (objs : List (Object ℝ)) (srcs : List (Source ℝ)) (hp : Pulses srcs) :
    ∃ B, ∀ now n s, Drive now g objs srcs n s → ∀ i j, (updatedNodes g).Mem i j →
      |s.core.f.Ez.val i j| ≤ B ∧ |s.core.f.Hx.val i j| ≤ B ∧ |s.core.f.Hy.val i j| ≤ B := by
  by_cases hl : Lawful g
  swap
  · exact ⟨0, fun now n s h => absurd h.law hl⟩
  obtain ⟨e, he⟩ := atMost_exists objs
  obtain ⟨A, hA⟩ := pulses_emit srcs hp 0 g.dt (by rw [hl.dt]; exact half_pos hl.dx)
  set G := gain g (updatedNodes g) e
  have hG : 0 ≤ G := Real.sqrt_nonneg _
  refine ⟨|3 * (G * A)| / g.dx, fun now n s h i j hm => ?_⟩
  obtain ⟨med, hmed⟩ := filled_exists g objs h.passive
  obtain ⟨b1, b2⟩ := C70_program h he med hmed
  have b3 := b1.trans (mul_le_mul_of_nonneg_left (hA n) hG)
  have b4 : energy g med s.core.f (updatedNodes g) ≤ (G * A) ^ 2 := by
    rcases le_or_gt 0 (energy g med s.core.f (updatedNodes g)) with h0 | h0
    · rw [← Real.sq_sqrt h0]
      exact pow_le_pow_left₀ (Real.sqrt_nonneg _) b3 2
    · exact h0.le.trans (sq_nonneg _)
  have dx : 0 < g.dx := hl.dx
  obtain ⟨q1, q2, q3⟩ := size_node dx s.core.f _ hm (b := 3 * (G * A)) (by nlinarith)
  refine ⟨?_, ?_, ?_⟩ <;> rw [le_div_iff₀ dx] <;> linarith

/-! ## The hypotheses can be met -/

theorem drive_updates {g : Grid ℝ} : ∀ (n : ℕ) (objs : List (Object ℝ)), Inside False g objs (List.replicate n .update)
  | 0, _ => trivial
  | n + 1, objs => by rw [List.replicate_succ]; exact drive_updates n objs

theorem drive_sources {g : Grid ℝ} {rest : List (Op ℝ)} : ∀ (l : List (Source ℝ)) (objs : List (Object ℝ)), (∀ x ∈ l, Fits g x) → Inside False g objs rest →
    Inside False g objs (l.map .addSource ++ rest)
  | [], _, _, h => h
  | x :: l, objs, hf, h => ⟨hf x (by simp), drive_sources l objs (fun y hy => hf y (by simp [hy])) h⟩

theorem drive_objects {g : Grid ℝ} {rest : List (Op ℝ)} (h : ∀ objs, Inside False g objs rest) : ∀ (l objs : List (Object ℝ)), (∀ o ∈ l, o.Safe g) →
    Inside False g objs (l.map .addObject ++ rest)
  | [], objs, _ => h objs
  | o :: l, objs, hs => ⟨hs o (by simp), drive_objects h l _ fun y hy => hs y (by simp [hy])⟩

/-- Such programs run, however many updates they make. -/
theorem drive_exists (now : ℕ → ℝ) {g : Grid ℝ} {objs : List (Object ℝ)} {srcs : List (Source ℝ)} (n : ℕ) (hw : g.Wide) (hl : Lawful g) (hT : g.T = 0)
    (hb : ∀ o ∈ objs, BoxSound o) (hc : ∀ o ∈ objs, ClearOfUnguardedEdges g o) (hp : ∀ o ∈ objs, PassiveObject o) (hf : ∀ x ∈ srcs, Fits g x)
    (hd : ∀ x ∈ srcs, DrivesIn g (updatedNodes g) x) : ∃ s, Drive now g objs srcs n s := by
  obtain ⟨s0, h0, hs⟩ := make_safe now False g hw "out" (by decide)
  obtain ⟨-, un, -⟩ := make_unwatched h0
  obtain ⟨s', -, e, -⟩ := runOk_plain now hw hl.dx (objs.map .addObject ++ (srcs.map .addSource ++ List.replicate n .update)) [] s0
    (drive_objects (fun objs => drive_sources srcs objs hf (drive_updates n objs)) objs [] fun o ho => safe_of_clear hl (hc o ho)) hs (make_clocks h0).idle
    un.tmons (by
      intro op ho
      simp only [List.mem_append, List.mem_map, List.mem_replicate] at ho
      rcases ho with ⟨o, -, rfl⟩ | ⟨o, -, rfl⟩ | ⟨-, rfl⟩ <;> simp [NoOutput])
  refine ⟨s', hw, hl, hT, hb, hc, hp, hf, hd, "out", s0, _, h0, ?_, e⟩
  rw [List.append_assoc]
  unfold physical
  rw [List.filter_eq_self]
  intro op ho
  simp only [List.mem_append, List.mem_map, List.mem_replicate] at ho
  rcases ho with ⟨o, -, rfl⟩ | ⟨o, -, rfl⟩ | ⟨-, rfl⟩ <;> rfl

theorem gOpen_wide : gOpen.Wide := ⟨by rw [gOpen_T, gOpen_Nx]; norm_num, by rw [gOpen_T, gOpen_Ny]; norm_num⟩

/-- A pulse at one node. -/
noncomputable def flash : Source ℝ := ⟨"s", .point .Ez ⟨((5 : ℤ) : ℝ), ((5 : ℤ) : ℝ)⟩, (TimeProfile.gaussian 1 (1 / 10) 20).freq [1]⟩

/-- A non-trivial case of `C70_program` and `C70_pulses`: a disc of a conducting dielectric and a pulse, for any number of updates. -/
example (now : ℕ → ℝ) (n : ℕ) : Pulses [flash] ∧ ∃ s, Drive now gOpen [disc ⟨"m", .simple ⟨3, 1, 1⟩⟩ 10 10] [flash] n s := by
  have node : gOpen.toGrid ⟨((5 : ℤ) : ℝ), ((5 : ℤ) : ℝ)⟩ = ⟨5, 5⟩ := by
    have h := C01_index_roundtrip 20 20 1 (-1) one_pos ⟨5, 5⟩
    have e : (Grid.make 20 20 1 (-1) : Grid ℝ).toReal ⟨5, 5⟩ = ⟨((5 : ℤ) : ℝ), ((5 : ℤ) : ℝ)⟩ := by simp [Grid.toReal, Grid.make]
    rw [e] at h
    exact h
  refine ⟨fun x hx => ?_, drive_exists now n gOpen_wide gOpen_lawful gOpen_T ?_ ?_ ?_ ?_ ?_⟩
  · rw [List.mem_singleton.mp hx]
    exact ⟨1, 1 / 10, 20, [1], by norm_num, rfl⟩
  · intro o ho
    rw [List.mem_singleton.mp ho]
    exact disc_sound _ _ _
  · intro o ho p hin
    rw [List.mem_singleton.mp ho, disc_inside] at hin
    have : gOpen.Lx = 19 := by simp [gOpen, Grid.make]
    rw [this]
    constructor <;> nlinarith [sq_nonneg (p.x - 10), sq_nonneg (p.y - 10)]
  · intro o ho
    rw [List.mem_singleton.mp ho]
    exact ⟨⟨3, 1, 1⟩, rfl, by norm_num, by norm_num⟩
  · intro x hx
    rw [List.mem_singleton.mp hx]
    refine ⟨by decide, ?_⟩
    rw [node]
    exact ⟨by norm_num, by rw [gOpen_Nx]; norm_num, by norm_num, by rw [gOpen_Ny]; norm_num⟩
  · intro x hx C i j h
    rw [List.mem_singleton.mp hx] at h
    have h2 := h.2
    rw [node] at h2
    cases h2
    unfold Box.Mem updatedNodes
    rw [gOpen_Nx, gOpen_Ny]
    norm_num

/-- A non-trivial case of `C69_converges`: the pulse of the last example, recorded on a grid of steps of length one half. -/
example : ∃ (c : Core ℝ) (s : Source ℝ), 0 < c.g.dt ∧ 0 ≤ c.t ∧ s.tp = (TimeProfile.gaussian 1 (1 / 10) 20).freq [1] ∧
    (TimeProfile.gaussian (1 / 4) (1 / 10 : ℝ) 1).resp 1 = 1 := by
  obtain ⟨c, -, -, hg, -, ht, -⟩ := Core.make_ok (g := gOpen) (by rw [gOpen_T, gOpen_Nx]; norm_num) (by rw [gOpen_T, gOpen_Ny]; norm_num)
  refine ⟨c, flash, ?_, by rw [ht], rfl, ?_⟩
  · rw [hg, gOpen_lawful.dt]
    exact half_pos gOpen_lawful.dx
  · rw [C69_signal]
    unfold pulse
    rw [show 2 * Real.pi * (1 / 4) * 1 = Real.pi / 2 by ring, Real.sin_pi_div_two]
    simp

end Qbox.Props
