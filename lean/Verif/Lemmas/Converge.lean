import Verif.Spec.ConvergeSpec
import Verif.Props.DrivenProps
import Mathlib.Analysis.Calculus.MeanValue
import Mathlib.Analysis.Calculus.Deriv.Shift

/-! # Differences of smooth functions, and the energy of an error -/

namespace Qbox
open Scalar Spec Props

/-- A function that is zero at zero and whose derivative is at most `C`. -/
theorem small_of_deriv {f f' : ℝ → ℝ} {C δ : ℝ} (hf : ∀ u, 0 ≤ u → u ≤ δ → HasDerivAt f (f' u) u ∧ |f' u| ≤ C) (h0 : f 0 = 0) {u : ℝ} (h : 0 ≤ u) (hu : u ≤ δ) :
    |f u| ≤ C * u := by
  have := norm_image_sub_le_of_norm_deriv_le_segment' (f := f) (f' := f') (C := C) (a := 0) (b := δ)
    (fun x hx => (hf x hx.1 hx.2).1.hasDerivWithinAt) (fun x hx => (hf x hx.1 hx.2.le).2) u ⟨h, hu⟩
  rwa [h0, sub_zero, sub_zero] at this

theorem hasDerivAt_fwd {f : ℝ → ℝ} {f' s u : ℝ} (h : HasDerivAt f f' (s + u)) : HasDerivAt (fun u => f (s + u)) f' u := by
  have := h.comp_const_add s u
  simpa using this

theorem hasDerivAt_bwd {f : ℝ → ℝ} {f' s u : ℝ} (h : HasDerivAt f f' (s - u)) : HasDerivAt (fun u => f (s - u)) (-f') u := by
  have := h.comp_const_sub s u
  simpa using this

section
variable {f f1 : ℝ → ℝ} {a b M : ℝ} (h : Tame f f1 a b M) {s δ : ℝ} (hδ : 0 ≤ δ) (ha : a ≤ s - δ) (hb : s + δ ≤ b)
include h hδ ha hb

/-- The central difference is the derivative, up to the square of the step. -/
theorem Spec.Tame.diff : |f (s + δ) - f (s - δ) - 2 * δ * f1 s| ≤ 2 * M * δ ^ 3 := by
  obtain ⟨f2, f3, h⟩ := h
  have hM : 0 ≤ M := (abs_nonneg _).trans (h s (by linarith) (by linarith)).2.2.2.1
  have p : ∀ u, 0 ≤ u → u ≤ δ → (a ≤ s + u ∧ s + u ≤ b) ∧ (a ≤ s - u ∧ s - u ≤ b) := fun u h1 h2 => ⟨⟨by linarith, by linarith⟩, by linarith, by linarith⟩
  have k2 : ∀ u, 0 ≤ u → u ≤ δ → |f2 (s + u) - f2 (s - u)| ≤ (2 * M) * u := by
    intro u h0 h1
    refine small_of_deriv (f := fun u => f2 (s + u) - f2 (s - u)) (f' := fun u => f3 (s + u) - - f3 (s - u)) (δ := δ) (fun v v0 v1 => ?_) (by simp) h0 h1
    obtain ⟨⟨a1, b1⟩, a2, b2⟩ := p v v0 v1
    refine ⟨(hasDerivAt_fwd (h _ a1 b1).2.2.1).sub (hasDerivAt_bwd (h _ a2 b2).2.2.1), ?_⟩
    have q1 := abs_le.mp (h _ a1 b1).2.2.2.2
    have q2 := abs_le.mp (h _ a2 b2).2.2.2.2
    rw [abs_le]; constructor <;> linarith
  have k1 : ∀ u, 0 ≤ u → u ≤ δ → |f1 (s + u) + f1 (s - u) - 2 * f1 s| ≤ (2 * M * δ) * u := by
    intro u h0 h1
    refine small_of_deriv (f := fun u => f1 (s + u) + f1 (s - u) - 2 * f1 s) (f' := fun u => f2 (s + u) + - f2 (s - u)) (δ := δ) (fun v v0 v1 => ?_)
      (by simp; ring) h0 h1
    obtain ⟨⟨a1, b1⟩, a2, b2⟩ := p v v0 v1
    refine ⟨((hasDerivAt_fwd (h _ a1 b1).2.1).add (hasDerivAt_bwd (h _ a2 b2).2.1)).sub_const _, ?_⟩
    have := k2 v v0 v1
    rw [← sub_eq_add_neg]
    nlinarith
  have k0 : |f (s + δ) - f (s - δ) - 2 * δ * f1 s| ≤ (2 * M * δ * δ) * δ := by
    refine small_of_deriv (f := fun u => f (s + u) - f (s - u) - 2 * u * f1 s) (f' := fun u => f1 (s + u) - - f1 (s - u) - 2 * f1 s) (δ := δ) (fun v v0 v1 => ?_)
      (by simp) hδ le_rfl
    obtain ⟨⟨a1, b1⟩, a2, b2⟩ := p v v0 v1
    refine ⟨((hasDerivAt_fwd (h _ a1 b1).1).sub (hasDerivAt_bwd (h _ a2 b2).1)).sub ?_, ?_⟩
    · have := ((hasDerivAt_id v).const_mul 2).mul_const (f1 s)
      simpa using this
    · have := k1 v v0 v1
      rw [sub_neg_eq_add]
      have : 2 * M * δ * v ≤ 2 * M * δ * δ := mul_le_mul_of_nonneg_left v1 (by positivity)
      linarith
  refine k0.trans (le_of_eq (by ring))

/-- The mean of two values is the value in the middle, up to the square of the step. -/
theorem Spec.Tame.mean : |f (s + δ) + f (s - δ) - 2 * f s| ≤ 2 * M * δ ^ 2 := by
  obtain ⟨f2, f3, h⟩ := h
  have hM : 0 ≤ M := (abs_nonneg _).trans (h s (by linarith) (by linarith)).2.2.2.1
  have p : ∀ u, 0 ≤ u → u ≤ δ → (a ≤ s + u ∧ s + u ≤ b) ∧ (a ≤ s - u ∧ s - u ≤ b) := fun u h1 h2 => ⟨⟨by linarith, by linarith⟩, by linarith, by linarith⟩
  have k1 : ∀ u, 0 ≤ u → u ≤ δ → |f1 (s + u) - f1 (s - u)| ≤ (2 * M) * u := by
    intro u h0 h1
    refine small_of_deriv (f := fun u => f1 (s + u) - f1 (s - u)) (f' := fun u => f2 (s + u) - - f2 (s - u)) (δ := δ) (fun v v0 v1 => ?_) (by simp) h0 h1
    obtain ⟨⟨a1, b1⟩, a2, b2⟩ := p v v0 v1
    refine ⟨(hasDerivAt_fwd (h _ a1 b1).2.1).sub (hasDerivAt_bwd (h _ a2 b2).2.1), ?_⟩
    have q1 := abs_le.mp (h _ a1 b1).2.2.2.1
    have q2 := abs_le.mp (h _ a2 b2).2.2.2.1
    rw [abs_le]; constructor <;> linarith
  have k0 : |f (s + δ) + f (s - δ) - 2 * f s| ≤ (2 * M * δ) * δ := by
    refine small_of_deriv (f := fun u => f (s + u) + f (s - u) - 2 * f s) (f' := fun u => f1 (s + u) + - f1 (s - u)) (δ := δ) (fun v v0 v1 => ?_)
      (by simp; ring) hδ le_rfl
    obtain ⟨⟨a1, b1⟩, a2, b2⟩ := p v v0 v1
    refine ⟨((hasDerivAt_fwd (h _ a1 b1).1).add (hasDerivAt_bwd (h _ a2 b2).1)).sub_const _, ?_⟩
    have := k1 v v0 v1
    rw [← sub_eq_add_neg]
    have : 2 * M * v ≤ 2 * M * δ := mul_le_mul_of_nonneg_left v1 (by positivity)
    linarith
  refine k0.trans (le_of_eq (by ring))
end

/-- The fields that extra terms `kE`, `kX`, `kY` make in one step. -/
noncomputable def kick (R : Box) (kE kX kY : ℤ → ℤ → ℝ) (f : Flds ℝ) : Flds ℝ :=
  { f with
    Ez := f.Ez.setv kE
    Hx := f.Hx.setv fun i j => open Classical in if R.Mem i j then kX i j - (kE i (j + 1) - kE i j) / 2 else 0
    Hy := f.Hy.setv fun i j => open Classical in if R.Mem i j then kY i j + (kE (i + 1) j - kE i j) / 2 else 0 }

theorem kick_quiet {R : Box} {kE kX kY : ℤ → ℤ → ℝ} (h : ∀ i j, ¬ R.Mem i j → kE i j = 0) (f : Flds ℝ) : FrameQuiet (kick R kE kX kY f) R where
  left j := if_neg (by unfold Box.Mem; omega)
  right j := h _ _ (by unfold Box.Mem; omega)
  bottom i := if_neg (by unfold Box.Mem; omega)
  top i := h _ _ (by unfold Box.Mem; omega)

theorem sum_shift_x {R : Box} (h1 : R.l ≤ R.r + 1) {F : ℤ → ℤ → ℝ} (h0 : ∀ i j, 0 ≤ F i j) (hz : ∀ i j, ¬ R.Mem i j → F i j = 0) :
    R.sum (fun i j => F (i + 1) j) ≤ R.sum F := by
  have := R.sum_x h1 F
  rw [Box.sum_sub] at this
  have : ∑ j ∈ Finset.Icc R.b R.t, (F (R.r + 1) j - F R.l j) ≤ 0 := by
    refine Finset.sum_nonpos fun j _ => ?_
    rw [hz (R.r + 1) j (by unfold Box.Mem; omega)]
    linarith [h0 R.l j]
  linarith

theorem sum_shift_y {R : Box} (h2 : R.b ≤ R.t + 1) {F : ℤ → ℤ → ℝ} (h0 : ∀ i j, 0 ≤ F i j) (hz : ∀ i j, ¬ R.Mem i j → F i j = 0) :
    R.sum (fun i j => F i (j + 1)) ≤ R.sum F := by
  have := R.sum_y h2 F
  rw [Box.sum_sub] at this
  have : ∑ i ∈ Finset.Icc R.l R.r, (F i (R.t + 1) - F i R.b) ≤ 0 := by
    refine Finset.sum_nonpos fun i _ => ?_
    rw [hz i (R.t + 1) (by unfold Box.Mem; omega)]
    linarith [h0 i R.b]
  linarith

theorem kick_energy {g : Grid ℝ} (hg : Lawful g) {R : Box} (h1 : R.l ≤ R.r + 1) (h2 : R.b ≤ R.t + 1) {kE kX kY : ℤ → ℤ → ℝ}
    (hz : ∀ i j, ¬ R.Mem i j → kE i j = 0) {A : ℝ} (hA : 0 ≤ A) (h : g.dx ^ 2 * R.sum (fun i j => kE i j ^ 2 + kX i j ^ 2 + kY i j ^ 2) ≤ A ^ 2)
    (f : Flds ℝ) {med : ℤ → ℤ → Simple ℝ} {epsMax : ℝ} (he : ∀ i j, R.Mem i j → 1 ≤ (med i j).eps ∧ (med i j).eps ≤ epsMax) (h0 : 1 ≤ epsMax) :
    Real.sqrt (energy g med (kick R kE kX kY f) R) ≤ Real.sqrt ((epsMax + 1) / 2) * A := by
  have hx := hg.dx
  have key : energy g med (kick R kE kX kY f) R ≤ (epsMax + 1) / 2 * A ^ 2 := by
    unfold energy
    have : R.sum (fun i j => ((med i j).eps * (kick R kE kX kY f).Ez.val i j ^ 2 + (kick R kE kX kY f).Hx.val i j * hxBack g (kick R kE kX kY f) i j +
        (kick R kE kX kY f).Hy.val i j * hyBack g (kick R kE kX kY f) i j) / 2) ≤
        R.sum fun i j => ((epsMax / 2 + 1 / 4) * kE i j ^ 2 + ((epsMax + 1) / 2) * (kX i j ^ 2 + kY i j ^ 2)) + ((1 / 8) * kE i (j + 1) ^ 2 + (1 / 8) * kE (i + 1) j ^ 2) := by
      refine R.sum_le fun i j h => ?_
      unfold hxBack hyBack kick
      simp only [Tensor.setv_val, if_pos h]
      set e0 := kE i j
      set e1 := kE (i + 1) j
      set e2 := kE i (j + 1)
      set x := kX i j
      set y := kY i j
      have q1 : g.dt * ((e2 - e0) / g.dx) = (e2 - e0) / 2 := by rw [hg.dt]; field_simp
      have q2 : g.dt * ((e1 - e0) / g.dx) = (e1 - e0) / 2 := by rw [hg.dt]; field_simp
      rw [q1, q2, sub_add_cancel, add_sub_cancel_right]
      obtain ⟨he1, he2⟩ := he i j h
      have t1 : (med i j).eps * e0 ^ 2 ≤ epsMax * e0 ^ 2 := mul_le_mul_of_nonneg_right he2 (sq_nonneg _)
      have t2 : (1 - epsMax) * x ^ 2 ≤ 0 := mul_nonpos_of_nonpos_of_nonneg (by linarith) (sq_nonneg _)
      have t3 : (1 - epsMax) * y ^ 2 ≤ 0 := mul_nonpos_of_nonpos_of_nonneg (by linarith) (sq_nonneg _)
      nlinarith [sq_nonneg (x + (e2 - e0) / 2), sq_nonneg (e2 + e0), sq_nonneg (y - (e1 - e0) / 2), sq_nonneg (e1 + e0)]
    rw [Box.sum_add, Box.sum_add, Box.sum_add, Box.sum_mul, Box.sum_mul, Box.sum_mul, Box.sum_mul, Box.sum_add] at this
    have s1 := sum_shift_x h1 (F := fun i j => kE i j ^ 2) (fun _ _ => sq_nonneg _) (fun i j h => by rw [hz i j h]; norm_num)
    have s2 := sum_shift_y h2 (F := fun i j => kE i j ^ 2) (fun _ _ => sq_nonneg _) (fun i j h => by rw [hz i j h]; norm_num)
    rw [Box.sum_add, Box.sum_add] at h
    beta_reduce at s1 s2
    have e : R.sum (fun i j => ((med i j).eps * (kick R kE kX kY f).Ez.val i j ^ 2 + (kick R kE kX kY f).Hx.val i j * hxBack g (kick R kE kX kY f) i j +
        (kick R kE kX kY f).Hy.val i j * hyBack g (kick R kE kX kY f) i j) / 2) ≤
        (epsMax + 1) / 2 * (R.sum (fun i j => kE i j ^ 2) + R.sum (fun i j => kX i j ^ 2) + R.sum (fun i j => kY i j ^ 2)) := by
      linarith
    have := mul_le_mul_of_nonneg_left e (sq_nonneg g.dx)
    have := mul_le_mul_of_nonneg_left h (by linarith : 0 ≤ (epsMax + 1) / 2)
    linarith
  refine (Real.sqrt_le_sqrt key).trans ?_
  rw [Real.sqrt_mul' _ (sq_nonneg A), Real.sqrt_sq hA]

/-- The laws of one step, with extra terms. -/
structure Laws (g : Grid ℝ) (med : ℤ → ℤ → Simple ℝ) (R : Box) (f f' : Flds ℝ) (rE rX rY : ℤ → ℤ → ℝ) : Prop where
  ampere : ∀ i j, R.Mem i j → ConductiveLaw (med i j) g.dt (f.Ez.val i j) (f'.Ez.val i j) (curlH f g.dx i j + rE i j)
  faradayX : ∀ i j, R.Mem i j → f'.Hx.val i j = f.Hx.val i j - g.dt * ((f'.Ez.val i (j + 1) - f'.Ez.val i j) / g.dx) + g.dt * rX i j
  faradayY : ∀ i j, R.Mem i j → f'.Hy.val i j = f.Hy.val i j + g.dt * ((f'.Ez.val (i + 1) j - f'.Ez.val i j) / g.dx) + g.dt * rY i j

/-- One step of two fields that obey the laws with different extra terms: how much their distance grows. -/
theorem residual_steps {g : Grid ℝ} (hg : Lawful g) {med : ℤ → ℤ → Simple ℝ} {R : Box} (h1 : R.l ≤ R.r + 1) (h2 : R.b ≤ R.t + 1) {epsMax : ℝ}
    (he : ∀ i j, R.Mem i j → 1 ≤ (med i j).eps ∧ (med i j).eps ≤ epsMax) (hs : ∀ i j, R.Mem i j → 0 ≤ (med i j).conduc) {f f' s s' d d' : Flds ℝ}
    {pE pX pY rE rX rY : ℤ → ℤ → ℝ} {D : ℝ} (lf : Laws g med R f f' pE pX pY) (ls : Laws g med R s s' rE rX rY)
    (h0 : 1 ≤ epsMax) (hD : 0 ≤ D) (bd : g.dx ^ 2 * R.sum (fun i j => (rE i j - pE i j) ^ 2 + (rX i j - pX i j) ^ 2 + (rY i j - pY i j) ^ 2) ≤ D ^ 2)
    (m : Mix 1 (-1) f s d) (m' : Mix 1 (-1) f' s' d') (q : FrameQuiet d R) (q' : FrameQuiet d' R) :
    Real.sqrt (energy g med d' R) ≤ Real.sqrt (energy g med d R) + Real.sqrt ((epsMax + 1) / 2) * (g.dt * D) := by
  have hx := hg.dx
  have hdt : 0 < g.dt := by rw [hg.dt]; linarith
  set kE : ℤ → ℤ → ℝ := fun i j => open Classical in if R.Mem i j then - (rE i j - pE i j) / ((med i j).eps / g.dt + (med i j).conduc / 2) else 0 with hk
  set kX : ℤ → ℤ → ℝ := fun i j => - (g.dt * (rX i j - pX i j))
  set kY : ℤ → ℤ → ℝ := fun i j => - (g.dt * (rY i j - pY i j))
  have den : ∀ i j, R.Mem i j → 1 / g.dt ≤ (med i j).eps / g.dt + (med i j).conduc / 2 := by
    intro i j h
    have := hs i j h
    have := div_le_div_of_nonneg_right (he i j h).1 hdt.le
    linarith
  have pos : 0 < 1 / g.dt := by positivity
  obtain ⟨u, mu⟩ := mix_exists 1 (-1) d' (kick R kE kX kY f)
  have kz : ∀ i j, ¬ R.Mem i j → kE i j = 0 := fun i j h => if_neg h
  have back : Mix 1 1 u (kick R kE kX kY f) d' := ⟨fun i j => by rw [mu.Ez]; ring, fun i j => by rw [mu.Hx]; ring, fun i j => by rw [mu.Hy]; ring⟩
  have kq : FrameQuiet (kick R kE kX kY f) R := kick_quiet kz f
  have qu : FrameQuiet u R := mu.quiet q' kq
  have e : energy g med u R ≤ energy g med d R := by
    have law : ∀ i j, R.Mem i j →
        ConductiveLaw (med i j) g.dt (d.Ez.val i j) (u.Ez.val i j) (curlH d g.dx i j) ∧
        u.Hx.val i j = d.Hx.val i j - g.dt * ((u.Ez.val i (j + 1) - u.Ez.val i j) / g.dx) ∧
        u.Hy.val i j = d.Hy.val i j + g.dt * ((u.Ez.val (i + 1) j - u.Ez.val i j) / g.dx) := by
      intro i j h
      have half : ∀ z : ℝ, g.dt * (z / g.dx) = z / 2 := fun z => by rw [hg.dt]; field_simp
      refine ⟨?_, ?_, ?_⟩
      · have a1 := lf.ampere i j h
        have a2 := ls.ampere i j h
        unfold ConductiveLaw curlH at a1 a2 ⊢
        rw [mu.Ez, m.Ez, m'.Ez]
        simp only [m.Hx, m.Hy]
        have k : (kick R kE kX kY f).Ez.val i j * ((med i j).eps / g.dt + (med i j).conduc / 2) = - (rE i j - pE i j) := by
          show kE i j * _ = _
          rw [hk]
          simp only [if_pos h]
          exact div_mul_cancel₀ _ (pos.trans_le (den i j h)).ne'
        have t1 : (med i j).eps * ((1 * (1 * f'.Ez.val i j + -1 * s'.Ez.val i j) + -1 * (kick R kE kX kY f).Ez.val i j) - (1 * f.Ez.val i j + -1 * s.Ez.val i j)) / g.dt +
            (med i j).conduc * ((1 * (1 * f'.Ez.val i j + -1 * s'.Ez.val i j) + -1 * (kick R kE kX kY f).Ez.val i j) + (1 * f.Ez.val i j + -1 * s.Ez.val i j)) / 2 =
            ((med i j).eps * (f'.Ez.val i j - f.Ez.val i j) / g.dt + (med i j).conduc * (f'.Ez.val i j + f.Ez.val i j) / 2) -
            ((med i j).eps * (s'.Ez.val i j - s.Ez.val i j) / g.dt + (med i j).conduc * (s'.Ez.val i j + s.Ez.val i j) / 2) -
            (kick R kE kX kY f).Ez.val i j * ((med i j).eps / g.dt + (med i j).conduc / 2) := by ring
        rw [t1, a1, a2, k]
        ring
      · have a1 := lf.faradayX i j h
        have a2 := ls.faradayX i j h
        rw [mu.Hx, m.Hx, m'.Hx, a1, a2]
        simp only [mu.Ez, m'.Ez, half]
        have w : (kick R kE kX kY f).Hx.val i j = kX i j - (kE i (j + 1) - kE i j) / 2 := if_pos h
        have w1 : ∀ i j, (kick R kE kX kY f).Ez.val i j = kE i j := fun _ _ => rfl
        rw [w, w1, w1]
        simp only [kX]
        ring
      · have a1 := lf.faradayY i j h
        have a2 := ls.faradayY i j h
        rw [mu.Hy, m.Hy, m'.Hy, a1, a2]
        simp only [mu.Ez, m'.Ez, half]
        have w : (kick R kE kX kY f).Hy.val i j = kY i j + (kE (i + 1) j - kE i j) / 2 := if_pos h
        have w1 : ∀ i j, (kick R kE kX kY f).Ez.val i j = kE i j := fun _ _ => rfl
        rw [w, w1, w1]
        simp only [kY]
        ring
    have b := balance_of_laws hx hdt h1 h2 law
    rw [outflow_quiet q qu, add_zero] at b
    have : 0 ≤ heat g med d u R := mul_nonneg (sq_nonneg _) (R.sum_nonneg fun i j h => mul_nonneg (hs i j h) (sq_nonneg _))
    have := mul_nonneg hdt.le this
    linarith
  have t := energy_triangle hg h1 h2 (fun i j h => (he i j h).1) back qu kq
  have ke := kick_energy hg h1 h2 (kE := kE) (kX := kX) (kY := kY) kz (A := g.dt * D) (by positivity) (by
      have : R.sum (fun i j => kE i j ^ 2 + kX i j ^ 2 + kY i j ^ 2) ≤ R.sum fun i j => g.dt ^ 2 * ((rE i j - pE i j) ^ 2 + (rX i j - pX i j) ^ 2 + (rY i j - pY i j) ^ 2) := by
        refine R.sum_le fun i j h => ?_
        have e1 : kE i j ^ 2 ≤ g.dt ^ 2 * (rE i j - pE i j) ^ 2 := by
          have dn := den i j h
          have dp := pos.trans_le dn
          simp only [hk, if_pos h]
          rw [div_pow, neg_sq, div_le_iff₀ (by positivity)]
          have : 1 ≤ g.dt * ((med i j).eps / g.dt + (med i j).conduc / 2) := by
            have := mul_le_mul_of_nonneg_left dn hdt.le
            rwa [mul_one_div_cancel hdt.ne'] at this
          have : 1 ≤ (g.dt * ((med i j).eps / g.dt + (med i j).conduc / 2)) ^ 2 := one_le_pow₀ this
          have := mul_le_mul_of_nonneg_left this (sq_nonneg (rE i j - pE i j))
          rw [mul_one] at this
          refine this.trans (le_of_eq (by ring))
        simp only [kX, kY]
        rw [neg_sq, neg_sq]
        linarith
      rw [Box.sum_mul] at this
      have := mul_le_mul_of_nonneg_left this (sq_nonneg g.dx)
      have := mul_le_mul_of_nonneg_left bd (sq_nonneg g.dt)
      linarith) f he h0
  have := Real.sqrt_le_sqrt e
  linarith

/-- One step of two fields, one of which obeys the laws and the other one up to a residual: how much their distance grows. -/
theorem residual_step {g : Grid ℝ} (hg : Lawful g) {med : ℤ → ℤ → Simple ℝ} {R : Box} (h1 : R.l ≤ R.r + 1) (h2 : R.b ≤ R.t + 1) {epsMax : ℝ}
    (he : ∀ i j, R.Mem i j → 1 ≤ (med i j).eps ∧ (med i j).eps ≤ epsMax) (hs : ∀ i j, R.Mem i j → 0 ≤ (med i j).conduc) {f f' s s' d d' : Flds ℝ}
    {rE rX rY : ℤ → ℤ → ℝ} {D : ℝ} (lf : Laws g med R f f' (fun _ _ => 0) (fun _ _ => 0) (fun _ _ => 0)) (ls : Laws g med R s s' rE rX rY)
    (h0 : 1 ≤ epsMax) (hD : 0 ≤ D) (bd : g.dx ^ 2 * R.sum (fun i j => rE i j ^ 2 + rX i j ^ 2 + rY i j ^ 2) ≤ D ^ 2)
    (m : Mix 1 (-1) f s d) (m' : Mix 1 (-1) f' s' d') (q : FrameQuiet d R) (q' : FrameQuiet d' R) :
    Real.sqrt (energy g med d' R) ≤ Real.sqrt (energy g med d R) + Real.sqrt ((epsMax + 1) / 2) * (g.dt * D) :=
  residual_steps hg h1 h2 he hs lf ls h0 hD (by simpa only [sub_zero] using bd) m m' q q'

end Qbox
