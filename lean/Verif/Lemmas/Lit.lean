import Verif.Spec.LitSpec
import Verif.Spec.FluxWaveSpec
import Verif.Lemmas.LineError
import Mathlib.Analysis.Calculus.MeanValue

/-! # The scattered wave and the plane wave as one wave -/

namespace Qbox
open Scalar Spec

theorem max_dist (p q : ℝ) : |max 0 p - max 0 q| ≤ |p - q| := by
  rcases le_total 0 p with h1 | h1 <;> rcases le_total 0 q with h2 | h2
  · rw [max_eq_right h1, max_eq_right h2]
  · rw [max_eq_right h1, max_eq_left h2, sub_zero, abs_of_nonneg h1, abs_of_nonneg (by linarith)]; linarith
  · rw [max_eq_left h1, max_eq_right h2, zero_sub, abs_neg, abs_of_nonneg h2, abs_of_nonpos (by linarith)]; linarith
  · rw [max_eq_left h1, max_eq_left h2, sub_self, abs_zero]; exact abs_nonneg _

theorem small_change {f f' : ℝ → ℝ} {C τ a b : ℝ} (h : ∀ t, HasDerivAt f (f' t) t) (hC : ∀ t ≤ τ, |f' t| ≤ C) (ha : a ≤ τ) (hb : b ≤ τ) : |f b - f a| ≤ C * |b - a| :=
  (convex_Iic τ).norm_image_sub_le_of_norm_hasDerivWithin_le (fun t _ => (h t).hasDerivWithinAt) (fun t ht => hC t ht) ha hb

section
variable {s : ℝ → ℝ} {Ms : ℝ} (h : SmoothStart s Ms)
include h

theorem Spec.SmoothStart.d1 (t : ℝ) : HasDerivAt s (deriv s t) t := by
  have := h.deriv0 0 (by norm_num) t
  rwa [iteratedDeriv_zero, zero_add, iteratedDeriv_one] at this

theorem Spec.SmoothStart.d2 (t : ℝ) : HasDerivAt (deriv s) (iteratedDeriv 2 s t) t := by
  have := h.deriv0 1 (by norm_num) t
  rwa [iteratedDeriv_one] at this

theorem Spec.SmoothStart.slope_le {τ t : ℝ} (hτ : 0 ≤ τ) (ht : t ≤ τ) : |deriv s t| ≤ Ms * τ := by
  have M0 : 0 ≤ Ms := (abs_nonneg _).trans (h.bound 2 le_rfl (by norm_num) 0)
  have neg : ∀ t < 0, deriv s t = 0 := fun t ht => by
    have e : s =ᶠ[nhds t] fun _ => 0 := Filter.eventuallyEq_of_mem (isOpen_Iio.mem_nhds ht) fun u hu => h.before u (le_of_lt hu)
    rw [e.deriv_eq]
    simp
  by_cases t0 : t < 0
  · rw [neg t t0, abs_zero]
    positivity
  · refine le_of_forall_pos_le_add fun ε hε => ?_
    set r := ε / (Ms + 1) with hr
    have r0 : 0 < r := by positivity
    have k := small_change (a := -r) (b := t) (τ := τ) h.d2 (fun u _ => h.bound 2 le_rfl (by norm_num) u) (by linarith) ht
    rw [neg (-r) (by linarith), sub_zero, abs_of_nonneg (a := t - -r) (by linarith [not_lt.mp t0])] at k
    have e : Ms * r ≤ ε := by
      rw [hr, mul_div_assoc', div_le_iff₀ (by positivity)]
      nlinarith
    have := mul_le_mul_of_nonneg_left ht M0
    linarith

theorem Spec.SmoothStart.change_le {τ a b : ℝ} (hτ : 0 ≤ τ) (ha : a ≤ τ) (hb : b ≤ τ) : |s b - s a| ≤ Ms * τ * |b - a| :=
  small_change h.d1 (fun _ ht => h.slope_le hτ ht) ha hb

theorem Spec.SmoothStart.size_le {τ t : ℝ} (hτ : 0 ≤ τ) (ht : t ≤ τ) : |s t| ≤ Ms * τ ^ 2 := by
  have M0 : 0 ≤ Ms := (abs_nonneg _).trans (h.bound 2 le_rfl (by norm_num) 0)
  rcases le_total t 0 with t0 | t0
  · rw [h.before t t0, abs_zero]
    positivity
  · have := h.change_le hτ hτ ht
    rw [h.before 0 le_rfl, sub_zero, sub_zero, abs_of_nonneg t0] at this
    have k := mul_le_mul_of_nonneg_left ht (mul_nonneg M0 hτ)
    linarith

end

section
variable {w : Wave} {g : Grid ℝ} {τ M Ms y0 : ℝ} {s : ℝ → ℝ} {S : ℝ → ℝ → Prop}

theorem litSize_ge (hτ : 0 ≤ τ) (hs : SmoothStart s Ms) : M ≤ litSize M Ms τ ∧ M + Ms ≤ litSize M Ms τ ∧ M + Ms * τ ≤ litSize M Ms τ ∧ M + Ms * τ ^ 2 ≤ litSize M Ms τ := by
  have M0 : 0 ≤ Ms := (abs_nonneg _).trans (hs.bound 2 le_rfl (by norm_num) 0)
  have a := mul_nonneg M0 hτ
  have b := mul_nonneg a hτ
  unfold litSize
  refine ⟨?_, ?_, ?_, ?_⟩ <;> nlinarith

theorem lit_steady (hτ : 0 ≤ τ) (hs : SmoothStart s Ms) (h : w.Steady g τ M) : (w.lit s y0).Steady g τ (litSize M Ms τ) := by
  obtain ⟨l0, l1, l2, l3⟩ := litSize_ge (M := M) hτ hs
  have arg : ∀ t y : ℝ, t ≤ τ → t - max 0 (y - y0) ≤ τ := fun t y ht => by linarith [le_max_left 0 (y - y0)]
  have time : ∀ (V : ℝ → ℝ → ℝ → ℝ) (t t' x y : ℝ), t ≤ t' → t' ≤ τ → |V t' x y - V t x y| ≤ M * (t' - t) →
      |V t' x y + s (t' - max 0 (y - y0)) - (V t x y + s (t - max 0 (y - y0)))| ≤ litSize M Ms τ * (t' - t) := fun V t t' x y h1 h2 h3 => by
    have k := hs.change_le hτ (arg t y (h1.trans h2)) (arg t' y h2)
    rw [show t' - max 0 (y - y0) - (t - max 0 (y - y0)) = t' - t by ring, abs_of_nonneg (by linarith : 0 ≤ t' - t)] at k
    have tri := abs_add_le (V t' x y - V t x y) (s (t' - max 0 (y - y0)) - s (t - max 0 (y - y0)))
    rw [show V t' x y - V t x y + (s (t' - max 0 (y - y0)) - s (t - max 0 (y - y0))) = V t' x y + s (t' - max 0 (y - y0)) - (V t x y + s (t - max 0 (y - y0))) by ring] at tri
    have := mul_le_mul_of_nonneg_right l2 (by linarith : 0 ≤ t' - t)
    linarith
  have space : ∀ (V : ℝ → ℝ → ℝ → ℝ) (t x y y' : ℝ), t ≤ τ → y ≤ y' → |V t x y' - V t x y| ≤ M * (y' - y) →
      |V t x y' + s (t - max 0 (y' - y0)) - (V t x y + s (t - max 0 (y - y0)))| ≤ litSize M Ms τ * (y' - y) := fun V t x y y' h1 h2 h3 => by
    have k := hs.change_le hτ (arg t y h1) (arg t y' h1)
    have M0 : 0 ≤ Ms := (abs_nonneg _).trans (hs.bound 2 le_rfl (by norm_num) 0)
    have d : |t - max 0 (y' - y0) - (t - max 0 (y - y0))| ≤ y' - y := by
      rw [show t - max 0 (y' - y0) - (t - max 0 (y - y0)) = -(max 0 (y' - y0) - max 0 (y - y0)) by ring, abs_neg]
      refine (max_dist _ _).trans (le_of_eq ?_)
      rw [show y' - y0 - (y - y0) = y' - y by ring, abs_of_nonneg (by linarith)]
    have k := k.trans (mul_le_mul_of_nonneg_left d (mul_nonneg M0 hτ))
    have tri := abs_add_le (V t x y' - V t x y) (s (t - max 0 (y' - y0)) - s (t - max 0 (y - y0)))
    rw [show V t x y' - V t x y + (s (t - max 0 (y' - y0)) - s (t - max 0 (y - y0))) = V t x y' + s (t - max 0 (y' - y0)) - (V t x y + s (t - max 0 (y - y0))) by ring] at tri
    have := mul_le_mul_of_nonneg_right l2 (by linarith : 0 ≤ y' - y)
    linarith
  refine ⟨?_, ?_, ?_, ?_, ?_, ?_, ?_, ?_⟩
  · intro t x y t0 t1 d
    refine (abs_add_le _ _).trans ?_
    linarith [h.E0 t x y t0 t1 d, hs.size_le hτ (arg t y t1)]
  · intro t t' x y t0 t1 t2 d
    exact time w.E t t' x y t1 t2 (h.Et t t' x y t0 t1 t2 d)
  · intro t t' x y t0 t1 t2 d
    exact time w.X t t' x y t1 t2 (h.Xt t t' x y t0 t1 t2 d)
  · intro t t' x y t0 t1 t2 d
    exact (h.Yt t t' x y t0 t1 t2 d).trans (mul_le_mul_of_nonneg_right l0 (by linarith))
  · intro t x x' y t0 t1 x1 d d'
    show |w.E t x' y + s (t - max 0 (y - y0)) - (w.E t x y + s (t - max 0 (y - y0)))| ≤ _
    rw [add_sub_add_right_eq_sub]
    exact (h.Ex t x x' y t0 t1 x1 d d').trans (mul_le_mul_of_nonneg_right l0 (by linarith))
  · intro t x x' y t0 t1 x1 d d'
    exact (h.Yx t x x' y t0 t1 x1 d d').trans (mul_le_mul_of_nonneg_right l0 (by linarith))
  · intro t x y y' t0 t1 y1 d d'
    exact space w.E t x y y' t1 y1 (h.Ey t x y y' t0 t1 y1 d d')
  · intro t x y y' t0 t1 y1 d d'
    exact space w.X t x y y' t1 y1 (h.Xy t x y y' t0 t1 y1 d d')

theorem lit_even (hτ : 0 ≤ τ) (hs : SmoothStart s Ms) (h : w.Even g τ M) : (w.lit s y0).Even g τ (litSize M Ms τ) := by
  obtain ⟨l0, -, -, -⟩ := litSize_ge (M := M) hτ hs
  refine ⟨?_, ?_⟩
  · intro t x x' y t0 t1 x1 d d'
    show |w.X t x' y + s (t - max 0 (y - y0)) - (w.X t x y + s (t - max 0 (y - y0)))| ≤ _
    rw [add_sub_add_right_eq_sub]
    exact (h.Xx t x x' y t0 t1 x1 d d').trans (mul_le_mul_of_nonneg_right l0 (by linarith))
  · intro t x y y' t0 t1 y1 d d'
    exact (h.Yy t x y y' t0 t1 y1 d d').trans (mul_le_mul_of_nonneg_right l0 (by linarith))

theorem lit_rest (hs : SmoothStart s Ms) (h : w.AtRest g) : (w.lit s y0).AtRest g := by
  intro x y d
  obtain ⟨e1, e2, e3⟩ := h x y d
  have z : s (0 - max 0 (y - y0)) = 0 := hs.before _ (by linarith [le_max_left 0 (y - y0)])
  refine ⟨?_, ?_, e3⟩
  · show w.E 0 x y + s (0 - max 0 (y - y0)) = 0
    rw [e1, z, add_zero]
  · show w.X 0 x y + s (0 - max 0 (y - y0)) = 0
    rw [e2, z, add_zero]

theorem Spec.Tame.add {f f1 k k1 : ℝ → ℝ} {a b M N L : ℝ} (h : Tame f f1 a b M) (h' : Tame k k1 a b N) (hL : M + N ≤ L) : Tame (fun x => f x + k x) (fun x => f1 x + k1 x) a b L := by
  obtain ⟨f2, f3, h⟩ := h
  obtain ⟨k2, k3, h'⟩ := h'
  refine ⟨fun x => f2 x + k2 x, fun x => f3 x + k3 x, fun x h1 h2 => ?_⟩
  obtain ⟨a1, a2, a3, a4, a5⟩ := h x h1 h2
  obtain ⟨b1, b2, b3, b4, b5⟩ := h' x h1 h2
  exact ⟨a1.add b1, a2.add b2, a3.add b3, (abs_add_le _ _).trans (by linarith), (abs_add_le _ _).trans (by linarith)⟩

theorem Spec.Tame.le {f f1 : ℝ → ℝ} {a b M L : ℝ} (h : Tame f f1 a b M) (hL : M ≤ L) : Tame f f1 a b L := by
  obtain ⟨f2, f3, h⟩ := h
  exact ⟨f2, f3, fun x h1 h2 => ⟨(h x h1 h2).1, (h x h1 h2).2.1, (h x h1 h2).2.2.1, (h x h1 h2).2.2.2.1.trans hL, (h x h1 h2).2.2.2.2.trans hL⟩⟩

theorem Spec.Tame.plus {f f1 : ℝ → ℝ} {a b M : ℝ} (h : Tame f f1 a b M) (c : ℝ) : Tame (fun x => f x + c) f1 a b M := by
  obtain ⟨f2, f3, h⟩ := h
  exact ⟨f2, f3, fun x h1 h2 => ⟨(h x h1 h2).1.add_const c, (h x h1 h2).2⟩⟩

theorem tame_signal (hs : SmoothStart s Ms) (c a b : ℝ) : Tame (fun t => s (t - c)) (fun t => deriv s (t - c)) a b Ms :=
  ⟨fun t => iteratedDeriv 2 s (t - c), fun t => iteratedDeriv 3 s (t - c), fun t _ _ =>
    ⟨(hs.d1 _).comp_sub_const t c, (hs.d2 _).comp_sub_const t c, (hs.deriv0 2 (by norm_num) _).comp_sub_const t c, hs.bound 2 (by norm_num) (by norm_num) _,
      hs.bound 3 (by norm_num) (by norm_num) _⟩⟩

/-- Above the entry, along a line upwards. -/
theorem upwards {f : ℝ → ℝ} {f' t y : ℝ} (hy : y0 < y) (h : HasDerivAt f f' (t - max 0 (y - y0))) : HasDerivAt (fun y => f (t - max 0 (y - y0))) (-f') y := by
  rw [max_eq_right (by linarith)] at h
  have k : HasDerivAt (fun y : ℝ => t - (y - y0)) (-1) y := ((hasDerivAt_id y).sub_const y0).const_sub t
  have := HasDerivAt.comp y h k
  rw [mul_neg_one] at this
  refine this.congr_of_eventuallyEq (Filter.eventuallyEq_of_mem (isOpen_Ioi.mem_nhds hy) fun z hz => ?_)
  have hz : y0 < z := hz
  simp only [Function.comp, max_eq_right (by linarith : (0 : ℝ) ≤ z - y0)]

theorem tame_upwards (hs : SmoothStart s Ms) (t a b : ℝ) (hy : ∀ y, a ≤ y → y ≤ b → y0 < y) :
    Tame (fun y => s (t - max 0 (y - y0))) (fun y => - deriv s (t - max 0 (y - y0))) a b Ms := by
  refine ⟨fun y => iteratedDeriv 2 s (t - max 0 (y - y0)), fun y => - iteratedDeriv 3 s (t - max 0 (y - y0)), fun y y1 y2 => ?_⟩
  have k := hy y y1 y2
  refine ⟨upwards k (hs.d1 _), ?_, upwards k (hs.deriv0 2 (by norm_num) _), hs.bound 2 (by norm_num) (by norm_num) _, ?_⟩
  · have := (upwards (t := t) k (hs.d2 _)).neg
    rw [neg_neg] at this
    exact this
  · rw [abs_neg]
    exact hs.bound 3 (by norm_num) (by norm_num) _

theorem lit_smooth (hτ : 0 ≤ τ) (hs : SmoothStart s Ms) (h : w.Smooth S g τ M) : (w.lit s y0).Smooth (fun x y => S x y ∧ y0 < y) g τ (litSize M Ms τ) := by
  obtain ⟨l0, l1, -, -⟩ := litSize_ge (M := M) hτ hs
  refine ⟨?_, ?_, ?_, ?_, ?_, ?_, ?_⟩
  · intro x y d k
    exact (h.Et x y d k.1).add (tame_signal hs _ _ _) l1
  · intro x y d k
    exact (h.Xt x y d k.1).add (tame_signal hs _ _ _) l1
  · intro x y d k
    exact (h.Yt x y d k.1).le l0
  · intro t y a b t0 t1 k
    exact ((h.Ex t y a b t0 t1 fun x x1 x2 => ⟨(k x x1 x2).1, (k x x1 x2).2.1⟩).plus _).le l0
  · intro t y a b t0 t1 k
    exact (h.Yx t y a b t0 t1 fun x x1 x2 => ⟨(k x x1 x2).1, (k x x1 x2).2.1⟩).le l0
  · intro t x a b t0 t1 k
    have := (h.Ey t x a b t0 t1 fun y y1 y2 => ⟨(k y y1 y2).1, (k y y1 y2).2.1⟩).add (tame_upwards hs t a b fun y y1 y2 => (k y y1 y2).2.2) l1
    simp only [← sub_eq_add_neg] at this
    exact this
  · intro t x a b t0 t1 k
    have := (h.Xy t x a b t0 t1 fun y y1 y2 => ⟨(k y y1 y2).1, (k y y1 y2).2.1⟩).add (tame_upwards hs t a b fun y y1 y2 => (k y y1 y2).2.2) l1
    simp only [← sub_eq_add_neg] at this
    exact this

/-- Above the entry the total field needs no induced currents. -/
theorem lit_driven {eps sig : ℝ → ℝ → ℝ} {J : ℝ → ℝ → ℝ → ℝ} (h : w.Driven S eps sig (fun t x y => J t x y + induced eps sig s y0 t x y) g τ) :
    (w.lit s y0).Driven (fun x y => S x y ∧ y0 < y) eps sig J g τ := by
  refine ⟨fun t x y t0 t1 d k => ?_, fun t x y t0 t1 d k => ?_, fun t x y t0 t1 d k => h.faradayY t x y t0 t1 d k.1⟩
  · have e := h.ampere t x y t0 t1 d k.1
    simp only [induced, planeE, planeEt, Wave.lit, max_eq_right (by linarith [k.2] : (0 : ℝ) ≤ y - y0)] at e ⊢
    linear_combination e
  · have e := h.faradayX t x y t0 t1 d k.1
    simp only [Wave.lit]
    linarith

theorem lit_settled {p q : V2 ℝ} {T η : ℝ} (hs : SmoothStart s Ms) (hy : y0 < p.y) (hS : Pieces S p q) (hr : w.Regular S p q T) (hf : (w.lit s y0).Faded p q T η) :
    (w.lit s y0).Settled (fun x y => S x y ∧ y0 < y) p q T η := by
  have sub : ∀ z : ℝ × ℝ, (z ∈ between p q ∧ S z.1 z.2 ∧ y0 < z.2) → z ∈ between p q ∧ S z.1 z.2 := fun z hz => ⟨hz.1, hz.2.1⟩
  refine ⟨⟨?_, ?_, ?_⟩, ⟨?_, ?_⟩, hf⟩
  · exact hS.isOpen.inter (isOpen_lt continuous_const continuous_snd)
  · filter_upwards [hS.rows] with y h hy'
    refine (h hy').mono fun x hx => (⟨hx.1, fun c => hx.2 ⟨c, by linarith [hy'.1]⟩⟩ : x ∈ Set.Icc p.x q.x ∧ ¬ S x y)
  · filter_upwards [hS.columns] with x h hx'
    refine (h hx').mono fun y hy' => (⟨hy'.1, fun c => hy'.2 ⟨c, by linarith [hy'.1.1]⟩⟩ : y ∈ Set.Icc p.y q.y ∧ ¬ S x y)
  · exact hr.Yx.mono fun z hz => ⟨hz.1, sub _ hz.2⟩
  · refine ContinuousOn.sub (hr.Xy.mono fun z hz => ⟨hz.1, sub _ hz.2⟩) (Continuous.continuousOn ?_)
    have c : Continuous (deriv s) := continuous_iff_continuousAt.mpr fun t => (hs.d2 t).continuousAt
    exact c.comp (by fun_prop)

end

end Qbox
