import Verif.Spec.PoyntingSpec
import Verif.Lemmas.FluxWave
import Verif.Props.FluxWaveProps
import Mathlib.Analysis.Calculus.ParametricIntervalIntegral
import Mathlib.MeasureTheory.Integral.Prod
import Mathlib.MeasureTheory.Integral.DominatedConvergence
import Mathlib.MeasureTheory.Integral.IntervalIntegral.FundThmCalculus
import Mathlib.MeasureTheory.Integral.DivergenceTheorem

/-! # Poynting's theorem for the spectra of a wave -/

namespace Qbox
open Scalar Spec MeasureTheory

theorem wavelet_deriv (f t : ℝ) : HasDerivAt (wavelet f) (2 * Real.pi * f * Complex.I * wavelet f t) t := by
  unfold wavelet
  have h : HasDerivAt (fun t : ℝ => (2 * Real.pi * f * (t : ℂ) * Complex.I : ℂ)) (2 * Real.pi * f * Complex.I) t := by
    have := ((Complex.ofRealCLM.hasDerivAt (x := t)).const_mul (2 * Real.pi * f : ℂ)).mul_const Complex.I
    simpa using this
  exact h.cexp.congr_deriv (mul_comm _ _)

/-- The spectrum of a derivative. -/
theorem spectrum_rate {v v1 : ℝ → ℝ} {T : ℝ} (hT : 0 ≤ T) (h : ∀ t ∈ Set.Icc 0 T, HasDerivAt v (v1 t) t) (c : ContinuousOn v1 (Set.Icc 0 T)) (hz : v 0 = 0) (f : ℝ) :
    spectrum v1 f T = v T * wavelet f T - 2 * Real.pi * f * Complex.I * spectrum v f T := by
  have cv : ContinuousOn v (Set.Icc 0 T) := fun t ht => (h t ht).continuousAt.continuousWithinAt
  have cc : ∀ {u : ℝ → ℝ}, ContinuousOn u (Set.Icc 0 T) → ContinuousOn (fun t => (u t : ℂ)) (Set.Icc 0 T) := fun hu => Complex.continuous_ofReal.comp_continuousOn hu
  have w := (wavelet_continuous f).continuousOn (s := Set.Icc 0 T)
  have i1 : IntervalIntegrable (fun t => (v1 t : ℂ) * wavelet f t) volume 0 T := ((cc c).mul w).intervalIntegrable_of_Icc hT
  have i2 : IntervalIntegrable (fun t => (v t : ℂ) * wavelet f t) volume 0 T := ((cc cv).mul w).intervalIntegrable_of_Icc hT
  have key := intervalIntegral.integral_eq_sub_of_hasDerivAt (a := 0) (b := T) (f := fun t => (v t : ℂ) * wavelet f t)
    (f' := fun t => (v1 t : ℂ) * wavelet f t + 2 * Real.pi * f * Complex.I * ((v t : ℂ) * wavelet f t)) (fun t ht => by
      rw [Set.uIcc_of_le hT] at ht
      have := ((h t ht).ofReal_comp).mul (wavelet_deriv f t)
      refine this.congr_deriv ?_
      ring) (i1.add (i2.const_mul _))
  rw [intervalIntegral.integral_add i1 (i2.const_mul _), intervalIntegral.integral_const_mul] at key
  rw [hz] at key
  simp only [Complex.ofReal_zero, zero_mul, sub_zero] at key
  show (∫ t in (0 : ℝ)..T, (v1 t : ℂ) * wavelet f t) = _ - _ * ∫ t in (0 : ℝ)..T, (v t : ℂ) * wavelet f t
  rw [← key]
  ring

/-- What a derivative of a spectrum contributes to the real part. -/
theorem rate_power {v v1 : ℝ → ℝ} {T : ℝ} (hT : 0 ≤ T) (h : ∀ t ∈ Set.Icc 0 T, HasDerivAt v (v1 t) t) (c : ContinuousOn v1 (Set.Icc 0 T)) (hz : v 0 = 0) (f : ℝ) :
    (spectrum v1 f T * (starRingEnd ℂ) (spectrum v f T)).re = (v T * wavelet f T * (starRingEnd ℂ) (spectrum v f T)).re := by
  rw [spectrum_rate hT h c hz f, sub_mul, Complex.sub_re, mul_assoc (2 * Real.pi * f * Complex.I), Complex.mul_conj]
  have : (2 * Real.pi * f * Complex.I * ((Complex.normSq (spectrum v f T) : ℝ) : ℂ)).re = 0 := by
    rw [show (2 * Real.pi * f * Complex.I * ((Complex.normSq (spectrum v f T) : ℝ) : ℂ)) = ((2 * Real.pi * f * Complex.normSq (spectrum v f T) : ℝ) : ℂ) * Complex.I by push_cast; ring]
    simp
  rw [this, sub_zero]

theorem rate_power_le {v v1 : ℝ → ℝ} {T A η : ℝ} (hT : 0 ≤ T) (h : ∀ t ∈ Set.Icc 0 T, HasDerivAt v (v1 t) t) (c : ContinuousOn v1 (Set.Icc 0 T)) (hz : v 0 = 0) (f : ℝ)
    (hη : |v T| ≤ η) (hA : ‖spectrum v f T‖ ≤ A) : |(spectrum v1 f T * (starRingEnd ℂ) (spectrum v f T)).re| ≤ η * A := by
  rw [rate_power hT h c hz f]
  refine (Complex.abs_re_le_norm _).trans ?_
  rw [norm_mul, norm_mul, norm_wavelet, mul_one, Complex.norm_real, Real.norm_eq_abs, RCLike.norm_conj]
  exact mul_le_mul hη hA (norm_nonneg _) ((abs_nonneg _).trans hη)

/-- The spectrum as a function of the place. -/
theorem spectrum_place {v v1 : ℝ → ℝ → ℝ} {a b T M : ℝ} (hT : 0 ≤ T) (h : ∀ t ∈ Set.Icc 0 T, Tame (v t) (v1 t) a b M)
    (c : ∀ s ∈ Set.Icc a b, ContinuousOn (fun t => v t s) (Set.Icc 0 T)) (c1 : ∀ s ∈ Set.Icc a b, ContinuousOn (fun t => v1 t s) (Set.Icc 0 T)) (f : ℝ) {s : ℝ}
    (hs : s ∈ Set.Ioo a b) : HasDerivAt (fun s => spectrum (fun t => v t s) f T) (spectrum (fun t => v1 t s) f T) s := by
  have cc : ∀ {u : ℝ → ℝ}, ContinuousOn u (Set.Icc 0 T) → ContinuousOn (fun t => (u t : ℂ)) (Set.Icc 0 T) := fun hu => Complex.continuous_ofReal.comp_continuousOn hu
  have w := (wavelet_continuous f).continuousOn (s := Set.Icc 0 T)
  have int : ∀ {u : ℝ → ℝ}, ContinuousOn u (Set.Icc 0 T) → IntervalIntegrable (fun t => (u t : ℂ) * wavelet f t) volume 0 T := fun hu =>
    ((cc hu).mul w).intervalIntegrable_of_Icc hT
  have meas : ∀ {u : ℝ → ℂ}, IntervalIntegrable u volume 0 T → AEStronglyMeasurable u (volume.restrict (Set.uIoc 0 T)) := fun hu => by
    rw [Set.uIoc_of_le hT]
    exact hu.1.aestronglyMeasurable
  have sI : s ∈ Set.Icc a b := ⟨hs.1.le, hs.2.le⟩
  have key := intervalIntegral.hasDerivAt_integral_of_dominated_loc_of_deriv_le (μ := volume) (a := 0) (b := T) (s := Set.Ioo a b) (x₀ := s)
    (F := fun s t => (v t s : ℂ) * wavelet f t) (F' := fun s t => (v1 t s : ℂ) * wavelet f t) (bound := fun t => |v1 t s| + M * (b - a)) (Ioo_mem_nhds hs.1 hs.2)
    (by
      filter_upwards [Ioo_mem_nhds hs.1 hs.2] with x hx
      exact meas (int (c x ⟨hx.1.le, hx.2.le⟩)))
    (int (c s sI)) (meas (int (c1 s sI)))
    (by
      refine Filter.Eventually.of_forall fun t ht x hx => ?_
      rw [Set.uIoc_of_le hT] at ht
      obtain ⟨f2, f3, hf⟩ := h t ⟨ht.1.le, ht.2⟩
      rw [norm_mul, norm_wavelet, mul_one, Complex.norm_real, Real.norm_eq_abs]
      have := Convex.norm_image_sub_le_of_norm_hasDerivWithin_le (f := v1 t) (f' := f2) (s := Set.Icc a b) (C := M) (x := s) (y := x)
        (fun z hz => (hf z hz.1 hz.2).2.1.hasDerivWithinAt) (fun z hz => (hf z hz.1 hz.2).2.2.2.1) (convex_Icc a b) sI ⟨hx.1.le, hx.2.le⟩
      rw [Real.norm_eq_abs, Real.norm_eq_abs] at this
      have M0 : 0 ≤ M := (abs_nonneg _).trans (hf s hs.1.le hs.2.le).2.2.2.1
      have d : |x - s| ≤ b - a := abs_le.mpr ⟨by linarith [hx.1, hx.2, hs.1, hs.2], by linarith [hx.1, hx.2, hs.1, hs.2]⟩
      have tri := abs_add_le (v1 t x - v1 t s) (v1 t s)
      rw [sub_add_cancel] at tri
      linarith [mul_le_mul_of_nonneg_left d M0])
    (((c1 s sI).abs.add continuousOn_const).intervalIntegrable_of_Icc hT)
    (by
      refine Filter.Eventually.of_forall fun t ht x hx => ?_
      rw [Set.uIoc_of_le hT] at ht
      obtain ⟨f2, f3, hf⟩ := h t ⟨ht.1.le, ht.2⟩
      exact ((hf x hx.1.le hx.2.le).1.ofReal_comp).mul_const _)
  exact key.2

/-- The spectrum of a field that is continuous in a box. -/
theorem spectrum_box {V : ℝ → ℝ → ℝ → ℝ} {p q : V2 ℝ} {T : ℝ} (hT : 0 ≤ T) (hx : p.x ≤ q.x) (hy : p.y ≤ q.y)
    (c : ContinuousOn (fun z : ℝ × ℝ × ℝ => V z.1 z.2.1 z.2.2) (Set.Icc 0 T ×ˢ between p q)) (f : ℝ) :
    ContinuousOn (fun z : ℝ × ℝ => spectrum (fun t => V t z.1 z.2) f T) (between p q) := by
  set cl : ℝ → ℝ → ℝ → ℝ := fun a b s => max a (min s b) with hcl
  have ccl : ∀ a b, Continuous (cl a b) := fun a b => continuous_const.max (continuous_id.min continuous_const)
  have mem : ∀ a b s, a ≤ b → cl a b s ∈ Set.Icc a b := fun a b s h => ⟨le_max_left _ _, max_le h (min_le_right _ _)⟩
  have fix : ∀ a b s, s ∈ Set.Icc a b → cl a b s = s := fun a b s h => by rw [hcl]; dsimp only; rw [min_eq_left h.2, max_eq_right h.1]
  have cont : Continuous (Function.uncurry fun (z : ℝ × ℝ) (t : ℝ) => ((V (cl 0 T t) (cl p.x q.x z.1) (cl p.y q.y z.2) : ℝ) : ℂ) * wavelet f t) := by
    refine (Complex.continuous_ofReal.comp ?_).mul ((wavelet_continuous f).comp continuous_snd)
    exact c.comp_continuous (f := fun u : (ℝ × ℝ) × ℝ => (cl 0 T u.2, cl p.x q.x u.1.1, cl p.y q.y u.1.2))
      (((ccl 0 T).comp continuous_snd).prodMk (((ccl p.x q.x).comp (continuous_fst.comp continuous_fst)).prodMk ((ccl p.y q.y).comp (continuous_snd.comp continuous_fst))))
      fun u => ⟨mem _ _ _ hT, mem _ _ _ hx, mem _ _ _ hy⟩
  have := intervalIntegral.continuous_parametric_intervalIntegral_of_continuous' (μ := volume) cont 0 T
  refine this.continuousOn.congr fun z hz => ?_
  show (∫ t in (0 : ℝ)..T, (V t z.1 z.2 : ℂ) * wavelet f t) = _
  refine intervalIntegral.integral_congr fun t ht => ?_
  rw [Set.uIcc_of_le hT] at ht
  rw [fix _ _ _ ht, fix _ _ _ hz.1, fix _ _ _ hz.2]

/-- The flow out of a rectangle is the integral of the divergence. -/
theorem rectangle_divergence {F Fx G Gy : ℝ → ℝ → ℝ} {S : ℝ → ℝ → Prop} {p q : V2 ℝ} (hx : p.x ≤ q.x) (hy : p.y ≤ q.y) (hS : Pieces S p q)
    (cF : ContinuousOn (fun z : ℝ × ℝ => F z.1 z.2) (between p q)) (iF : IntegrableOn (fun z : ℝ × ℝ => Fx z.1 z.2) (between p q) volume)
    (cG : ContinuousOn (fun z : ℝ × ℝ => G z.1 z.2) (between p q)) (iG : IntegrableOn (fun z : ℝ × ℝ => Gy z.1 z.2) (between p q) volume)
    (hF : ∀ x ∈ Set.Ioo p.x q.x, ∀ y ∈ Set.Ioo p.y q.y, S x y → HasDerivAt (fun x => F x y) (Fx x y) x)
    (hG : ∀ x ∈ Set.Ioo p.x q.x, ∀ y ∈ Set.Ioo p.y q.y, S x y → HasDerivAt (fun y => G x y) (Gy x y) y) :
    (∫ y in p.y..q.y, (F q.x y - F p.x y)) + (∫ x in p.x..q.x, (G x q.y - G x p.y)) = ∫ z in between p q, (Fx z.1 z.2 + Gy z.1 z.2) := by
  rw [integral_add iF iG]
  unfold between at iF iG ⊢
  rw [Measure.volume_eq_prod] at iF iG ⊢
  unfold IntegrableOn at iF iG
  rw [← Measure.prod_restrict] at iF iG ⊢
  congr 1
  · rw [integral_prod_symm _ iF, intervalIntegral.integral_of_le hy, ← integral_Icc_eq_integral_Ioc, integral_Icc_eq_integral_Ioo, integral_Icc_eq_integral_Ioo]
    refine integral_congr_ae ?_
    have sl := ae_restrict_of_ae_restrict_of_subset (Set.Ioo_subset_Icc_self (a := p.y) (b := q.y)) iF.prod_left_ae
    filter_upwards [sl, ae_restrict_of_ae hS.rows, ae_restrict_mem measurableSet_Ioo] with y h1 h2 h3
    rw [integral_Icc_eq_integral_Ioc, ← intervalIntegral.integral_of_le hx]
    have cx : ContinuousOn (fun x => (x, y)) (Set.Icc p.x q.x) := (continuous_id.prodMk continuous_const).continuousOn
    refine (integral_eq_of_hasDerivAt_off_countable_of_le (fun x => F x y) (fun x => Fx x y) hx (h2 ⟨h3.1.le, h3.2.le⟩) (cF.comp cx fun x hx' => ⟨hx', ⟨h3.1.le, h3.2.le⟩⟩)
      (fun x hx' => hF x hx'.1 y h3 (by_contra fun c => hx'.2 ⟨⟨hx'.1.1.le, hx'.1.2.le⟩, c⟩)) ?_).symm
    rw [intervalIntegrable_iff_integrableOn_Icc_of_le hx]
    exact h1
  · rw [integral_prod _ iG, intervalIntegral.integral_of_le hx, ← integral_Icc_eq_integral_Ioc, integral_Icc_eq_integral_Ioo, integral_Icc_eq_integral_Ioo]
    refine integral_congr_ae ?_
    have sl := ae_restrict_of_ae_restrict_of_subset (Set.Ioo_subset_Icc_self (a := p.x) (b := q.x)) iG.prod_right_ae
    filter_upwards [sl, ae_restrict_of_ae hS.columns, ae_restrict_mem measurableSet_Ioo] with x h1 h2 h3
    rw [integral_Icc_eq_integral_Ioc, ← intervalIntegral.integral_of_le hy]
    have cy : ContinuousOn (fun y => (x, y)) (Set.Icc p.y q.y) := (continuous_const.prodMk continuous_id).continuousOn
    refine (integral_eq_of_hasDerivAt_off_countable_of_le (fun y => G x y) (fun y => Gy x y) hy (h2 ⟨h3.1.le, h3.2.le⟩) (cG.comp cy fun y hy' => ⟨⟨h3.1.le, h3.2.le⟩, hy'⟩)
      (fun y hy' => hG x h3 y hy'.1 (by_contra fun c => hy'.2 ⟨⟨hy'.1.1.le, hy'.1.2.le⟩, c⟩)) ?_).symm
    rw [intervalIntegrable_iff_integrableOn_Icc_of_le hy]
    exact h1

/-- The inner points of a box that belong to `S`. -/
def core (S : ℝ → ℝ → Prop) (p q : V2 ℝ) : Set (ℝ × ℝ) := (Set.Ioo p.x q.x ×ˢ Set.Ioo p.y q.y) ∩ {z | S z.1 z.2}

theorem core_open {S : ℝ → ℝ → Prop} {p q : V2 ℝ} (hS : Pieces S p q) : IsOpen (core S p q) := (isOpen_Ioo.prod isOpen_Ioo).inter hS.isOpen

theorem core_sub {S : ℝ → ℝ → Prop} {p q : V2 ℝ} {z : ℝ × ℝ} (hz : z ∈ core S p q) : z ∈ between p q ∧ S z.1 z.2 :=
  ⟨⟨⟨hz.1.1.1.le, hz.1.1.2.le⟩, hz.1.2.1.le, hz.1.2.2.le⟩, hz.2⟩

theorem core_null {S : ℝ → ℝ → Prop} {p q : V2 ℝ} (hS : Pieces S p q) : volume (between p q \ core S p q) = 0 := by
  rw [Measure.volume_eq_prod]
  refine Measure.measure_prod_null_of_ae_null ((measurableSet_Icc.prod measurableSet_Icc).diff (core_open hS).measurableSet) ?_
  have e : ∀ c : ℝ, ∀ᵐ x : ℝ, x ≠ c := fun c => by
    rw [ae_iff]
    simp
  filter_upwards [hS.columns, e p.x, e q.x] with x h1 h2 h3
  by_cases hx0 : x ∈ Set.Icc p.x q.x
  swap
  · refine measure_mono_null (t := ∅) ?_ (by simp)
    rintro y ⟨⟨hx', -⟩, -⟩
    exact hx0 hx'
  have h1 := h1 hx0
  refine measure_mono_null (t := {p.y, q.y} ∪ {y | y ∈ Set.Icc p.y q.y ∧ ¬ S x y}) ?_ ((((Set.countable_singleton q.y).insert p.y).union h1).measure_zero volume)
  rintro y ⟨⟨hx', hy'⟩, hn⟩
  by_cases c : y ∈ ({p.y, q.y} : Set ℝ)
  · exact .inl c
  · right
    refine ⟨hy', fun s => hn ⟨⟨⟨lt_of_le_of_ne hx'.1 (Ne.symm h2), lt_of_le_of_ne hx'.2 h3⟩, ?_⟩, s⟩⟩
    have c1 : y ≠ p.y := fun e => c (.inl e)
    have c2 : y ≠ q.y := fun e => c (.inr e)
    exact ⟨lt_of_le_of_ne hy'.1 (Ne.symm c1), lt_of_le_of_ne hy'.2 c2⟩

theorem core_restrict {S : ℝ → ℝ → Prop} {p q : V2 ℝ} (hS : Pieces S p q) : (volume.restrict (between p q) : Measure (ℝ × ℝ)) = volume.restrict (core S p q) := by
  refine Measure.restrict_congr_set (Filter.EventuallyLE.antisymm ?_ ?_)
  · exact ae_le_set.mpr (core_null hS)
  · exact (Filter.Eventually.of_forall fun z hz => (core_sub hz).1)

/-- A bounded function that is measurable on the core can be integrated over the box. -/
theorem core_integrable {S : ℝ → ℝ → Prop} {p q : V2 ℝ} (hS : Pieces S p q) {φ : ℝ × ℝ → ℝ} {B : ℝ} (c : AEStronglyMeasurable φ (volume.restrict (core S p q)))
    (b : ∀ z ∈ core S p q, |φ z| ≤ B) : IntegrableOn φ (between p q) volume := by
  have fin : IsFiniteMeasure (volume.restrict (core S p q) : Measure (ℝ × ℝ)) := by
    rw [← core_restrict hS]
    exact ⟨by rw [Measure.restrict_apply_univ]; exact (isCompact_Icc.prod isCompact_Icc).measure_lt_top⟩
  unfold IntegrableOn
  rw [core_restrict hS]
  exact Integrable.of_bound c B ((ae_restrict_iff' (core_open hS).measurableSet).mpr (Filter.Eventually.of_forall b))

theorem core_continuous {S : ℝ → ℝ → Prop} {p q : V2 ℝ} (hS : Pieces S p q) {φ : ℝ × ℝ → ℝ} (c : ContinuousOn φ (core S p q)) :
    AEStronglyMeasurable φ (volume.restrict (core S p q)) := c.aestronglyMeasurable (core_open hS).measurableSet

/-- The spectrum of a field that is bounded and continuous in the core. -/
theorem spectrum_core {V : ℝ → ℝ → ℝ → ℝ} {S : ℝ → ℝ → Prop} {p q : V2 ℝ} {T B : ℝ} (hT : 0 ≤ T)
    (c : ContinuousOn (fun z : ℝ × ℝ × ℝ => V z.1 z.2.1 z.2.2) (Set.Icc 0 T ×ˢ {z | z ∈ between p q ∧ S z.1 z.2})) (b : ∀ t ∈ Set.Icc 0 T, ∀ z ∈ core S p q, |V t z.1 z.2| ≤ B) (f : ℝ) :
    ContinuousOn (fun z : ℝ × ℝ => spectrum (fun t => V t z.1 z.2) f T) (core S p q) := by
  intro z hz
  refine intervalIntegral.continuousWithinAt_of_dominated_interval (F := fun (z : ℝ × ℝ) t => (V t z.1 z.2 : ℂ) * wavelet f t) (bound := fun _ => B) ?_ ?_ intervalIntegrable_const ?_
  · filter_upwards [self_mem_nhdsWithin] with u hu
    rw [Set.uIoc_of_le hT]
    have : ContinuousOn (fun t => V t u.1 u.2) (Set.Icc 0 T) := c.comp (f := fun t : ℝ => (t, u.1, u.2)) (continuous_id.prodMk continuous_const).continuousOn fun t ht => ⟨ht, core_sub hu⟩
    exact (((Complex.continuous_ofReal.comp_continuousOn this).mul (wavelet_continuous f).continuousOn).mono Set.Ioc_subset_Icc_self).aestronglyMeasurable measurableSet_Ioc
  · filter_upwards [self_mem_nhdsWithin] with u hu
    refine Filter.Eventually.of_forall fun t ht => ?_
    rw [Set.uIoc_of_le hT] at ht
    rw [norm_mul, norm_wavelet, mul_one, Complex.norm_real, Real.norm_eq_abs]
    exact b t ⟨ht.1.le, ht.2⟩ u hu
  · refine Filter.Eventually.of_forall fun t ht => ?_
    rw [Set.uIoc_of_le hT] at ht
    have : ContinuousOn (fun u : ℝ × ℝ => V t u.1 u.2) (core S p q) :=
      c.comp (f := fun u : ℝ × ℝ => (t, u.1, u.2)) (continuous_const.prodMk continuous_id).continuousOn fun u hu => ⟨⟨ht.1.le, ht.2⟩, core_sub hu⟩
    exact ((Complex.continuous_ofReal.comp_continuousOn this) z hz).mul continuousWithinAt_const

theorem spectrum_norm {v : ℝ → ℝ} {T B : ℝ} (hT : 0 ≤ T) (b : ∀ t ∈ Set.Icc 0 T, |v t| ≤ B) (f : ℝ) : ‖spectrum v f T‖ ≤ B * T := by
  have := intervalIntegral.norm_integral_le_of_norm_le_const (a := 0) (b := T) (C := B) (f := fun t => (v t : ℂ) * wavelet f t) fun t ht => by
    rw [Set.uIoc_of_le hT] at ht
    rw [norm_mul, norm_wavelet, mul_one, Complex.norm_real, Real.norm_eq_abs]
    exact b t ⟨ht.1.le, ht.2⟩
  rw [sub_zero, abs_of_nonneg hT] at this
  exact this

/-- A function along a line of either direction. -/
theorem along (φ : ℝ → ℝ) {a b : ℝ} (h : a ≤ b) : |b - a| * (∫ s in (0 : ℝ)..1, φ (a + s * (b - a))) = ∫ x in a..b, φ x := by
  have := intervalIntegral.smul_integral_comp_add_mul (a := 0) (b := 1) (f := φ) (b - a) a
  rw [smul_eq_mul, mul_zero, add_zero, mul_one, add_sub_cancel] at this
  rw [abs_of_nonneg (sub_nonneg.mpr h), ← this]
  simp only [mul_comm]

theorem along_back (φ : ℝ → ℝ) {a b : ℝ} (h : a ≤ b) : |a - b| * (∫ s in (0 : ℝ)..1, φ (b + s * (a - b))) = ∫ x in a..b, φ x := by
  have := intervalIntegral.smul_integral_comp_add_mul (a := 0) (b := 1) (f := φ) (a - b) b
  rw [smul_eq_mul, mul_zero, add_zero, mul_one, add_sub_cancel] at this
  rw [abs_of_nonpos (sub_nonpos.mpr h), intervalIntegral.integral_symm b a, ← this]
  simp only [mul_comm]
  ring

/-- The components of the Poynting vector. -/
noncomputable def sideFlow (w : Spec.Wave) (f T x y : ℝ) : ℝ :=
  -((spectrum (fun t => w.E t x y) f T) * (starRingEnd ℂ) (spectrum (fun t => w.Y t x y) f T)).re
noncomputable def upFlow (w : Spec.Wave) (f T x y : ℝ) : ℝ :=
  ((spectrum (fun t => w.E t x y) f T) * (starRingEnd ℂ) (spectrum (fun t => w.X t x y) f T)).re

theorem outflow_side (w : Spec.Wave) (f T x y σ : ℝ) : (w.phasor f T x y).outflow ⟨σ, 0⟩ = σ * sideFlow w f T x y := by
  rw [outflow_vertical]; unfold sideFlow Wave.phasor; ring

theorem outflow_up (w : Spec.Wave) (f T x y σ : ℝ) : (w.phasor f T x y).outflow ⟨0, σ⟩ = σ * upFlow w f T x y := by
  rw [outflow_horizontal]; rfl

theorem boxFlow_eq (w : Spec.Wave) (f T : ℝ) {p q : V2 ℝ} (hx : p.x ≤ q.x) (hy : p.y ≤ q.y)
    (cF : ContinuousOn (fun z : ℝ × ℝ => sideFlow w f T z.1 z.2) (between p q)) (cG : ContinuousOn (fun z : ℝ × ℝ => upFlow w f T z.1 z.2) (between p q)) :
    w.boxFlow f T p q = (∫ y in p.y..q.y, (sideFlow w f T q.x y - sideFlow w f T p.x y)) + ∫ x in p.x..q.x, (upFlow w f T x q.y - upFlow w f T x p.y) := by
  have iF : ∀ x ∈ Set.Icc p.x q.x, IntervalIntegrable (fun y => sideFlow w f T x y) volume p.y q.y := fun x hx' =>
    (cF.comp (continuous_const.prodMk continuous_id).continuousOn fun y hy' => ⟨hx', hy'⟩).intervalIntegrable_of_Icc hy
  have iG : ∀ y ∈ Set.Icc p.y q.y, IntervalIntegrable (fun x => upFlow w f T x y) volume p.x q.x := fun y hy' =>
    (cG.comp (continuous_id.prodMk continuous_const).continuousOn fun x hx' => ⟨hx', hy'⟩).intervalIntegrable_of_Icc hx
  rw [intervalIntegral.integral_sub (iF _ ⟨hx, le_rfl⟩) (iF _ ⟨le_rfl, hx⟩), intervalIntegral.integral_sub (iG _ ⟨hy, le_rfl⟩) (iG _ ⟨le_rfl, hy⟩)]
  unfold Wave.boxFlow Wave.flow
  simp only [outflow_side, outflow_up, sub_self, abs_zero, add_zero, zero_add, mul_zero, intervalIntegral.integral_const_mul]
  rw [← along (fun y => sideFlow w f T q.x y) hy, ← along_back (fun y => sideFlow w f T p.x y) hy, ← along_back (fun x => upFlow w f T x q.y) hx,
    ← along (fun x => upFlow w f T x p.y) hx]
  ring

theorem continuous_lip {V : ℝ → ℝ → ℝ → ℝ} {g : Grid ℝ} {τ M T : ℝ} (h : Lip V g τ M) (hM : 0 ≤ M) (hT : T ≤ τ) {p q : V2 ℝ} (hd : ∀ x y, (x, y) ∈ between p q → InDomain g x y) :
    ContinuousOn (fun z : ℝ × ℝ × ℝ => V z.1 z.2.1 z.2.2) (Set.Icc 0 T ×ˢ between p q) := by
  have key : LipschitzOnWith (Real.toNNReal (3 * M)) (fun z : ℝ × ℝ × ℝ => V z.1 z.2.1 z.2.2) (Set.Icc 0 T ×ˢ between p q) := by
    refine LipschitzOnWith.of_dist_le_mul fun u hu v hv => ?_
    rw [Real.coe_toNNReal _ (by positivity)]
    obtain ⟨t, x, y⟩ := u
    obtain ⟨t', x', y'⟩ := v
    have d := hd _ _ hu.2
    have d' := hd _ _ hv.2
    have e1 : |V t x y - V t x' y'| ≤ M * (|x - x'| + |y - y'|) := h.dist hu.1.1 (hu.1.2.trans hT) d' d
    have e2 : |V t x' y' - V t' x' y'| ≤ M * |t - t'| := by
      rcases le_total t t' with c | c
      · have := h.t t t' x' y' hu.1.1 c (hv.1.2.trans hT) d'
        rw [abs_sub_comm, abs_sub_comm t, abs_of_nonneg (sub_nonneg.mpr c)]
        exact this
      · have := h.t t' t x' y' hv.1.1 c (hu.1.2.trans hT) d'
        rw [abs_of_nonneg (sub_nonneg.mpr c)]
        exact this
    have tri := abs_add_le (V t x y - V t x' y') (V t x' y' - V t' x' y')
    rw [sub_add_sub_cancel] at tri
    have m1 : |t - t'| ≤ dist (t, x, y) (t', x', y') := le_max_left _ _
    have m2 : |x - x'| ≤ dist (t, x, y) (t', x', y') := (le_max_left _ _).trans (le_max_right _ _)
    have m3 : |y - y'| ≤ dist (t, x, y) (t', x', y') := (le_max_right _ _).trans (le_max_right _ _)
    rw [Real.dist_eq]
    dsimp only
    have n1 := mul_le_mul_of_nonneg_left m1 hM
    have n2 := mul_le_mul_of_nonneg_left m2 hM
    have n3 := mul_le_mul_of_nonneg_left m3 hM
    rw [mul_add] at e1
    linarith
  exact key.continuousOn

/-- Poynting's theorem for the spectra of a wave in a box. -/
theorem poynting {w : Spec.Wave} {g : Grid ℝ} {τ M : ℝ} {S : ℝ → ℝ → Prop} {eps sig : ℝ → ℝ → ℝ} {J : ℝ → ℝ → ℝ → ℝ} (hM : 0 ≤ M)
    (hsm : w.Smooth S g τ M) (hst : w.Steady g τ M) (hev : w.Even g τ M) (hmx : w.Driven S eps sig J g τ) (hr : w.AtRest g) {p q : V2 ℝ} (hx : p.x ≤ q.x) (hy : p.y ≤ q.y)
    {T : ℝ} (hT : 0 ≤ T) (hτ : T ≤ τ) (dom : ∀ x y, (x, y) ∈ between p q → InDomain g x y) (hS : Pieces S p q) (hreg : w.Regular S p q T) {η : ℝ} (hη : w.Faded p q T η) {epsMax : ℝ}
    (he : ∀ x y, (x, y) ∈ between p q → |eps x y| ≤ epsMax) (hme : Measurable fun z : ℝ × ℝ => eps z.1 z.2) (f : ℝ) :
    |w.boxFlow f T p q + w.work (fun t x y => sig x y * w.E t x y + J t x y) f T p q| ≤ (q.x - p.x) * (q.y - p.y) * ((2 + epsMax) * (η * (M * T * T))) := by
  set C : ℝ → ℝ → ℝ → ℝ := fun t x y => sig x y * w.E t x y + J t x y with hCd
  have LE := lip_E hst hr
  have LX := lip_X hst hev hr
  have LY := lip_Y hst hev hr
  have cE := continuous_lip LE hM hτ dom
  have cX := continuous_lip LX hM hτ dom
  have cY := continuous_lip LY hM hτ dom
  have inT : ∀ t ∈ Set.Icc 0 T, 0 ≤ t ∧ t ≤ τ := fun t ht => ⟨ht.1, ht.2.trans hτ⟩
  have hd : ∀ {x y}, (x, y) ∈ core S p q → InDomain g x y ∧ S x y := fun h => ⟨dom _ _ (core_sub h).1, (core_sub h).2⟩
  -- in time
  have dE : ∀ x y, (x, y) ∈ core S p q → ∀ t ∈ Set.Icc 0 T, HasDerivAt (fun t => w.E t x y) (w.Et t x y) t := fun x y h t ht => by
    obtain ⟨f2, f3, k⟩ := hsm.Et x y (hd h).1 (hd h).2
    exact (k t (inT t ht).1 (inT t ht).2).1
  have dX : ∀ x y, (x, y) ∈ core S p q → ∀ t ∈ Set.Icc 0 T, HasDerivAt (fun t => w.X t x y) (w.Xt t x y) t := fun x y h t ht => by
    obtain ⟨f2, f3, k⟩ := hsm.Xt x y (hd h).1 (hd h).2
    exact (k t (inT t ht).1 (inT t ht).2).1
  have dY : ∀ x y, (x, y) ∈ core S p q → ∀ t ∈ Set.Icc 0 T, HasDerivAt (fun t => w.Y t x y) (w.Yt t x y) t := fun x y h t ht => by
    obtain ⟨f2, f3, k⟩ := hsm.Yt x y (hd h).1 (hd h).2
    exact (k t (inT t ht).1 (inT t ht).2).1
  have cEt : ∀ x y, (x, y) ∈ core S p q → ContinuousOn (fun t => w.Et t x y) (Set.Icc 0 T) := fun x y h t ht => by
    obtain ⟨f2, f3, k⟩ := hsm.Et x y (hd h).1 (hd h).2
    exact (k t (inT t ht).1 (inT t ht).2).2.1.continuousAt.continuousWithinAt
  have cXt : ∀ x y, (x, y) ∈ core S p q → ContinuousOn (fun t => w.Xt t x y) (Set.Icc 0 T) := fun x y h t ht => by
    obtain ⟨f2, f3, k⟩ := hsm.Xt x y (hd h).1 (hd h).2
    exact (k t (inT t ht).1 (inT t ht).2).2.1.continuousAt.continuousWithinAt
  have cYt : ∀ x y, (x, y) ∈ core S p q → ContinuousOn (fun t => w.Yt t x y) (Set.Icc 0 T) := fun x y h t ht => by
    obtain ⟨f2, f3, k⟩ := hsm.Yt x y (hd h).1 (hd h).2
    exact (k t (inT t ht).1 (inT t ht).2).2.1.continuousAt.continuousWithinAt
  have sect : ∀ {V : ℝ → ℝ → ℝ → ℝ}, ContinuousOn (fun z : ℝ × ℝ × ℝ => V z.1 z.2.1 z.2.2) (Set.Icc 0 T ×ˢ between p q) → ∀ x y, (x, y) ∈ between p q →
      ContinuousOn (fun t => V t x y) (Set.Icc 0 T) := fun {V} h x y hxy =>
    h.comp (f := fun t : ℝ => (t, x, y)) (continuous_id.prodMk continuous_const).continuousOn fun t ht => ⟨ht, hxy⟩
  have sectS : ∀ {V : ℝ → ℝ → ℝ → ℝ}, ContinuousOn (fun z : ℝ × ℝ × ℝ => V z.1 z.2.1 z.2.2) (Set.Icc 0 T ×ˢ {z | z ∈ between p q ∧ S z.1 z.2}) → ∀ x y, (x, y) ∈ core S p q →
      ContinuousOn (fun t => V t x y) (Set.Icc 0 T) := fun {V} h x y hxy =>
    h.comp (f := fun t : ℝ => (t, x, y)) (continuous_id.prodMk continuous_const).continuousOn fun t ht => ⟨ht, core_sub hxy⟩
  -- around a point
  have rowNear : ∀ x y, (x, y) ∈ core S p q → ∃ a b, x ∈ Set.Ioo a b ∧ ∀ s ∈ Set.Icc a b, (s, y) ∈ core S p q := fun x y h => by
    obtain ⟨ε, h1, h2⟩ := Metric.isOpen_iff.mp (core_open hS) _ h
    refine ⟨x - ε / 2, x + ε / 2, ⟨by linarith, by linarith⟩, fun s hs => h2 ?_⟩
    rw [Metric.mem_ball, Prod.dist_eq, dist_self, max_lt_iff, Real.dist_eq]
    exact ⟨abs_lt.mpr ⟨by linarith [hs.1], by linarith [hs.2]⟩, h1⟩
  have colNear : ∀ x y, (x, y) ∈ core S p q → ∃ a b, y ∈ Set.Ioo a b ∧ ∀ s ∈ Set.Icc a b, (x, s) ∈ core S p q := fun x y h => by
    obtain ⟨ε, h1, h2⟩ := Metric.isOpen_iff.mp (core_open hS) _ h
    refine ⟨y - ε / 2, y + ε / 2, ⟨by linarith, by linarith⟩, fun s hs => h2 ?_⟩
    rw [Metric.mem_ball, Prod.dist_eq, dist_self, max_lt_iff, Real.dist_eq]
    exact ⟨h1, abs_lt.mpr ⟨by linarith [hs.1], by linarith [hs.2]⟩⟩
  have bYx : ∀ t ∈ Set.Icc 0 T, ∀ z ∈ core S p q, |w.Yx t z.1 z.2| ≤ M := fun t ht z hz => by
    obtain ⟨a, b, h1, h2⟩ := rowNear z.1 z.2 hz
    obtain ⟨f2, f3, k⟩ := hsm.Yx t z.2 a b (inT t ht).1 (inT t ht).2 fun s h1 h2' => hd (h2 s ⟨h1, h2'⟩)
    refine HasDerivAt.le_of_lip' (k z.1 h1.1.le h1.2.le).1 hM ?_
    filter_upwards [Ioo_mem_nhds h1.1 h1.2] with s hs
    rw [Real.norm_eq_abs, Real.norm_eq_abs]
    have := LY.dist (inT t ht).1 (inT t ht).2 (hd hz).1 (hd (h2 s ⟨hs.1.le, hs.2.le⟩)).1
    rw [sub_self, abs_zero, add_zero] at this
    exact this
  have bXy : ∀ t ∈ Set.Icc 0 T, ∀ z ∈ core S p q, |w.Xy t z.1 z.2| ≤ M := fun t ht z hz => by
    obtain ⟨a, b, h1, h2⟩ := colNear z.1 z.2 hz
    obtain ⟨f2, f3, k⟩ := hsm.Xy t z.1 a b (inT t ht).1 (inT t ht).2 fun s h1 h2' => hd (h2 s ⟨h1, h2'⟩)
    refine HasDerivAt.le_of_lip' (k z.2 h1.1.le h1.2.le).1 hM ?_
    filter_upwards [Ioo_mem_nhds h1.1 h1.2] with s hs
    rw [Real.norm_eq_abs, Real.norm_eq_abs]
    have := LX.dist (inT t ht).1 (inT t ht).2 (hd hz).1 (hd (h2 s ⟨hs.1.le, hs.2.le⟩)).1
    rw [sub_self, abs_zero, zero_add] at this
    exact this
  -- the spectra
  set Eh : ℝ → ℝ → ℂ := fun x y => spectrum (fun t => w.E t x y) f T with hEh
  set Xh : ℝ → ℝ → ℂ := fun x y => spectrum (fun t => w.X t x y) f T with hXh
  set Yh : ℝ → ℝ → ℂ := fun x y => spectrum (fun t => w.Y t x y) f T with hYh
  set Yx : ℝ → ℝ → ℂ := fun x y => spectrum (fun t => w.Yx t x y) f T with hYx
  set Xy : ℝ → ℝ → ℂ := fun x y => spectrum (fun t => w.Xy t x y) f T with hXy
  set Et : ℝ → ℝ → ℂ := fun x y => spectrum (fun t => w.Et t x y) f T with hEt
  set Xt : ℝ → ℝ → ℂ := fun x y => spectrum (fun t => w.Xt t x y) f T with hXt
  set Yt : ℝ → ℝ → ℂ := fun x y => spectrum (fun t => w.Yt t x y) f T with hYt
  have sE := spectrum_box hT hx hy cE f
  have sX := spectrum_box hT hx hy cX f
  have sY := spectrum_box hT hx hy cY f
  have sYx : ContinuousOn (fun z : ℝ × ℝ => Yx z.1 z.2) (core S p q) := spectrum_core hT hreg.Yx bYx f
  have sXy : ContinuousOn (fun z : ℝ × ℝ => Xy z.1 z.2) (core S p q) := spectrum_core hT hreg.Xy bXy f
  have atT : ∀ {V : ℝ → ℝ → ℝ → ℝ}, ContinuousOn (fun z : ℝ × ℝ × ℝ => V z.1 z.2.1 z.2.2) (Set.Icc 0 T ×ˢ between p q) →
      ContinuousOn (fun z : ℝ × ℝ => ((V T z.1 z.2 : ℝ) : ℂ)) (between p q) := fun {V} h =>
    Complex.continuous_ofReal.comp_continuousOn (h.comp (f := fun z : ℝ × ℝ => (T, z.1, z.2)) (continuous_const.prodMk continuous_id).continuousOn fun z hz => ⟨⟨hT, le_rfl⟩, hz⟩)
  have sub : core S p q ⊆ between p q := fun z hz => (core_sub hz).1
  have eEt : ∀ x y, (x, y) ∈ core S p q → Et x y = w.E T x y * wavelet f T - 2 * Real.pi * f * Complex.I * Eh x y := fun x y h =>
    spectrum_rate hT (dE x y h) (cEt x y h) (LE.rest x y (hd h).1) f
  have eYt : ∀ x y, (x, y) ∈ core S p q → Yt x y = w.Y T x y * wavelet f T - 2 * Real.pi * f * Complex.I * Yh x y := fun x y h =>
    spectrum_rate hT (dY x y h) (cYt x y h) (LY.rest x y (hd h).1) f
  have eXt : ∀ x y, (x, y) ∈ core S p q → Xt x y = w.X T x y * wavelet f T - 2 * Real.pi * f * Complex.I * Xh x y := fun x y h =>
    spectrum_rate hT (dX x y h) (cXt x y h) (LX.rest x y (hd h).1) f
  have sEt : ContinuousOn (fun z : ℝ × ℝ => Et z.1 z.2) (core S p q) :=
    ((((atT cE).mul continuousOn_const).sub (continuousOn_const.mul sE)).mono sub).congr fun z hz => eEt z.1 z.2 hz
  have sYt : ContinuousOn (fun z : ℝ × ℝ => Yt z.1 z.2) (core S p q) :=
    ((((atT cY).mul continuousOn_const).sub (continuousOn_const.mul sY)).mono sub).congr fun z hz => eYt z.1 z.2 hz
  have sXt : ContinuousOn (fun z : ℝ × ℝ => Xt z.1 z.2) (core S p q) :=
    ((((atT cX).mul continuousOn_const).sub (continuousOn_const.mul sX)).mono sub).congr fun z hz => eXt z.1 z.2 hz
  have re : ∀ {D : Set (ℝ × ℝ)} {u v : ℝ × ℝ → ℂ}, ContinuousOn u D → ContinuousOn v D → ContinuousOn (fun z => (u z * (starRingEnd ℂ) (v z)).re) D :=
    fun hu hv => Complex.continuous_re.comp_continuousOn (hu.mul (Complex.continuous_conj.comp_continuousOn hv))
  have slow : ∀ {V : ℝ → ℝ → ℝ → ℝ}, Lip V g τ M → ∀ z ∈ core S p q, ‖spectrum (fun t => V t z.1 z.2) f T‖ ≤ M * T * T := fun h z hz =>
    spectrum_le hT hM (fun t t' a b c => h.t t t' z.1 z.2 a b (c.trans hτ) (hd hz).1) (h.rest z.1 z.2 (hd hz).1) f
  have small : ∀ {V : ℝ → ℝ → ℝ → ℝ}, Lip V g τ M → ∀ z ∈ core S p q, |V T z.1 z.2| ≤ M * T := fun h z hz => by
    have := h.t 0 T z.1 z.2 le_rfl hT hτ (hd hz).1
    rw [h.rest z.1 z.2 (hd hz).1, sub_zero, sub_zero] at this
    exact this
  set R : ℝ := M * T + 2 * Real.pi * |f| * (M * T * T) with hR
  have R0 : 0 ≤ R := by positivity
  have rate : ∀ {V : ℝ → ℝ → ℝ → ℝ}, Lip V g τ M → ∀ z ∈ core S p q, ‖(V T z.1 z.2 : ℂ) * wavelet f T - 2 * Real.pi * f * Complex.I * spectrum (fun t => V t z.1 z.2) f T‖ ≤ R :=
    fun h z hz => by
    refine (norm_sub_le _ _).trans ?_
    rw [norm_mul, norm_wavelet, mul_one, Complex.norm_real, norm_mul]
    refine add_le_add (small h z hz) ?_
    have : ‖(2 * Real.pi * f * Complex.I : ℂ)‖ = 2 * Real.pi * |f| := by
      rw [norm_mul, Complex.norm_I, mul_one, norm_mul, Complex.norm_real, norm_mul, Complex.norm_real, Real.norm_eq_abs, Real.norm_eq_abs, abs_of_pos Real.pi_pos]
      norm_num
    rw [this]
    exact mul_le_mul_of_nonneg_left (slow h z hz) (by positivity)
  have bnd : ∀ {u v : ℂ} {A B : ℝ}, ‖u‖ ≤ A → ‖v‖ ≤ B → |(u * (starRingEnd ℂ) v).re| ≤ A * B := fun hu hv => by
    refine (Complex.abs_re_le_norm _).trans ?_
    rw [norm_mul, RCLike.norm_conj]
    exact mul_le_mul hu hv (norm_nonneg _) ((norm_nonneg _).trans hu)
  have int : ∀ {u v : ℝ × ℝ → ℂ} {A B : ℝ}, ContinuousOn u (core S p q) → ContinuousOn v (core S p q) → (∀ z ∈ core S p q, ‖u z‖ ≤ A) → (∀ z ∈ core S p q, ‖v z‖ ≤ B) →
      IntegrableOn (fun z => (u z * (starRingEnd ℂ) (v z)).re) (between p q) volume := fun cu cv hu hv =>
    core_integrable hS (core_continuous hS (re cu cv)) fun z hz => bnd (hu z hz) (hv z hz)
  have nYx : ∀ z ∈ core S p q, ‖Yx z.1 z.2‖ ≤ M * T := fun z hz => spectrum_norm hT (fun t ht => bYx t ht z hz) f
  have nXy : ∀ z ∈ core S p q, ‖Xy z.1 z.2‖ ≤ M * T := fun z hz => spectrum_norm hT (fun t ht => bXy t ht z hz) f
  have nEt : ∀ z ∈ core S p q, ‖Et z.1 z.2‖ ≤ R := fun z hz => by rw [eEt z.1 z.2 hz]; exact rate LE z hz
  have nXt : ∀ z ∈ core S p q, ‖Xt z.1 z.2‖ ≤ R := fun z hz => by rw [eXt z.1 z.2 hz]; exact rate LX z hz
  have nYt : ∀ z ∈ core S p q, ‖Yt z.1 z.2‖ ≤ R := fun z hz => by rw [eYt z.1 z.2 hz]; exact rate LY z hz
  have iYtY := int sYt (sY.mono sub) nYt (slow LY)
  have iXtX := int sXt (sX.mono sub) nXt (slow LX)
  have iEYx := int (sE.mono sub) sYx (slow LE) nYx
  have iEXy := int (sE.mono sub) sXy (slow LE) nXy
  -- in space
  have aEx : ∀ x y, (x, y) ∈ core S p q → HasDerivAt (fun x => Eh x y) (Yt x y) x := fun x y h => by
    obtain ⟨a, b, h1, h2⟩ := rowNear x y h
    have := spectrum_place (v := fun t x => w.E t x y) (v1 := fun t x => w.Ex t x y) hT (fun t ht => hsm.Ex t y a b (inT t ht).1 (inT t ht).2 fun s h1 h2' => hd (h2 s ⟨h1, h2'⟩))
      (fun s hs => sect cE s y (core_sub (h2 s hs)).1) (fun s hs => (cYt s y (h2 s hs)).congr fun t ht =>
        (hmx.faradayY t s y (inT t ht).1 (inT t ht).2 (hd (h2 s hs)).1 (hd (h2 s hs)).2).symm) f h1
    refine this.congr_deriv ?_
    refine intervalIntegral.integral_congr fun t ht => ?_
    rw [Set.uIcc_of_le hT] at ht
    dsimp only
    rw [hmx.faradayY t x y (inT t ht).1 (inT t ht).2 (hd h).1 (hd h).2]
  have aYx : ∀ x y, (x, y) ∈ core S p q → HasDerivAt (fun x => Yh x y) (Yx x y) x := fun x y h => by
    obtain ⟨a, b, h1, h2⟩ := rowNear x y h
    exact spectrum_place (v := fun t x => w.Y t x y) (v1 := fun t x => w.Yx t x y) hT (fun t ht => hsm.Yx t y a b (inT t ht).1 (inT t ht).2 fun s h1 h2' => hd (h2 s ⟨h1, h2'⟩))
      (fun s hs => sect cY s y (core_sub (h2 s hs)).1) (fun s hs => sectS hreg.Yx s y (h2 s hs)) f h1
  have aEy : ∀ x y, (x, y) ∈ core S p q → HasDerivAt (fun y => Eh x y) (-Xt x y) y := fun x y h => by
    obtain ⟨a, b, h1, h2⟩ := colNear x y h
    have := spectrum_place (v := fun t y => w.E t x y) (v1 := fun t y => w.Ey t x y) hT (fun t ht => hsm.Ey t x a b (inT t ht).1 (inT t ht).2 fun s h1 h2' => hd (h2 s ⟨h1, h2'⟩))
      (fun s hs => sect cE x s (core_sub (h2 s hs)).1) (fun s hs => (cXt x s (h2 s hs)).neg.congr fun t ht => by
        have := hmx.faradayX t x s (inT t ht).1 (inT t ht).2 (hd (h2 s hs)).1 (hd (h2 s hs)).2
        show w.Ey t x s = - w.Xt t x s
        rw [this, neg_neg]) f h1
    refine this.congr_deriv ?_
    show (∫ t in (0 : ℝ)..T, ((w.Ey t x y : ℝ) : ℂ) * wavelet f t) = - ∫ t in (0 : ℝ)..T, ((w.Xt t x y : ℝ) : ℂ) * wavelet f t
    rw [← intervalIntegral.integral_neg]
    refine intervalIntegral.integral_congr fun t ht => ?_
    rw [Set.uIcc_of_le hT] at ht
    rw [hmx.faradayX t x y (inT t ht).1 (inT t ht).2 (hd h).1 (hd h).2]
    push_cast
    ring
  have aXy : ∀ x y, (x, y) ∈ core S p q → HasDerivAt (fun y => Xh x y) (Xy x y) y := fun x y h => by
    obtain ⟨a, b, h1, h2⟩ := colNear x y h
    exact spectrum_place (v := fun t y => w.X t x y) (v1 := fun t y => w.Xy t x y) hT (fun t ht => hsm.Xy t x a b (inT t ht).1 (inT t ht).2 fun s h1 h2' => hd (h2 s ⟨h1, h2'⟩))
      (fun s hs => sect cX x s (core_sub (h2 s hs)).1) (fun s hs => sectS hreg.Xy x s (h2 s hs)) f h1
  have product : ∀ {u v : ℝ → ℂ} {u' v' : ℂ} {s : ℝ}, HasDerivAt u u' s → HasDerivAt v v' s →
      HasDerivAt (fun s => (u s * (starRingEnd ℂ) (v s)).re) ((u' * (starRingEnd ℂ) (v s)).re + (u s * (starRingEnd ℂ) v').re) s := fun {u v u' v' s} hu hv => by
    have hv' : HasDerivAt (fun s => (starRingEnd ℂ) (v s)) ((starRingEnd ℂ) v') s := (Complex.conjCLE.toContinuousLinearMap.hasFDerivAt).comp_hasDerivAt s hv
    have := (Complex.reCLM.hasFDerivAt).comp_hasDerivAt s (hu.mul hv')
    refine this.congr_deriv ?_
    simp
  have neg' : ∀ {u v : ℝ × ℝ → ℂ}, IntegrableOn (fun z => (u z * (starRingEnd ℂ) (v z)).re) (between p q) volume →
      IntegrableOn (fun z => (-u z * (starRingEnd ℂ) (v z)).re) (between p q) volume := fun {u v} h => by
    refine h.neg.congr (Filter.Eventually.of_forall fun z => ?_)
    simp only [neg_mul, Complex.neg_re, Pi.neg_apply]
  have flow := boxFlow_eq w f T hx hy (re sE sY).neg (re sE sX)
  have iF := (iYtY.add iEYx).neg
  have iG := (neg' iXtX).add iEXy
  rw [rectangle_divergence (F := sideFlow w f T) (G := upFlow w f T) (Fx := fun x y => -((Yt x y * (starRingEnd ℂ) (Yh x y)).re + (Eh x y * (starRingEnd ℂ) (Yx x y)).re))
    (Gy := fun x y => (-Xt x y * (starRingEnd ℂ) (Xh x y)).re + (Eh x y * (starRingEnd ℂ) (Xy x y)).re) hx hy hS (re sE sY).neg iF (re sE sX)
    iG (fun x hx' y hy' hs => (product (aEx x y ⟨⟨hx', hy'⟩, hs⟩) (aYx x y ⟨⟨hx', hy'⟩, hs⟩)).neg) (fun x hx' y hy' hs => product (aEy x y ⟨⟨hx', hy'⟩, hs⟩) (aXy x y ⟨⟨hx', hy'⟩, hs⟩))] at flow
  -- Ampère's law
  have amp : ∀ x y, (x, y) ∈ core S p q → (Eh x y * (starRingEnd ℂ) (Yx x y)).re - (Eh x y * (starRingEnd ℂ) (Xy x y)).re =
      eps x y * (Et x y * (starRingEnd ℂ) (Eh x y)).re + w.workAt C f T x y := fun x y hz => by
    have cc : ∀ {u : ℝ → ℝ}, ContinuousOn u (Set.Icc 0 T) → IntervalIntegrable (fun t => (u t : ℂ) * wavelet f t) volume 0 T := fun hu =>
      ((Complex.continuous_ofReal.comp_continuousOn hu).mul (wavelet_continuous f).continuousOn).intervalIntegrable_of_Icc hT
    have law : ∀ t ∈ Set.Icc 0 T, C t x y = w.Yx t x y - w.Xy t x y - eps x y * w.Et t x y := fun t ht => by
      have := hmx.ampere t x y (inT t ht).1 (inT t ht).2 (hd hz).1 (hd hz).2
      rw [hCd]
      dsimp only
      linarith
    have e : spectrum (fun t => C t x y) f T = Yx x y - Xy x y - eps x y * Et x y := by
      show (∫ t in (0 : ℝ)..T, ((C t x y : ℝ) : ℂ) * wavelet f t) = (∫ t in (0 : ℝ)..T, ((w.Yx t x y : ℝ) : ℂ) * wavelet f t) - (∫ t in (0 : ℝ)..T, ((w.Xy t x y : ℝ) : ℂ) * wavelet f t) -
        eps x y * ∫ t in (0 : ℝ)..T, ((w.Et t x y : ℝ) : ℂ) * wavelet f t
      rw [← intervalIntegral.integral_sub (cc (sectS hreg.Yx x y hz)) (cc (sectS hreg.Xy x y hz)), ← intervalIntegral.integral_const_mul,
        ← intervalIntegral.integral_sub ((cc (sectS hreg.Yx x y hz)).sub (cc (sectS hreg.Xy x y hz))) ((cc (cEt x y hz)).const_mul _)]
      refine intervalIntegral.integral_congr fun t ht => ?_
      rw [Set.uIcc_of_le hT] at ht
      rw [law t ht]
      push_cast
      ring
    have e' : Yx x y - Xy x y = eps x y * Et x y + spectrum (fun t => C t x y) f T := by
      rw [e]
      ring
    rw [← Complex.sub_re, ← mul_sub, ← map_sub, e', map_add, mul_add, Complex.add_re]
    unfold Wave.workAt
    congr 1
    rw [map_mul, Complex.conj_ofReal, mul_left_comm, Complex.re_ofReal_mul]
    congr 1
    simp only [Complex.mul_re, Complex.conj_re, Complex.conj_im]
    ring
  have iEtE := int sEt (sE.mono sub) nEt (slow LE)
  have iEps : IntegrableOn (fun z : ℝ × ℝ => eps z.1 z.2 * (Et z.1 z.2 * (starRingEnd ℂ) (Eh z.1 z.2)).re) (between p q) volume := by
    refine core_integrable (B := epsMax * (R * (M * T * T))) hS (hme.aestronglyMeasurable.mul (core_continuous hS (re sEt (sE.mono sub)))) fun z hz => ?_
    rw [abs_mul]
    exact mul_le_mul (he z.1 z.2 (core_sub hz).1) (bnd (nEt z hz) (slow LE z hz)) (abs_nonneg _) ((abs_nonneg _).trans (he z.1 z.2 (core_sub hz).1))
  have hC : IntegrableOn (fun z : ℝ × ℝ => w.workAt C f T z.1 z.2) (between p q) volume := by
    refine ((iEYx.sub iEXy).sub iEps).congr ?_
    rw [core_restrict hS]
    filter_upwards [ae_restrict_mem (core_open hS).measurableSet] with z hz
    have := amp z.1 z.2 hz
    simp only [Pi.sub_apply]
    linarith
  have comp : IsCompact (between p q) := isCompact_Icc.prod isCompact_Icc
  rw [flow]
  unfold Wave.work
  have iD : IntegrableOn (fun z : ℝ × ℝ => -((Yt z.1 z.2 * (starRingEnd ℂ) (Yh z.1 z.2)).re + (Eh z.1 z.2 * (starRingEnd ℂ) (Yx z.1 z.2)).re) +
      ((-Xt z.1 z.2 * (starRingEnd ℂ) (Xh z.1 z.2)).re + (Eh z.1 z.2 * (starRingEnd ℂ) (Xy z.1 z.2)).re)) (between p q) volume := iF.add iG
  rw [← integral_add iD hC]
  have vol : (volume (between p q)).toReal = (q.x - p.x) * (q.y - p.y) := by
    unfold between
    rw [Measure.volume_eq_prod, Measure.prod_prod, Real.volume_Icc, Real.volume_Icc, ENNReal.toReal_mul, ENNReal.toReal_ofReal (sub_nonneg.mpr hx), ENNReal.toReal_ofReal (sub_nonneg.mpr hy)]
  rw [← Real.norm_eq_abs]
  refine (norm_setIntegral_le_of_norm_le_const_ae (C := (2 + epsMax) * (η * (M * T * T))) comp.measure_lt_top ?_).trans (le_of_eq ?_)
  · rw [core_restrict hS]
    filter_upwards [ae_restrict_mem (core_open hS).measurableSet] with z hz
    obtain ⟨x, y⟩ := z
    dsimp only
    have hE := hη x y (core_sub hz).1
    have r1 := rate_power_le hT (dY x y hz) (cYt x y hz) (LY.rest x y (hd hz).1) f hE.2.2 (slow LY _ hz)
    have r2 := rate_power_le hT (dX x y hz) (cXt x y hz) (LX.rest x y (hd hz).1) f hE.2.1 (slow LX _ hz)
    have r3 := rate_power_le hT (dE x y hz) (cEt x y hz) (LE.rest x y (hd hz).1) f hE.1 (slow LE _ hz)
    have id : -((Yt x y * (starRingEnd ℂ) (Yh x y)).re + (Eh x y * (starRingEnd ℂ) (Yx x y)).re) +
        ((-Xt x y * (starRingEnd ℂ) (Xh x y)).re + (Eh x y * (starRingEnd ℂ) (Xy x y)).re) + w.workAt C f T x y =
        -(Yt x y * (starRingEnd ℂ) (Yh x y)).re - (Xt x y * (starRingEnd ℂ) (Xh x y)).re - eps x y * (Et x y * (starRingEnd ℂ) (Eh x y)).re := by
      have := amp x y hz
      rw [neg_mul, Complex.neg_re]
      linarith
    rw [id, Real.norm_eq_abs]
    have r4 : |eps x y * (Et x y * (starRingEnd ℂ) (Eh x y)).re| ≤ epsMax * (η * (M * T * T)) := by
      rw [abs_mul]
      exact mul_le_mul (he x y (core_sub hz).1) r3 (abs_nonneg _) ((abs_nonneg _).trans (he x y (core_sub hz).1))
    rw [abs_le] at r1 r2 r4 ⊢
    constructor <;> linarith [r1.1, r1.2, r2.1, r2.2, r4.1, r4.2]
  · rw [show volume.real (between p q) = (volume (between p q)).toReal from rfl, vol]
    ring

end Qbox
