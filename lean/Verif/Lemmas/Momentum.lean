import Verif.Spec.MomentumSpec
import Verif.Lemmas.Poynting
import Verif.Props.FluxProps

/-! # Momentum balance of the spectra of a wave -/

namespace Qbox
open Scalar Spec MeasureTheory Props

/-- The components of the stress. -/
noncomputable def stressXX (w : Spec.Wave) (f T x y : ℝ) : ℝ :=
  ((spectrum (fun t => w.X t x y) f T * (starRingEnd ℂ) (spectrum (fun t => w.X t x y) f T)).re - (spectrum (fun t => w.Y t x y) f T * (starRingEnd ℂ) (spectrum (fun t => w.Y t x y) f T)).re -
    (spectrum (fun t => w.E t x y) f T * (starRingEnd ℂ) (spectrum (fun t => w.E t x y) f T)).re) / 2
noncomputable def stressYY (w : Spec.Wave) (f T x y : ℝ) : ℝ :=
  ((spectrum (fun t => w.Y t x y) f T * (starRingEnd ℂ) (spectrum (fun t => w.Y t x y) f T)).re - (spectrum (fun t => w.X t x y) f T * (starRingEnd ℂ) (spectrum (fun t => w.X t x y) f T)).re -
    (spectrum (fun t => w.E t x y) f T * (starRingEnd ℂ) (spectrum (fun t => w.E t x y) f T)).re) / 2
noncomputable def stressXY (w : Spec.Wave) (f T x y : ℝ) : ℝ :=
  (spectrum (fun t => w.X t x y) f T * (starRingEnd ℂ) (spectrum (fun t => w.Y t x y) f T)).re

/-- What flows through the edge of the box in the rigid motion `(a - c y, b + c x)`. -/
noncomputable def sidePull (w : Spec.Wave) (f T a b c x y : ℝ) : ℝ := (a - c * y) * stressXX w f T x y + (b + c * x) * stressXY w f T x y
noncomputable def upPull (w : Spec.Wave) (f T a b c x y : ℝ) : ℝ := (a - c * y) * stressXY w f T x y + (b + c * x) * stressYY w f T x y

/-- The momentum balance of a box, weighted by a rigid motion. -/
theorem momentum {w : Spec.Wave} {g : Grid ℝ} {τ M : ℝ} {S : ℝ → ℝ → Prop} {eps sig : ℝ → ℝ → ℝ} {J Xx Yy : ℝ → ℝ → ℝ → ℝ} (hM : 0 ≤ M)
    (hsm : w.Smooth S g τ M) (hst : w.Steady g τ M) (hev : w.Even g τ M) (hmx : w.Driven S eps sig J g τ) (hr : w.AtRest g) {p q : V2 ℝ} (hx : p.x ≤ q.x) (hy : p.y ≤ q.y)
    {T : ℝ} (hT : 0 ≤ T) (hτ : T ≤ τ) (dom : ∀ x y, (x, y) ∈ between p q → InDomain g x y) {η : ℝ} (hcm : w.Calm S g p q τ M T η Xx Yy) (f a b c L : ℝ)
    (hL : ∀ x y, (x, y) ∈ between p q → |a - c * y| + |b + c * x| ≤ L) :
    ContinuousOn (fun z : ℝ × ℝ => stressXX w f T z.1 z.2) (between p q) ∧ ContinuousOn (fun z : ℝ × ℝ => stressXY w f T z.1 z.2) (between p q) ∧
    ContinuousOn (fun z : ℝ × ℝ => stressYY w f T z.1 z.2) (between p q) ∧
    |(∫ y in p.y..q.y, (sidePull w f T a b c q.x y - sidePull w f T a b c p.x y)) + (∫ x in p.x..q.x, (upPull w f T a b c x q.y - upPull w f T a b c x p.y)) -
      ∫ z in between p q, ((a - c * z.2) * (w.pushAt (w.currents eps sig J) f T z.1 z.2).x + (b + c * z.1) * (w.pushAt (w.currents eps sig J) f T z.1 z.2).y)| ≤
      (q.x - p.x) * (q.y - p.y) * (2 * L * (η * (M * T * T))) := by
  have hS := hcm.pieces
  have hη := hcm.faded
  have LE := lip_E hst hr
  have LX := lip_X hst hev hr
  have LY := lip_Y hst hev hr
  have cE := continuous_lip LE hM hτ dom
  have cX := continuous_lip LX hM hτ dom
  have cY := continuous_lip LY hM hτ dom
  have inT : ∀ t ∈ Set.Icc 0 T, 0 ≤ t ∧ t ≤ τ := fun t ht => ⟨ht.1, ht.2.trans hτ⟩
  have hd : ∀ {x y}, (x, y) ∈ core S p q → InDomain g x y ∧ S x y := fun h => ⟨dom _ _ (core_sub h).1, (core_sub h).2⟩
  -- in time
  have dE : ∀ x y, (x, y) ∈ core S p q → ∀ t ∈ Set.Icc 0 T, HasDerivAt (fun t => w.E t x y) (w.Et t x y) t := fun x y h t ht => by
    obtain ⟨f2, f3, k⟩ := hsm.Et x y (hd h).1 (hd h).2
    exact (k t (inT t ht).1 (inT t ht).2).1
  have dX : ∀ x y, (x, y) ∈ core S p q → ∀ t ∈ Set.Icc 0 T, HasDerivAt (fun t => w.X t x y) (w.Xt t x y) t := fun x y h t ht => by
    obtain ⟨f2, f3, k⟩ := hsm.Xt x y (hd h).1 (hd h).2
    exact (k t (inT t ht).1 (inT t ht).2).1
  have dY : ∀ x y, (x, y) ∈ core S p q → ∀ t ∈ Set.Icc 0 T, HasDerivAt (fun t => w.Y t x y) (w.Yt t x y) t := fun x y h t ht => by
    obtain ⟨f2, f3, k⟩ := hsm.Yt x y (hd h).1 (hd h).2
    exact (k t (inT t ht).1 (inT t ht).2).1
  have cEt : ∀ x y, (x, y) ∈ core S p q → ContinuousOn (fun t => w.Et t x y) (Set.Icc 0 T) := fun x y h t ht => by
    obtain ⟨f2, f3, k⟩ := hsm.Et x y (hd h).1 (hd h).2
    exact (k t (inT t ht).1 (inT t ht).2).2.1.continuousAt.continuousWithinAt
  have cXt : ∀ x y, (x, y) ∈ core S p q → ContinuousOn (fun t => w.Xt t x y) (Set.Icc 0 T) := fun x y h t ht => by
    obtain ⟨f2, f3, k⟩ := hsm.Xt x y (hd h).1 (hd h).2
    exact (k t (inT t ht).1 (inT t ht).2).2.1.continuousAt.continuousWithinAt
  have cYt : ∀ x y, (x, y) ∈ core S p q → ContinuousOn (fun t => w.Yt t x y) (Set.Icc 0 T) := fun x y h t ht => by
    obtain ⟨f2, f3, k⟩ := hsm.Yt x y (hd h).1 (hd h).2
    exact (k t (inT t ht).1 (inT t ht).2).2.1.continuousAt.continuousWithinAt
  have sect : ∀ {V : ℝ → ℝ → ℝ → ℝ}, ContinuousOn (fun z : ℝ × ℝ × ℝ => V z.1 z.2.1 z.2.2) (Set.Icc 0 T ×ˢ between p q) → ∀ x y, (x, y) ∈ between p q →
      ContinuousOn (fun t => V t x y) (Set.Icc 0 T) := fun {V} h x y hxy =>
    h.comp (f := fun t : ℝ => (t, x, y)) (continuous_id.prodMk continuous_const).continuousOn fun t ht => ⟨ht, hxy⟩
  have sectS : ∀ {V : ℝ → ℝ → ℝ → ℝ}, ContinuousOn (fun z : ℝ × ℝ × ℝ => V z.1 z.2.1 z.2.2) (Set.Icc 0 T ×ˢ {z | z ∈ between p q ∧ S z.1 z.2}) → ∀ x y, (x, y) ∈ core S p q →
      ContinuousOn (fun t => V t x y) (Set.Icc 0 T) := fun {V} h x y hxy =>
    h.comp (f := fun t : ℝ => (t, x, y)) (continuous_id.prodMk continuous_const).continuousOn fun t ht => ⟨ht, core_sub hxy⟩
  -- around a point
  have rowNear : ∀ x y, (x, y) ∈ core S p q → ∃ a b, x ∈ Set.Ioo a b ∧ ∀ s ∈ Set.Icc a b, (s, y) ∈ core S p q := fun x y h => by
    obtain ⟨ε, h1, h2⟩ := Metric.isOpen_iff.mp (core_open hS) _ h
    refine ⟨x - ε / 2, x + ε / 2, ⟨by linarith, by linarith⟩, fun s hs => h2 ?_⟩
    rw [Metric.mem_ball, Prod.dist_eq, dist_self, max_lt_iff, Real.dist_eq]
    exact ⟨abs_lt.mpr ⟨by linarith [hs.1], by linarith [hs.2]⟩, h1⟩
  have colNear : ∀ x y, (x, y) ∈ core S p q → ∃ a b, y ∈ Set.Ioo a b ∧ ∀ s ∈ Set.Icc a b, (x, s) ∈ core S p q := fun x y h => by
    obtain ⟨ε, h1, h2⟩ := Metric.isOpen_iff.mp (core_open hS) _ h
    refine ⟨y - ε / 2, y + ε / 2, ⟨by linarith, by linarith⟩, fun s hs => h2 ?_⟩
    rw [Metric.mem_ball, Prod.dist_eq, dist_self, max_lt_iff, Real.dist_eq]
    exact ⟨h1, abs_lt.mpr ⟨by linarith [hs.1], by linarith [hs.2]⟩⟩
  have bYx : ∀ t ∈ Set.Icc 0 T, ∀ z ∈ core S p q, |w.Yx t z.1 z.2| ≤ M := fun t ht z hz => by
    obtain ⟨a, b, h1, h2⟩ := rowNear z.1 z.2 hz
    obtain ⟨f2, f3, k⟩ := hsm.Yx t z.2 a b (inT t ht).1 (inT t ht).2 fun s h1 h2' => hd (h2 s ⟨h1, h2'⟩)
    refine HasDerivAt.le_of_lip' (k z.1 h1.1.le h1.2.le).1 hM ?_
    filter_upwards [Ioo_mem_nhds h1.1 h1.2] with s hs
    rw [Real.norm_eq_abs, Real.norm_eq_abs]
    have := LY.dist (inT t ht).1 (inT t ht).2 (hd hz).1 (hd (h2 s ⟨hs.1.le, hs.2.le⟩)).1
    rw [sub_self, abs_zero, add_zero] at this
    exact this
  have bXy : ∀ t ∈ Set.Icc 0 T, ∀ z ∈ core S p q, |w.Xy t z.1 z.2| ≤ M := fun t ht z hz => by
    obtain ⟨a, b, h1, h2⟩ := colNear z.1 z.2 hz
    obtain ⟨f2, f3, k⟩ := hsm.Xy t z.1 a b (inT t ht).1 (inT t ht).2 fun s h1 h2' => hd (h2 s ⟨h1, h2'⟩)
    refine HasDerivAt.le_of_lip' (k z.2 h1.1.le h1.2.le).1 hM ?_
    filter_upwards [Ioo_mem_nhds h1.1 h1.2] with s hs
    rw [Real.norm_eq_abs, Real.norm_eq_abs]
    have := LX.dist (inT t ht).1 (inT t ht).2 (hd hz).1 (hd (h2 s ⟨hs.1.le, hs.2.le⟩)).1
    rw [sub_self, abs_zero, zero_add] at this
    exact this
  have bXx : ∀ t ∈ Set.Icc 0 T, ∀ z ∈ core S p q, |Xx t z.1 z.2| ≤ M := fun t ht z hz => by
    obtain ⟨a, b, h1, h2⟩ := rowNear z.1 z.2 hz
    obtain ⟨f2, f3, k⟩ := hcm.solenoidal.alongX t z.2 a b (inT t ht).1 (inT t ht).2 fun s h1 h2' => hd (h2 s ⟨h1, h2'⟩)
    refine HasDerivAt.le_of_lip' (k z.1 h1.1.le h1.2.le).1 hM ?_
    filter_upwards [Ioo_mem_nhds h1.1 h1.2] with s hs
    rw [Real.norm_eq_abs, Real.norm_eq_abs]
    have := LX.dist (inT t ht).1 (inT t ht).2 (hd hz).1 (hd (h2 s ⟨hs.1.le, hs.2.le⟩)).1
    rw [sub_self, abs_zero, add_zero] at this
    exact this
  have bYy : ∀ t ∈ Set.Icc 0 T, ∀ z ∈ core S p q, |Yy t z.1 z.2| ≤ M := fun t ht z hz => by
    obtain ⟨a, b, h1, h2⟩ := colNear z.1 z.2 hz
    obtain ⟨f2, f3, k⟩ := hcm.solenoidal.alongY t z.1 a b (inT t ht).1 (inT t ht).2 fun s h1 h2' => hd (h2 s ⟨h1, h2'⟩)
    refine HasDerivAt.le_of_lip' (k z.2 h1.1.le h1.2.le).1 hM ?_
    filter_upwards [Ioo_mem_nhds h1.1 h1.2] with s hs
    rw [Real.norm_eq_abs, Real.norm_eq_abs]
    have := LY.dist (inT t ht).1 (inT t ht).2 (hd hz).1 (hd (h2 s ⟨hs.1.le, hs.2.le⟩)).1
    rw [sub_self, abs_zero, zero_add] at this
    exact this
  -- the spectra
  set Eh : ℝ → ℝ → ℂ := fun x y => spectrum (fun t => w.E t x y) f T with hEh
  set Xh : ℝ → ℝ → ℂ := fun x y => spectrum (fun t => w.X t x y) f T with hXh
  set Yh : ℝ → ℝ → ℂ := fun x y => spectrum (fun t => w.Y t x y) f T with hYh
  set Yx : ℝ → ℝ → ℂ := fun x y => spectrum (fun t => w.Yx t x y) f T with hYx
  set Xy : ℝ → ℝ → ℂ := fun x y => spectrum (fun t => w.Xy t x y) f T with hXy
  set Et : ℝ → ℝ → ℂ := fun x y => spectrum (fun t => w.Et t x y) f T with hEt
  set Xt : ℝ → ℝ → ℂ := fun x y => spectrum (fun t => w.Xt t x y) f T with hXt
  set Yt : ℝ → ℝ → ℂ := fun x y => spectrum (fun t => w.Yt t x y) f T with hYt
  set Xxh : ℝ → ℝ → ℂ := fun x y => spectrum (fun t => Xx t x y) f T with hXxh
  set Yyh : ℝ → ℝ → ℂ := fun x y => spectrum (fun t => Yy t x y) f T with hYyh
  have sXx : ContinuousOn (fun z : ℝ × ℝ => Xxh z.1 z.2) (core S p q) := spectrum_core hT hcm.evenX bXx f
  have sYy : ContinuousOn (fun z : ℝ × ℝ => Yyh z.1 z.2) (core S p q) := spectrum_core hT hcm.evenY bYy f
  have sE := spectrum_box hT hx hy cE f
  have sX := spectrum_box hT hx hy cX f
  have sY := spectrum_box hT hx hy cY f
  have sYx : ContinuousOn (fun z : ℝ × ℝ => Yx z.1 z.2) (core S p q) := spectrum_core hT hcm.regular.Yx bYx f
  have sXy : ContinuousOn (fun z : ℝ × ℝ => Xy z.1 z.2) (core S p q) := spectrum_core hT hcm.regular.Xy bXy f
  have atT : ∀ {V : ℝ → ℝ → ℝ → ℝ}, ContinuousOn (fun z : ℝ × ℝ × ℝ => V z.1 z.2.1 z.2.2) (Set.Icc 0 T ×ˢ between p q) →
      ContinuousOn (fun z : ℝ × ℝ => ((V T z.1 z.2 : ℝ) : ℂ)) (between p q) := fun {V} h =>
    Complex.continuous_ofReal.comp_continuousOn (h.comp (f := fun z : ℝ × ℝ => (T, z.1, z.2)) (continuous_const.prodMk continuous_id).continuousOn fun z hz => ⟨⟨hT, le_rfl⟩, hz⟩)
  have sub : core S p q ⊆ between p q := fun z hz => (core_sub hz).1
  have eEt : ∀ x y, (x, y) ∈ core S p q → Et x y = w.E T x y * wavelet f T - 2 * Real.pi * f * Complex.I * Eh x y := fun x y h =>
    spectrum_rate hT (dE x y h) (cEt x y h) (LE.rest x y (hd h).1) f
  have eYt : ∀ x y, (x, y) ∈ core S p q → Yt x y = w.Y T x y * wavelet f T - 2 * Real.pi * f * Complex.I * Yh x y := fun x y h =>
    spectrum_rate hT (dY x y h) (cYt x y h) (LY.rest x y (hd h).1) f
  have eXt : ∀ x y, (x, y) ∈ core S p q → Xt x y = w.X T x y * wavelet f T - 2 * Real.pi * f * Complex.I * Xh x y := fun x y h =>
    spectrum_rate hT (dX x y h) (cXt x y h) (LX.rest x y (hd h).1) f
  have sEt : ContinuousOn (fun z : ℝ × ℝ => Et z.1 z.2) (core S p q) :=
    ((((atT cE).mul continuousOn_const).sub (continuousOn_const.mul sE)).mono sub).congr fun z hz => eEt z.1 z.2 hz
  have sYt : ContinuousOn (fun z : ℝ × ℝ => Yt z.1 z.2) (core S p q) :=
    ((((atT cY).mul continuousOn_const).sub (continuousOn_const.mul sY)).mono sub).congr fun z hz => eYt z.1 z.2 hz
  have sXt : ContinuousOn (fun z : ℝ × ℝ => Xt z.1 z.2) (core S p q) :=
    ((((atT cX).mul continuousOn_const).sub (continuousOn_const.mul sX)).mono sub).congr fun z hz => eXt z.1 z.2 hz
  have re : ∀ {D : Set (ℝ × ℝ)} {u v : ℝ × ℝ → ℂ}, ContinuousOn u D → ContinuousOn v D → ContinuousOn (fun z => (u z * (starRingEnd ℂ) (v z)).re) D :=
    fun hu hv => Complex.continuous_re.comp_continuousOn (hu.mul (Complex.continuous_conj.comp_continuousOn hv))
  have slow : ∀ {V : ℝ → ℝ → ℝ → ℝ}, Lip V g τ M → ∀ z ∈ core S p q, ‖spectrum (fun t => V t z.1 z.2) f T‖ ≤ M * T * T := fun h z hz =>
    spectrum_le hT hM (fun t t' a b c => h.t t t' z.1 z.2 a b (c.trans hτ) (hd hz).1) (h.rest z.1 z.2 (hd hz).1) f
  have small : ∀ {V : ℝ → ℝ → ℝ → ℝ}, Lip V g τ M → ∀ z ∈ core S p q, |V T z.1 z.2| ≤ M * T := fun h z hz => by
    have := h.t 0 T z.1 z.2 le_rfl hT hτ (hd hz).1
    rw [h.rest z.1 z.2 (hd hz).1, sub_zero, sub_zero] at this
    exact this
  set R : ℝ := M * T + 2 * Real.pi * |f| * (M * T * T) with hR
  have R0 : 0 ≤ R := by positivity
  have rate : ∀ {V : ℝ → ℝ → ℝ → ℝ}, Lip V g τ M → ∀ z ∈ core S p q, ‖(V T z.1 z.2 : ℂ) * wavelet f T - 2 * Real.pi * f * Complex.I * spectrum (fun t => V t z.1 z.2) f T‖ ≤ R :=
    fun h z hz => by
    refine (norm_sub_le _ _).trans ?_
    rw [norm_mul, norm_wavelet, mul_one, Complex.norm_real, norm_mul]
    refine add_le_add (small h z hz) ?_
    have : ‖(2 * Real.pi * f * Complex.I : ℂ)‖ = 2 * Real.pi * |f| := by
      rw [norm_mul, Complex.norm_I, mul_one, norm_mul, Complex.norm_real, norm_mul, Complex.norm_real, Real.norm_eq_abs, Real.norm_eq_abs, abs_of_pos Real.pi_pos]
      norm_num
    rw [this]
    exact mul_le_mul_of_nonneg_left (slow h z hz) (by positivity)
  have bnd : ∀ {u v : ℂ} {A B : ℝ}, ‖u‖ ≤ A → ‖v‖ ≤ B → |(u * (starRingEnd ℂ) v).re| ≤ A * B := fun hu hv => by
    refine (Complex.abs_re_le_norm _).trans ?_
    rw [norm_mul, RCLike.norm_conj]
    exact mul_le_mul hu hv (norm_nonneg _) ((norm_nonneg _).trans hu)
  have int : ∀ {u v : ℝ × ℝ → ℂ} {A B : ℝ}, ContinuousOn u (core S p q) → ContinuousOn v (core S p q) → (∀ z ∈ core S p q, ‖u z‖ ≤ A) → (∀ z ∈ core S p q, ‖v z‖ ≤ B) →
      IntegrableOn (fun z => (u z * (starRingEnd ℂ) (v z)).re) (between p q) volume := fun cu cv hu hv =>
    core_integrable hS (core_continuous hS (re cu cv)) fun z hz => bnd (hu z hz) (hv z hz)
  have nYx : ∀ z ∈ core S p q, ‖Yx z.1 z.2‖ ≤ M * T := fun z hz => spectrum_norm hT (fun t ht => bYx t ht z hz) f
  have nXy : ∀ z ∈ core S p q, ‖Xy z.1 z.2‖ ≤ M * T := fun z hz => spectrum_norm hT (fun t ht => bXy t ht z hz) f
  have nEt : ∀ z ∈ core S p q, ‖Et z.1 z.2‖ ≤ R := fun z hz => by rw [eEt z.1 z.2 hz]; exact rate LE z hz
  have nXt : ∀ z ∈ core S p q, ‖Xt z.1 z.2‖ ≤ R := fun z hz => by rw [eXt z.1 z.2 hz]; exact rate LX z hz
  have nYt : ∀ z ∈ core S p q, ‖Yt z.1 z.2‖ ≤ R := fun z hz => by rw [eYt z.1 z.2 hz]; exact rate LY z hz
  -- in space
  have aEx : ∀ x y, (x, y) ∈ core S p q → HasDerivAt (fun x => Eh x y) (Yt x y) x := fun x y h => by
    obtain ⟨a, b, h1, h2⟩ := rowNear x y h
    have := spectrum_place (v := fun t x => w.E t x y) (v1 := fun t x => w.Ex t x y) hT (fun t ht => hsm.Ex t y a b (inT t ht).1 (inT t ht).2 fun s h1 h2' => hd (h2 s ⟨h1, h2'⟩))
      (fun s hs => sect cE s y (core_sub (h2 s hs)).1) (fun s hs => (cYt s y (h2 s hs)).congr fun t ht =>
        (hmx.faradayY t s y (inT t ht).1 (inT t ht).2 (hd (h2 s hs)).1 (hd (h2 s hs)).2).symm) f h1
    refine this.congr_deriv ?_
    refine intervalIntegral.integral_congr fun t ht => ?_
    rw [Set.uIcc_of_le hT] at ht
    dsimp only
    rw [hmx.faradayY t x y (inT t ht).1 (inT t ht).2 (hd h).1 (hd h).2]
  have aYx : ∀ x y, (x, y) ∈ core S p q → HasDerivAt (fun x => Yh x y) (Yx x y) x := fun x y h => by
    obtain ⟨a, b, h1, h2⟩ := rowNear x y h
    exact spectrum_place (v := fun t x => w.Y t x y) (v1 := fun t x => w.Yx t x y) hT (fun t ht => hsm.Yx t y a b (inT t ht).1 (inT t ht).2 fun s h1 h2' => hd (h2 s ⟨h1, h2'⟩))
      (fun s hs => sect cY s y (core_sub (h2 s hs)).1) (fun s hs => sectS hcm.regular.Yx s y (h2 s hs)) f h1
  have aEy : ∀ x y, (x, y) ∈ core S p q → HasDerivAt (fun y => Eh x y) (-Xt x y) y := fun x y h => by
    obtain ⟨a, b, h1, h2⟩ := colNear x y h
    have := spectrum_place (v := fun t y => w.E t x y) (v1 := fun t y => w.Ey t x y) hT (fun t ht => hsm.Ey t x a b (inT t ht).1 (inT t ht).2 fun s h1 h2' => hd (h2 s ⟨h1, h2'⟩))
      (fun s hs => sect cE x s (core_sub (h2 s hs)).1) (fun s hs => (cXt x s (h2 s hs)).neg.congr fun t ht => by
        have := hmx.faradayX t x s (inT t ht).1 (inT t ht).2 (hd (h2 s hs)).1 (hd (h2 s hs)).2
        show w.Ey t x s = - w.Xt t x s
        rw [this, neg_neg]) f h1
    refine this.congr_deriv ?_
    show (∫ t in (0 : ℝ)..T, ((w.Ey t x y : ℝ) : ℂ) * wavelet f t) = - ∫ t in (0 : ℝ)..T, ((w.Xt t x y : ℝ) : ℂ) * wavelet f t
    rw [← intervalIntegral.integral_neg]
    refine intervalIntegral.integral_congr fun t ht => ?_
    rw [Set.uIcc_of_le hT] at ht
    rw [hmx.faradayX t x y (inT t ht).1 (inT t ht).2 (hd h).1 (hd h).2]
    push_cast
    ring
  have aXy : ∀ x y, (x, y) ∈ core S p q → HasDerivAt (fun y => Xh x y) (Xy x y) y := fun x y h => by
    obtain ⟨a, b, h1, h2⟩ := colNear x y h
    exact spectrum_place (v := fun t y => w.X t x y) (v1 := fun t y => w.Xy t x y) hT (fun t ht => hsm.Xy t x a b (inT t ht).1 (inT t ht).2 fun s h1 h2' => hd (h2 s ⟨h1, h2'⟩))
      (fun s hs => sect cX x s (core_sub (h2 s hs)).1) (fun s hs => sectS hcm.regular.Xy x s (h2 s hs)) f h1
  have aXx : ∀ x y, (x, y) ∈ core S p q → HasDerivAt (fun x => Xh x y) (Xxh x y) x := fun x y h => by
    obtain ⟨a, b, h1, h2⟩ := rowNear x y h
    exact spectrum_place (v := fun t x => w.X t x y) (v1 := fun t x => Xx t x y) hT (fun t ht => hcm.solenoidal.alongX t y a b (inT t ht).1 (inT t ht).2 fun s h1 h2' => hd (h2 s ⟨h1, h2'⟩))
      (fun s hs => sect cX s y (core_sub (h2 s hs)).1) (fun s hs => sectS hcm.evenX s y (h2 s hs)) f h1
  have aYy : ∀ x y, (x, y) ∈ core S p q → HasDerivAt (fun y => Yh x y) (Yyh x y) y := fun x y h => by
    obtain ⟨a, b, h1, h2⟩ := colNear x y h
    exact spectrum_place (v := fun t y => w.Y t x y) (v1 := fun t y => Yy t x y) hT (fun t ht => hcm.solenoidal.alongY t x a b (inT t ht).1 (inT t ht).2 fun s h1 h2' => hd (h2 s ⟨h1, h2'⟩))
      (fun s hs => sect cY x s (core_sub (h2 s hs)).1) (fun s hs => sectS hcm.evenY x s (h2 s hs)) f h1
  have product : ∀ {u v : ℝ → ℂ} {u' v' : ℂ} {s : ℝ}, HasDerivAt u u' s → HasDerivAt v v' s →
      HasDerivAt (fun s => (u s * (starRingEnd ℂ) (v s)).re) ((u' * (starRingEnd ℂ) (v s)).re + (u s * (starRingEnd ℂ) v').re) s := fun {u v u' v' s} hu hv => by
    have hv' : HasDerivAt (fun s => (starRingEnd ℂ) (v s)) ((starRingEnd ℂ) v') s := (Complex.conjCLE.toContinuousLinearMap.hasFDerivAt).comp_hasDerivAt s hv
    have := (Complex.reCLM.hasFDerivAt).comp_hasDerivAt s (hu.mul hv')
    refine this.congr_deriv ?_
    simp
  have nXx : ∀ z ∈ core S p q, ‖Xxh z.1 z.2‖ ≤ M * T := fun z hz => spectrum_norm hT (fun t ht => bXx t ht z hz) f
  have nYy : ∀ z ∈ core S p q, ‖Yyh z.1 z.2‖ ≤ M * T := fun z hz => spectrum_norm hT (fun t ht => bYy t ht z hz) f
  have cXX : ContinuousOn (fun z : ℝ × ℝ => stressXX w f T z.1 z.2) (between p q) := (((re sX sX).sub (re sY sY)).sub (re sE sE)).div_const 2
  have cYY : ContinuousOn (fun z : ℝ × ℝ => stressYY w f T z.1 z.2) (between p q) := (((re sY sY).sub (re sX sX)).sub (re sE sE)).div_const 2
  have cXY : ContinuousOn (fun z : ℝ × ℝ => stressXY w f T z.1 z.2) (between p q) := re sX sY
  refine ⟨cXX, cXY, cYY, ?_⟩
  have ca : Continuous fun z : ℝ × ℝ => a - c * z.2 := by fun_prop
  have cb : Continuous fun z : ℝ × ℝ => b + c * z.1 := by fun_prop
  have cF : ContinuousOn (fun z : ℝ × ℝ => sidePull w f T a b c z.1 z.2) (between p q) := (ca.continuousOn.mul cXX).add (cb.continuousOn.mul cXY)
  have cG : ContinuousOn (fun z : ℝ × ℝ => upPull w f T a b c z.1 z.2) (between p q) := (ca.continuousOn.mul cXY).add (cb.continuousOn.mul cYY)
  have sq : ∀ {u : ℝ → ℂ} {u' : ℂ} {s : ℝ}, HasDerivAt u u' s → HasDerivAt (fun s => (u s * (starRingEnd ℂ) (u s)).re) (2 * (u' * (starRingEnd ℂ) (u s)).re) s := fun {u u' s} hu =>
    (product hu hu).congr_deriv (by simp only [Complex.mul_re, Complex.conj_re, Complex.conj_im]; ring)
  -- derivatives of the stress
  set Fx : ℝ → ℝ → ℝ := fun x y => (a - c * y) * ((Xxh x y * (starRingEnd ℂ) (Xh x y)).re - (Yx x y * (starRingEnd ℂ) (Yh x y)).re - (Yt x y * (starRingEnd ℂ) (Eh x y)).re) +
    (c * (Xh x y * (starRingEnd ℂ) (Yh x y)).re + (b + c * x) * ((Xxh x y * (starRingEnd ℂ) (Yh x y)).re + (Xh x y * (starRingEnd ℂ) (Yx x y)).re)) with hFx
  set Gy : ℝ → ℝ → ℝ := fun x y => (-c * (Xh x y * (starRingEnd ℂ) (Yh x y)).re + (a - c * y) * ((Xy x y * (starRingEnd ℂ) (Yh x y)).re + (Xh x y * (starRingEnd ℂ) (Yyh x y)).re)) +
    (b + c * x) * ((Yyh x y * (starRingEnd ℂ) (Yh x y)).re - (Xy x y * (starRingEnd ℂ) (Xh x y)).re + (Xt x y * (starRingEnd ℂ) (Eh x y)).re) with hGy
  have hFd : ∀ x y, (x, y) ∈ core S p q → HasDerivAt (fun x => sidePull w f T a b c x y) (Fx x y) x := fun x y h => by
    have d1 := (((sq (aXx x y h)).sub (sq (aYx x y h))).sub (sq (aEx x y h))).div_const 2
    have d2 := product (aXx x y h) (aYx x y h)
    have d3 : HasDerivAt (fun x => b + c * x) c x := by simpa using ((hasDerivAt_id x).const_mul c).const_add b
    refine ((d1.const_mul (a - c * y)).add (d3.mul d2)).congr_deriv ?_
    rw [hFx]
    ring
  have hGd : ∀ x y, (x, y) ∈ core S p q → HasDerivAt (fun y => upPull w f T a b c x y) (Gy x y) y := fun x y h => by
    have d1 := (((sq (aYy x y h)).sub (sq (aXy x y h))).sub (sq (aEy x y h))).div_const 2
    have d2 := product (aXy x y h) (aYy x y h)
    have d3 : HasDerivAt (fun y => a - c * y) (-c) y := by simpa using ((hasDerivAt_id y).const_mul c).const_sub a
    refine ((d3.mul d2).add (d1.const_mul (b + c * x))).congr_deriv ?_
    rw [hGy]
    simp only [neg_mul, Complex.neg_re]
    ring
  -- integrable
  have comp : IsCompact (between p q) := isCompact_Icc.prod isCompact_Icc
  obtain ⟨A, hA⟩ := comp.exists_bound_of_continuousOn ca.continuousOn
  obtain ⟨B, hB⟩ := comp.exists_bound_of_continuousOn cb.continuousOn
  have wa : ∀ {u : ℝ × ℝ → ℝ}, IntegrableOn u (between p q) volume → IntegrableOn (fun z => (a - c * z.2) * u z) (between p q) volume := fun hu =>
    Integrable.bdd_mul hu ca.aestronglyMeasurable ((ae_restrict_iff' comp.measurableSet).mpr (Filter.Eventually.of_forall hA))
  have wb : ∀ {u : ℝ × ℝ → ℝ}, IntegrableOn u (between p q) volume → IntegrableOn (fun z => (b + c * z.1) * u z) (between p q) volume := fun hu =>
    Integrable.bdd_mul hu cb.aestronglyMeasurable ((ae_restrict_iff' comp.measurableSet).mpr (Filter.Eventually.of_forall hB))
  have sE' := sE.mono sub
  have sX' := sX.mono sub
  have sY' := sY.mono sub
  have iF : IntegrableOn (fun z : ℝ × ℝ => Fx z.1 z.2) (between p q) volume :=
    (wa (((int sXx sX' nXx (slow LX)).sub (int sYx sY' nYx (slow LY))).sub (int sYt sE' nYt (slow LE)))).add
      (((int sX' sY' (slow LX) (slow LY)).const_mul c).add (wb ((int sXx sY' nXx (slow LY)).add (int sX' sYx (slow LX) nYx))))
  have iG : IntegrableOn (fun z : ℝ × ℝ => Gy z.1 z.2) (between p q) volume :=
    (((int sX' sY' (slow LX) (slow LY)).const_mul (-c)).add (wa ((int sXy sY' nXy (slow LY)).add (int sX' sYy (slow LX) nYy)))).add
      (wb (((int sYy sY' nYy (slow LY)).sub (int sXy sX' nXy (slow LX))).add (int sXt sE' nXt (slow LE))))
  rw [rectangle_divergence hx hy hS cF iF cG iG (fun x hx' y hy' hs => hFd x y ⟨⟨hx', hy'⟩, hs⟩) (fun x hx' y hy' hs => hGd x y ⟨⟨hx', hy'⟩, hs⟩)]
  -- Ampère's law
  have cc : ∀ {u : ℝ → ℝ}, ContinuousOn u (Set.Icc 0 T) → IntervalIntegrable (fun t => (u t : ℂ) * wavelet f t) volume 0 T := fun hu =>
    ((Complex.continuous_ofReal.comp_continuousOn hu).mul (wavelet_continuous f).continuousOn).intervalIntegrable_of_Icc hT
  have amp : ∀ x y, (x, y) ∈ core S p q → spectrum (fun t => w.currents eps sig J t x y) f T = Yx x y - Xy x y - Et x y := fun x y hz => by
    show (∫ t in (0 : ℝ)..T, ((w.currents eps sig J t x y : ℝ) : ℂ) * wavelet f t) = (∫ t in (0 : ℝ)..T, ((w.Yx t x y : ℝ) : ℂ) * wavelet f t) -
      (∫ t in (0 : ℝ)..T, ((w.Xy t x y : ℝ) : ℂ) * wavelet f t) - ∫ t in (0 : ℝ)..T, ((w.Et t x y : ℝ) : ℂ) * wavelet f t
    rw [← intervalIntegral.integral_sub (cc (sectS hcm.regular.Yx x y hz)) (cc (sectS hcm.regular.Xy x y hz)),
      ← intervalIntegral.integral_sub ((cc (sectS hcm.regular.Yx x y hz)).sub (cc (sectS hcm.regular.Xy x y hz))) (cc (cEt x y hz))]
    refine intervalIntegral.integral_congr fun t ht => ?_
    rw [Set.uIcc_of_le hT] at ht
    have law := hmx.ampere t x y (inT t ht).1 (inT t ht).2 (hd hz).1 (hd hz).2
    have : w.currents eps sig J t x y = w.Yx t x y - w.Xy t x y - w.Et t x y := by unfold Wave.currents; linarith
    rw [this]
    push_cast
    ring
  have gau : ∀ x y, (x, y) ∈ core S p q → Xxh x y = - Yyh x y := fun x y hz => by
    show (∫ t in (0 : ℝ)..T, ((Xx t x y : ℝ) : ℂ) * wavelet f t) = - ∫ t in (0 : ℝ)..T, ((Yy t x y : ℝ) : ℂ) * wavelet f t
    rw [← intervalIntegral.integral_neg]
    refine intervalIntegral.integral_congr fun t ht => ?_
    rw [Set.uIcc_of_le hT] at ht
    have := hcm.solenoidal.gauss t x y (inT t ht).1 (inT t ht).2 (hd hz).1 (hd hz).2
    have e : Xx t x y = - Yy t x y := by linarith
    rw [e]
    push_cast
    ring
  have iP : IntegrableOn (fun z : ℝ × ℝ => (a - c * z.2) * (w.pushAt (w.currents eps sig J) f T z.1 z.2).x + (b + c * z.1) * (w.pushAt (w.currents eps sig J) f T z.1 z.2).y) (between p q) volume := by
    refine ((wa (((int sYx sY' nYx (slow LY)).sub (int sXy sY' nXy (slow LY))).sub (int sEt sY' nEt (slow LY))).neg).add
      (wb (((int sYx sX' nYx (slow LX)).sub (int sXy sX' nXy (slow LX))).sub (int sEt sX' nEt (slow LX))))).congr ?_
    rw [core_restrict hS]
    filter_upwards [ae_restrict_mem (core_open hS).measurableSet] with z hz
    simp only [Wave.pushAt, amp z.1 z.2 hz, Pi.add_apply, Pi.sub_apply, Pi.neg_apply, sub_mul, Complex.sub_re]
  have iFG : IntegrableOn (fun z : ℝ × ℝ => Fx z.1 z.2 + Gy z.1 z.2) (between p q) volume := iF.add iG
  rw [← integral_sub iFG iP]
  have vol : (volume (between p q)).toReal = (q.x - p.x) * (q.y - p.y) := by
    unfold between
    rw [Measure.volume_eq_prod, Measure.prod_prod, Real.volume_Icc, Real.volume_Icc, ENNReal.toReal_mul, ENNReal.toReal_ofReal (sub_nonneg.mpr hx), ENNReal.toReal_ofReal (sub_nonneg.mpr hy)]
  rw [← Real.norm_eq_abs]
  refine (norm_setIntegral_le_of_norm_le_const_ae (C := 2 * L * (η * (M * T * T))) comp.measure_lt_top ?_).trans (le_of_eq ?_)
  · rw [core_restrict hS]
    filter_upwards [ae_restrict_mem (core_open hS).measurableSet] with z hz
    obtain ⟨x, y⟩ := z
    have hE := hη x y (core_sub hz).1
    have η0 : 0 ≤ η := (abs_nonneg _).trans hE.1
    have id : Fx x y + Gy x y - ((a - c * y) * (w.pushAt (w.currents eps sig J) f T x y).x + (b + c * x) * (w.pushAt (w.currents eps sig J) f T x y).y) =
        (a - c * y) * (-(w.E T x y * wavelet f T * (starRingEnd ℂ) (Yh x y)).re - (w.Y T x y * wavelet f T * (starRingEnd ℂ) (Eh x y)).re) +
        (b + c * x) * ((w.E T x y * wavelet f T * (starRingEnd ℂ) (Xh x y)).re + (w.X T x y * wavelet f T * (starRingEnd ℂ) (Eh x y)).re) := by
      have u1 : spectrum (fun t => w.Y t x y) f T = Yh x y := rfl
      have u2 : spectrum (fun t => w.X t x y) f T = Xh x y := rfl
      simp only [hFx, hGy, Wave.pushAt, amp x y hz, gau x y hz, eEt x y hz, eYt x y hz, eXt x y hz, u1, u2]
      generalize Eh x y = e
      generalize Xh x y = u
      generalize Yh x y = v
      generalize Yx x y = vx
      generalize Xy x y = uy
      generalize Yyh x y = vy
      generalize wavelet f T = k
      simp only [Complex.mul_re, Complex.mul_im, Complex.sub_re, Complex.sub_im, Complex.neg_re, Complex.neg_im, Complex.conj_re, Complex.conj_im, Complex.ofReal_re, Complex.ofReal_im,
        Complex.I_re, Complex.I_im, Complex.re_ofNat, Complex.im_ofNat]
      ring
    show ‖Fx x y + Gy x y - _‖ ≤ _
    rw [id, Real.norm_eq_abs]
    have fade : ∀ {v : ℝ}, |v| ≤ η → ‖(v : ℂ) * wavelet f T‖ ≤ η := fun hv => by
      rw [norm_mul, norm_wavelet, mul_one, Complex.norm_real, Real.norm_eq_abs]
      exact hv
    have r1 := bnd (fade hE.1) (slow LY _ hz)
    have r2 := bnd (fade hE.2.2) (slow LE _ hz)
    have r3 := bnd (fade hE.1) (slow LX _ hz)
    have r4 := bnd (fade hE.2.1) (slow LE _ hz)
    set D := η * (M * T * T) with hD
    have D0 : 0 ≤ D := by positivity
    have k1 : |-(w.E T x y * wavelet f T * (starRingEnd ℂ) (Yh x y)).re - (w.Y T x y * wavelet f T * (starRingEnd ℂ) (Eh x y)).re| ≤ 2 * D := by
      rw [abs_le] at r1 r2 ⊢
      constructor <;> linarith [r1.1, r1.2, r2.1, r2.2]
    have k2 : |(w.E T x y * wavelet f T * (starRingEnd ℂ) (Xh x y)).re + (w.X T x y * wavelet f T * (starRingEnd ℂ) (Eh x y)).re| ≤ 2 * D := by
      rw [abs_le] at r3 r4 ⊢
      constructor <;> linarith [r3.1, r3.2, r4.1, r4.2]
    refine (abs_add_le _ _).trans ?_
    rw [abs_mul, abs_mul]
    have m1 := mul_le_mul_of_nonneg_left k1 (abs_nonneg (a - c * y))
    have m2 := mul_le_mul_of_nonneg_left k2 (abs_nonneg (b + c * x))
    have m3 := mul_le_mul_of_nonneg_right (hL x y (core_sub hz).1) (by positivity : 0 ≤ 2 * D)
    linarith
  · rw [show volume.real (between p q) = (volume (between p q)).toReal from rfl, vol]
    ring

theorem traction_side (w : Spec.Wave) (f T x y σ : ℝ) : (w.phasor f T x y).traction ⟨σ, 0⟩ 0 = σ * stressXX w f T x y ∧ (w.phasor f T x y).traction ⟨σ, 0⟩ 1 = σ * stressXY w f T x y := by
  rw [(traction_eq _ _).1, (traction_eq _ _).2]
  unfold stressXX stressXY Wave.phasor
  simp only [Complex.mul_re, Complex.conj_re, Complex.conj_im, Complex.normSq_apply]
  constructor <;> ring

theorem traction_up (w : Spec.Wave) (f T x y σ : ℝ) : (w.phasor f T x y).traction ⟨0, σ⟩ 0 = σ * stressXY w f T x y ∧ (w.phasor f T x y).traction ⟨0, σ⟩ 1 = σ * stressYY w f T x y := by
  rw [(traction_eq _ _).1, (traction_eq _ _).2]
  unfold stressYY stressXY Wave.phasor
  simp only [Complex.mul_re, Complex.conj_re, Complex.conj_im, Complex.normSq_apply]
  constructor <;> ring

/-- Integrals over the four sides of a box. -/
theorem sides_eq {F G : ℝ → ℝ → ℝ} {p q : V2 ℝ} (hx : p.x ≤ q.x) (hy : p.y ≤ q.y) (cF : ContinuousOn (fun z : ℝ × ℝ => F z.1 z.2) (between p q))
    (cG : ContinuousOn (fun z : ℝ × ℝ => G z.1 z.2) (between p q)) :
    |q.x - p.x| * (∫ s in (0 : ℝ)..1, -1 * G (p.x + s * (q.x - p.x)) p.y) + |q.y - p.y| * (∫ s in (0 : ℝ)..1, 1 * F q.x (p.y + s * (q.y - p.y))) +
      |p.x - q.x| * (∫ s in (0 : ℝ)..1, 1 * G (q.x + s * (p.x - q.x)) q.y) + |p.y - q.y| * (∫ s in (0 : ℝ)..1, -1 * F p.x (q.y + s * (p.y - q.y))) =
    (∫ y in p.y..q.y, (F q.x y - F p.x y)) + ∫ x in p.x..q.x, (G x q.y - G x p.y) := by
  have iF : ∀ x ∈ Set.Icc p.x q.x, IntervalIntegrable (fun y => F x y) volume p.y q.y := fun x hx' =>
    (cF.comp (continuous_const.prodMk continuous_id).continuousOn fun y hy' => ⟨hx', hy'⟩).intervalIntegrable_of_Icc hy
  have iG : ∀ y ∈ Set.Icc p.y q.y, IntervalIntegrable (fun x => G x y) volume p.x q.x := fun y hy' =>
    (cG.comp (continuous_id.prodMk continuous_const).continuousOn fun x hx' => ⟨hx', hy'⟩).intervalIntegrable_of_Icc hx
  rw [intervalIntegral.integral_sub (iF _ ⟨hx, le_rfl⟩) (iF _ ⟨le_rfl, hx⟩), intervalIntegral.integral_sub (iG _ ⟨hy, le_rfl⟩) (iG _ ⟨le_rfl, hy⟩)]
  simp only [intervalIntegral.integral_const_mul]
  rw [← along (fun y => F q.x y) hy, ← along_back (fun y => F p.x y) hy, ← along_back (fun x => G x q.y) hx, ← along (fun x => G x p.y) hx]
  ring

/-- The force on a box is the Lorentz force on the currents in it. -/
theorem box_push {w : Spec.Wave} {g : Grid ℝ} {τ M : ℝ} {S : ℝ → ℝ → Prop} {eps sig : ℝ → ℝ → ℝ} {J Xx Yy : ℝ → ℝ → ℝ → ℝ} (hM : 0 ≤ M)
    (hsm : w.Smooth S g τ M) (hst : w.Steady g τ M) (hev : w.Even g τ M) (hmx : w.Driven S eps sig J g τ) (hr : w.AtRest g) {p q : V2 ℝ} (hx : p.x ≤ q.x) (hy : p.y ≤ q.y)
    {T : ℝ} (hT : 0 ≤ T) (hτ : T ≤ τ) (dom : ∀ x y, (x, y) ∈ between p q → InDomain g x y) {η : ℝ} (hcm : w.Calm S g p q τ M T η Xx Yy) (f : ℝ) :
    |w.boxForce f T p q 0 - (w.push (w.currents eps sig J) f T p q).x| ≤ remainder p q 2 η M T ∧
    |w.boxForce f T p q 1 - (w.push (w.currents eps sig J) f T p q).y| ≤ remainder p q 2 η M T ∧
    |w.boxTorque f T p q - w.spin (w.currents eps sig J) f T p q| ≤ remainder p q (q.x - p.x + (q.y - p.y)) η M T := by
  have key := fun a b c L hL => momentum hM hsm hst hev hmx hr hx hy hT hτ dom hcm f a b c L hL
  obtain ⟨cXX, cXY, cYY, k1⟩ := key 1 0 0 1 (fun x y _ => by norm_num)
  have k2 := (key 0 1 0 1 (fun x y _ => by norm_num)).2.2.2
  have k3 := (key ((p.y + q.y) / 2) (-((p.x + q.x) / 2)) 1 ((q.x - p.x + (q.y - p.y)) / 2) (fun x y h => by
    obtain ⟨⟨h1, h2⟩, h3, h4⟩ := h
    have e1 : |(p.y + q.y) / 2 - 1 * y| ≤ (q.y - p.y) / 2 := abs_le.mpr ⟨by linarith, by linarith⟩
    have e2 : |-((p.x + q.x) / 2) + 1 * x| ≤ (q.x - p.x) / 2 := abs_le.mpr ⟨by linarith, by linarith⟩
    linarith)).2.2.2
  refine ⟨?_, ?_, ?_⟩
  · have e := sides_eq hx hy cXX cXY
    have : w.boxForce f T p q 0 = (∫ y in p.y..q.y, (stressXX w f T q.x y - stressXX w f T p.x y)) + ∫ x in p.x..q.x, (stressXY w f T x q.y - stressXY w f T x p.y) := by
      rw [← e]
      unfold Wave.boxForce Wave.pull
      simp only [(traction_side _ _ _ _ _ _).1, (traction_up _ _ _ _ _ _).1, sub_self, abs_zero, add_zero, zero_add, mul_zero]
    rw [this]
    simp only [sidePull, upPull, zero_mul, sub_zero, one_mul, add_zero] at k1
    unfold remainder
    rw [mul_one] at k1
    exact k1
  · have e := sides_eq hx hy cXY cYY
    have : w.boxForce f T p q 1 = (∫ y in p.y..q.y, (stressXY w f T q.x y - stressXY w f T p.x y)) + ∫ x in p.x..q.x, (stressYY w f T x q.y - stressYY w f T x p.y) := by
      rw [← e]
      unfold Wave.boxForce Wave.pull
      simp only [(traction_side _ _ _ _ _ _).2, (traction_up _ _ _ _ _ _).2, sub_self, abs_zero, add_zero, zero_add, mul_zero]
    rw [this]
    simp only [sidePull, upPull, zero_mul, sub_zero, one_mul, add_zero, zero_add] at k2
    unfold remainder
    rw [mul_one] at k2
    exact k2
  · set a := (p.y + q.y) / 2 with ha
    set b := -((p.x + q.x) / 2) with hb
    have ca : Continuous fun z : ℝ × ℝ => a - 1 * z.2 := by fun_prop
    have cb : Continuous fun z : ℝ × ℝ => b + 1 * z.1 := by fun_prop
    have e := sides_eq (F := sidePull w f T a b 1) (G := upPull w f T a b 1) hx hy ((ca.continuousOn.mul cXX).add (cb.continuousOn.mul cXY))
      ((ca.continuousOn.mul cXY).add (cb.continuousOn.mul cYY))
    have m1 : ∀ x y σ, (w.phasor f T x y).moment ⟨σ, 0⟩ (⟨x, y⟩ - ⟨(p.x + q.x) / 2, (p.y + q.y) / 2⟩) = σ * sidePull w f T a b 1 x y := fun x y σ => by
      rw [moment_eq, (traction_side _ _ _ _ _ _).1, (traction_side _ _ _ _ _ _).2]
      unfold sidePull
      simp only [V2.sub_x, V2.sub_y]
      ring
    have m2 : ∀ x y σ, (w.phasor f T x y).moment ⟨0, σ⟩ (⟨x, y⟩ - ⟨(p.x + q.x) / 2, (p.y + q.y) / 2⟩) = σ * upPull w f T a b 1 x y := fun x y σ => by
      rw [moment_eq, (traction_up _ _ _ _ _ _).1, (traction_up _ _ _ _ _ _).2]
      unfold upPull
      simp only [V2.sub_x, V2.sub_y]
      ring
    have : w.boxTorque f T p q = (∫ y in p.y..q.y, (sidePull w f T a b 1 q.x y - sidePull w f T a b 1 p.x y)) + ∫ x in p.x..q.x, (upPull w f T a b 1 x q.y - upPull w f T a b 1 x p.y) := by
      rw [← e]
      unfold Wave.boxTorque Wave.twist
      simp only [m1, m2, sub_self, abs_zero, add_zero, zero_add, mul_zero]
    rw [this]
    have sp : w.spin (w.currents eps sig J) f T p q =
        ∫ z in between p q, ((a - 1 * z.2) * (w.pushAt (w.currents eps sig J) f T z.1 z.2).x + (b + 1 * z.1) * (w.pushAt (w.currents eps sig J) f T z.1 z.2).y) := by
      unfold Wave.spin
      congr 1
      funext z
      rw [ha, hb]
      ring
    rw [sp]
    unfold remainder
    rw [show 2 * ((q.x - p.x + (q.y - p.y)) / 2) = q.x - p.x + (q.y - p.y) by ring] at k3
    exact k3

end Qbox
