import Verif.Lemmas.Poynting
import Verif.Props.BoxWaveProps

/-! # C98: the flux of a box monitor is the energy that is not absorbed inside -/

namespace Qbox
open Scalar Spec MeasureTheory Props

theorem medium_bounds {objs : List (Object ℝ)} {eps sig : ℝ → ℝ → ℝ} (hmed : MediumOf objs eps sig) (hp : ∀ o ∈ objs, PassiveObject o) {epsMax : ℝ} (he : AtMost epsMax objs) (x y : ℝ) :
    1 ≤ eps x y ∧ eps x y ≤ epsMax ∧ 0 ≤ sig x y := by
  rcases C09_total objs ⟨x, y⟩ with hn | ⟨o, ho⟩
  · obtain ⟨e1, e2⟩ := hmed.vacuum ⟨x, y⟩ hn
    dsimp only at e1 e2
    rw [e1, e2]
    exact ⟨le_rfl, he.1, le_rfl⟩
  · have hmem : o ∈ objs := by
      obtain ⟨b, a, e, -, -⟩ := ho
      rw [e]; simp
    obtain ⟨m, k1, k2, k3⟩ := hp o hmem
    obtain ⟨e1, e2⟩ := hmed.object ⟨x, y⟩ o m ho k1
    dsimp only at e1 e2
    rw [e1, e2]
    exact ⟨k2, he.2 o hmem m k1, k3⟩

theorem matter_bounds {objs : List (Object ℝ)} {eps sig : ℝ → ℝ → ℝ} {res : ℝ → ℝ → Response} (hmat : MatterOf objs eps sig res) (hp : ∀ o ∈ objs, PassiveKind o.mat.kind) (x y : ℝ) :
    1 ≤ eps x y ∧ 0 ≤ sig x y ∧ (res x y).Passive := by
  rcases C09_total objs ⟨x, y⟩ with hn | ⟨o, ho⟩
  · obtain ⟨e1, e2, e3⟩ := hmat.vacuum ⟨x, y⟩ hn
    dsimp only at e1 e2 e3
    rw [e1, e2, e3]
    exact ⟨le_rfl, le_rfl, trivial⟩
  · have hmem : o ∈ objs := by
      obtain ⟨b, a, e, -, -⟩ := ho
      rw [e]; simp
    have k := hp o hmem
    have e := hmat.object ⟨x, y⟩ o ho
    dsimp only at e
    revert k e
    generalize o.mat.kind = c
    generalize eps x y = e1
    generalize sig x y = e2
    generalize res x y = e3
    intro k e
    cases e with
    | simple m => exact ⟨k.1, k.2, trivial⟩
    | debye0 e => exact ⟨k.1, le_rfl, trivial⟩
    | debye e p => exact ⟨k.1, le_rfl, k.dEps p (List.mem_singleton.mpr rfl), k.tau p (List.mem_singleton.mpr rfl)⟩
    | drude0 e => exact ⟨k.1, le_rfl, trivial⟩
    | drude e p => exact ⟨k.1, le_rfl, k.gamma p (List.mem_singleton.mpr rfl), k.omega p (List.mem_singleton.mpr rfl)⟩

theorem spectrum_linear {u v w : ℝ → ℝ} {T : ℝ} (hT : 0 ≤ T) (a b : ℝ) (cu : ContinuousOn u (Set.Icc 0 T)) (cv : ContinuousOn v (Set.Icc 0 T))
    (h : ∀ t ∈ Set.Icc 0 T, w t = a * u t + b * v t) (f : ℝ) : spectrum w f T = a * spectrum u f T + b * spectrum v f T := by
  have cc : ∀ {u : ℝ → ℝ}, ContinuousOn u (Set.Icc 0 T) → IntervalIntegrable (fun t => (u t : ℂ) * wavelet f t) volume 0 T := fun hu =>
    ((Complex.continuous_ofReal.comp_continuousOn hu).mul (wavelet_continuous f).continuousOn).intervalIntegrable_of_Icc hT
  show (∫ t in (0 : ℝ)..T, (w t : ℂ) * wavelet f t) = a * (∫ t in (0 : ℝ)..T, (u t : ℂ) * wavelet f t) + b * ∫ t in (0 : ℝ)..T, (v t : ℂ) * wavelet f t
  rw [← intervalIntegral.integral_const_mul, ← intervalIntegral.integral_const_mul, ← intervalIntegral.integral_add ((cc cu).const_mul _) ((cc cv).const_mul _)]
  refine intervalIntegral.integral_congr fun t ht => ?_
  rw [Set.uIcc_of_le hT] at ht
  rw [h t ht]
  push_cast
  ring

theorem re_conj_self (z : ℂ) : 0 ≤ (z * (starRingEnd ℂ) z).re := by
  rw [Complex.mul_conj, Complex.ofReal_re]
  exact Complex.normSq_nonneg z

theorem re_conj_comm (z u : ℂ) : (z * (starRingEnd ℂ) u).re = (u * (starRingEnd ℂ) z).re := by
  simp only [Complex.mul_re, Complex.conj_re, Complex.conj_im]
  ring

/-- What a Drude medium absorbs. -/
theorem drude_absorbs {E K Kt : ℝ → ℝ} {T γ ω η A : ℝ} (hT : 0 ≤ T) (cE : ContinuousOn E (Set.Icc 0 T)) (dK : ∀ t ∈ Set.Icc 0 T, HasDerivAt K (Kt t) t) (cKt : ContinuousOn Kt (Set.Icc 0 T))
    (k0 : K 0 = 0) (hγ : 0 ≤ γ) (hω : ω ≠ 0) (law : ∀ t ∈ Set.Icc 0 T, Kt t + γ * K t = ω ^ 2 * E t) (f : ℝ) (hη : |K T| ≤ η) (hA : ‖spectrum K f T‖ ≤ A) :
    -(η * A) ≤ ω ^ 2 * (spectrum E f T * (starRingEnd ℂ) (spectrum K f T)).re := by
  have cK : ContinuousOn K (Set.Icc 0 T) := fun t ht => (dK t ht).continuousAt.continuousWithinAt
  have e1 := spectrum_linear (w := fun t => ω ^ 2 * E t) hT 1 γ cKt cK (fun t ht => by rw [← law t ht]; ring) f
  have e2 := spectrum_linear (w := fun t => ω ^ 2 * E t) hT (ω ^ 2) 0 cE cE (fun t _ => by ring) f
  have e3 : ((ω ^ 2 : ℝ) : ℂ) * spectrum E f T = spectrum Kt f T + γ * spectrum K f T := by
    rw [e1] at e2
    simp only [Complex.ofReal_one, one_mul, Complex.ofReal_zero, zero_mul, add_zero] at e2
    exact e2.symm
  rw [← Complex.re_ofReal_mul, ← mul_assoc, e3, add_mul, Complex.add_re, mul_assoc, Complex.re_ofReal_mul]
  have r := (abs_le.mp (rate_power_le hT dK cKt k0 f hη hA)).1
  have := mul_nonneg hγ (re_conj_self (spectrum K f T))
  linarith

/-- What a Debye medium absorbs. -/
theorem debye_absorbs {E Et K Kt : ℝ → ℝ} {T d τ η A : ℝ} (hT : 0 ≤ T) (dE : ∀ t ∈ Set.Icc 0 T, HasDerivAt E (Et t) t) (dK : ∀ t ∈ Set.Icc 0 T, HasDerivAt K (Kt t) t)
    (e0 : E 0 = 0) (k0 : K 0 = 0) (hd : 0 < d) (hτ : 0 < τ) (law : ∀ t ∈ Set.Icc 0 T, τ * Kt t + K t = d * Et t) (f : ℝ) (hE : |E T| ≤ η) (hη : |K T| ≤ η)
    (hB : ‖spectrum E f T‖ ≤ A) (hA : ‖spectrum K f T‖ ≤ A) : -((d + τ) ^ 2 * (η * A)) ≤ d * (spectrum E f T * (starRingEnd ℂ) (spectrum K f T)).re := by
  have cE : ContinuousOn E (Set.Icc 0 T) := fun t ht => (dE t ht).continuousAt.continuousWithinAt
  have cK : ContinuousOn K (Set.Icc 0 T) := fun t ht => (dK t ht).continuousAt.continuousWithinAt
  have dP : ∀ t ∈ Set.Icc 0 T, HasDerivAt (fun t => d * E t - τ * K t) (K t) t := fun t ht =>
    (((dE t ht).const_mul d).sub ((dK t ht).const_mul τ)).congr_deriv (by linarith [law t ht])
  have eP := spectrum_linear (w := fun t => d * E t - τ * K t) hT d (-τ) cE cK (fun t _ => by ring) f
  have e3 : (d : ℂ) * spectrum E f T = spectrum (fun t => d * E t - τ * K t) f T + τ * spectrum K f T := by
    rw [eP]
    push_cast
    ring
  have hP : |d * E T - τ * K T| ≤ (d + τ) * η := by
    have := abs_sub (d * E T) (τ * K T)
    rw [abs_mul, abs_mul, abs_of_pos hd, abs_of_pos hτ] at this
    nlinarith
  have nP : ‖spectrum (fun t => d * E t - τ * K t) f T‖ ≤ (d + τ) * A := by
    rw [eP]
    refine (norm_add_le _ _).trans ?_
    rw [norm_mul, norm_mul, Complex.norm_real, Complex.norm_real, Real.norm_eq_abs, Real.norm_eq_abs, abs_neg, abs_of_pos hd, abs_of_pos hτ]
    nlinarith
  have r := (abs_le.mp (rate_power_le (v := fun t => d * E t - τ * K t) hT dP cK (by rw [e0, k0]; ring) f hP nP)).1
  rw [re_conj_comm] at r
  rw [← Complex.re_ofReal_mul, ← mul_assoc (d : ℂ), e3, add_mul, Complex.add_re, mul_assoc (τ : ℂ), Complex.re_ofReal_mul]
  have := mul_nonneg hτ.le (re_conj_self (spectrum K f T))
  have e : (d + τ) * η * ((d + τ) * A) = (d + τ) ^ 2 * (η * A) := by ring
  linarith

/-- What a Lorentz medium absorbs. -/
theorem lorentz_absorbs {E P K Kt : ℝ → ℝ} {T γ ω d η A : ℝ} (hT : 0 ≤ T) (cE : ContinuousOn E (Set.Icc 0 T)) (dP : ∀ t ∈ Set.Icc 0 T, HasDerivAt P (K t) t)
    (dK : ∀ t ∈ Set.Icc 0 T, HasDerivAt K (Kt t) t) (cKt : ContinuousOn Kt (Set.Icc 0 T)) (p0 : P 0 = 0) (k0 : K 0 = 0) (hγ : 0 ≤ γ)
    (law : ∀ t ∈ Set.Icc 0 T, Kt t + 2 * γ * K t + ω ^ 2 * P t = d * ω ^ 2 * E t) (f : ℝ) (hP : |P T| ≤ η) (hη : |K T| ≤ η) (hB : ‖spectrum P f T‖ ≤ A) (hA : ‖spectrum K f T‖ ≤ A) :
    -((1 + ω ^ 2) * (η * A)) ≤ d * ω ^ 2 * (spectrum E f T * (starRingEnd ℂ) (spectrum K f T)).re := by
  have cP : ContinuousOn P (Set.Icc 0 T) := fun t ht => (dP t ht).continuousAt.continuousWithinAt
  have cK : ContinuousOn K (Set.Icc 0 T) := fun t ht => (dK t ht).continuousAt.continuousWithinAt
  have e1 := spectrum_linear (w := fun t => Kt t + ω ^ 2 * P t) hT 1 (ω ^ 2) cKt cP (fun t _ => by ring) f
  have e1' := spectrum_linear (w := fun t => d * ω ^ 2 * E t) hT 1 (2 * γ) (u := fun t => Kt t + ω ^ 2 * P t) (cKt.add (continuousOn_const.mul cP)) cK
    (fun t ht => by rw [← law t ht]; ring) f
  have e2 := spectrum_linear (w := fun t => d * ω ^ 2 * E t) hT (d * ω ^ 2) 0 cE cE (fun t _ => by ring) f
  have e3 : ((d * ω ^ 2 : ℝ) : ℂ) * spectrum E f T = spectrum Kt f T + ((ω ^ 2 : ℝ) : ℂ) * spectrum P f T + ((2 * γ : ℝ) : ℂ) * spectrum K f T := by
    rw [e1', e1] at e2
    simp only [Complex.ofReal_one, one_mul, Complex.ofReal_zero, zero_mul, add_zero] at e2
    exact e2.symm
  have val : d * ω ^ 2 * (spectrum E f T * (starRingEnd ℂ) (spectrum K f T)).re = (spectrum Kt f T * (starRingEnd ℂ) (spectrum K f T)).re +
      ω ^ 2 * (spectrum P f T * (starRingEnd ℂ) (spectrum K f T)).re + 2 * γ * (spectrum K f T * (starRingEnd ℂ) (spectrum K f T)).re := by
    rw [← Complex.re_ofReal_mul, ← mul_assoc ((d * ω ^ 2 : ℝ) : ℂ), e3, add_mul, add_mul, Complex.add_re, Complex.add_re, mul_assoc ((ω ^ 2 : ℝ) : ℂ), mul_assoc ((2 * γ : ℝ) : ℂ),
      Complex.re_ofReal_mul, Complex.re_ofReal_mul]
  have r := (abs_le.mp (rate_power_le hT dK cKt k0 f hη hA)).1
  have r' := (abs_le.mp (rate_power_le hT dP cK p0 f hP hB)).1
  rw [re_conj_comm] at r'
  have r'' := mul_le_mul_of_nonneg_left r' (sq_nonneg ω)
  have := mul_nonneg (by positivity : 0 ≤ 2 * γ) (re_conj_self (spectrum K f T))
  linarith

/-- The work in a box is at least what it is at every point of the core, times the area. -/
theorem work_ge {w : Spec.Wave} {C : ℝ → ℝ → ℝ → ℝ} {S : ℝ → ℝ → Prop} {p q : V2 ℝ} (hx : p.x ≤ q.x) (hy : p.y ≤ q.y) (hS : Pieces S p q) {f T k : ℝ} (k0 : 0 ≤ k)
    (h : ∀ z ∈ core S p q, -k ≤ w.workAt C f T z.1 z.2) : -((q.x - p.x) * (q.y - p.y) * k) ≤ w.work C f T p q := by
  have a0 : 0 ≤ (q.x - p.x) * (q.y - p.y) := mul_nonneg (by linarith) (by linarith)
  unfold Wave.work
  by_cases c : IntegrableOn (fun z : ℝ × ℝ => w.workAt C f T z.1 z.2) (between p q) volume
  · have comp : IsCompact (between p q) := isCompact_Icc.prod isCompact_Icc
    have vol : volume.real (between p q) = (q.x - p.x) * (q.y - p.y) := by
      unfold between
      rw [Measure.real, Measure.volume_eq_prod, Measure.prod_prod, Real.volume_Icc, Real.volume_Icc, ENNReal.toReal_mul, ENNReal.toReal_ofReal (sub_nonneg.mpr hx),
        ENNReal.toReal_ofReal (sub_nonneg.mpr hy)]
    have e : (∫ _z in between p q, -k) = -((q.x - p.x) * (q.y - p.y) * k) := by
      rw [setIntegral_const, vol, smul_eq_mul]
      ring
    rw [← e]
    refine integral_mono_ae (integrableOn_const comp.measure_lt_top.ne) c ?_
    rw [core_restrict hS]
    filter_upwards [ae_restrict_mem (core_open hS).measurableSet] with z hz
    exact h z hz
  · rw [integral_undef c]
    nlinarith

namespace Props

/-- The file has a list of numbers, one per frequency; `dt ^ 2` times the number of frequency `f` is minus the energy of this frequency that the wave gives to the current `C`
in the box up to time `T`, with an error of at most `bound f`. -/
def HoldsAbsorption (w4 : World ℝ) (g : Grid ℝ) (name : String) (a b : V2 ℝ) (freq : List ℝ) (w : Spec.Wave) (C : ℝ → ℝ → ℝ → ℝ) (T : ℝ) (bound : ℝ → ℝ) : Prop :=
  ∃ F : ℝ → ℝ, w4.tree.at ["monitors", "box_monitor", name, "flux"] = some (.nums (freq.map F)) ∧
    ∀ f, |g.dt ^ 2 * F f + w.work C f T (g.toReal (g.toGrid a)) (g.toReal (g.toGrid b))| ≤ bound f

/-- The file has a list of numbers, one per frequency; `dt ^ 2` times the number of frequency `f` is at most `bound f`. -/
def HoldsNoSupply (w4 : World ℝ) (g : Grid ℝ) (name : String) (freq : List ℝ) (bound : ℝ → ℝ) : Prop :=
  ∃ F : ℝ → ℝ, w4.tree.at ["monitors", "box_monitor", name, "flux"] = some (.nums (freq.map F)) ∧ ∀ f, g.dt ^ 2 * F f ≤ bound f

section
variable {now : ℕ → ℝ} {g : Grid ℝ} {cs1 cs2 later : List (Call ℝ)} {name : String} {a b : V2 ℝ} {tag : DftTag} {freq : List ℝ} {n : ℕ} {w4 : World ℝ}

theorem box_corners (h : BoxReport now g cs1 cs2 later name a b tag freq n w4) :
    (g.toReal (g.toGrid a)).x ≤ (g.toReal (g.toGrid b)).x ∧ (g.toReal (g.toGrid a)).y ≤ (g.toReal (g.toGrid b)).y ∧
      ∀ x y, (x, y) ∈ between (g.toReal (g.toGrid a)) (g.toReal (g.toGrid b)) → InDomain g x y := by
  have d := h.lawful.dx
  obtain ⟨x1, x2, x3⟩ := h.x
  obtain ⟨y1, y2, y3⟩ := h.y
  have e1 := node_le_x h.lawful (k := (g.toGrid b).x) (by omega)
  have e2 := node_le_y h.lawful (k := (g.toGrid b).y) (by omega)
  have c1 : (0 : ℝ) ≤ (g.toGrid a).x := by exact_mod_cast (by omega : (0 : ℤ) ≤ (g.toGrid a).x)
  have c2 : (0 : ℝ) ≤ (g.toGrid a).y := by exact_mod_cast (by omega : (0 : ℤ) ≤ (g.toGrid a).y)
  have f1 : ((g.toGrid a).x : ℝ) ≤ (g.toGrid b).x := by exact_mod_cast x2.le
  have f2 : ((g.toGrid a).y : ℝ) ≤ (g.toGrid b).y := by exact_mod_cast y2.le
  have tx : ∀ P : V2 ℤ, (g.toReal P).x = P.x * g.dx := fun P => by simp [Grid.toReal, mul_comm]
  have ty : ∀ P : V2 ℤ, (g.toReal P).y = P.y * g.dx := fun P => by simp [Grid.toReal, mul_comm]
  unfold between
  rw [tx, tx, ty, ty]
  refine ⟨mul_le_mul_of_nonneg_right f1 d.le, mul_le_mul_of_nonneg_right f2 d.le, fun x y hz => ?_⟩
  exact ⟨(mul_nonneg c1 d.le).trans hz.1.1, hz.1.2.trans e1, (mul_nonneg c2 d.le).trans hz.2.1, hz.2.2.trans e2⟩

theorem absorbed_close (h : BoxReport now g cs1 cs2 later name a b tag freq n w4) {w : Spec.Wave} {S : ℝ → ℝ → Prop} {eps sig : ℝ → ℝ → ℝ} {J : ℝ → ℝ → ℝ → ℝ} {τ M η : ℝ} (hM : 0 ≤ M)
    (hsm : w.Smooth S g τ M) (hst : w.Steady g τ M) (hev : w.Even g τ M) (hmx : w.Driven S eps sig J g τ) (hr : w.AtRest g) (hτ : n * g.dt ≤ τ)
    (hS : w.Settled S (g.toReal (g.toGrid a)) (g.toReal (g.toGrid b)) (n * g.dt) η) {epsMax : ℝ} (he : ∀ x y, 1 ≤ eps x y ∧ eps x y ≤ epsMax)
    (hme : Measurable fun z : ℝ × ℝ => eps z.1 z.2) {bound : ℝ → ℝ} (hb : HoldsBoxFlux w4 g name a b freq w (n * g.dt) bound) :
    HoldsAbsorption w4 g name a b freq w (fun t x y => sig x y * w.E t x y + J t x y) (n * g.dt) fun f =>
      bound f + remainder (g.toReal (g.toGrid a)) (g.toReal (g.toGrid b)) (2 + epsMax) η M (n * g.dt) := by
  obtain ⟨F, h1, h2⟩ := hb
  obtain ⟨c1, c2, c3⟩ := box_corners h
  have dt0 : 0 ≤ g.dt := by rw [h.lawful.dt]; linarith [h.lawful.dx]
  refine ⟨F, h1, fun f => ?_⟩
  have key := poynting hM hsm hst hev hmx hr c1 c2 (by positivity) hτ c3 hS.pieces hS.regular hS.faded (epsMax := epsMax)
    (fun x y _ => abs_le.mpr ⟨by linarith [(he x y).1, (he x y).2], (he x y).2⟩) hme f
  have tri := abs_add_le (g.dt ^ 2 * F f - w.boxFlow f (n * g.dt) (g.toReal (g.toGrid a)) (g.toReal (g.toGrid b)))
    (w.boxFlow f (n * g.dt) (g.toReal (g.toGrid a)) (g.toReal (g.toGrid b)) + w.work (fun t x y => sig x y * w.E t x y + J t x y) f (n * g.dt) (g.toReal (g.toGrid a)) (g.toReal (g.toGrid b)))
  rw [← add_assoc, sub_add_cancel] at tri
  exact tri.trans (add_le_add (h2 f) key)

theorem absorption_supply {w : Spec.Wave} {C : ℝ → ℝ → ℝ → ℝ} {T : ℝ} {bound : ℝ → ℝ} {k : ℝ} (h : HoldsAbsorption w4 g name a b freq w C T bound)
    (hk : ∀ f, -k ≤ w.work C f T (g.toReal (g.toGrid a)) (g.toReal (g.toGrid b))) : HoldsNoSupply w4 g name freq fun f => bound f + k := by
  obtain ⟨F, h1, h2⟩ := h
  exact ⟨F, h1, fun f => by linarith [(abs_le.mp (h2 f)).2, hk f]⟩

/-- **C98**, simple media. Under the hypotheses of `C97_simple`, if the field in the box has faded at the end of the program: the number in the file is minus the energy that the field
gives to the conductors and the sources in the box, up to the error of C97 and what is left of the field. -/
theorem C98_simple (h : BoxWritten now g cs1 cs2 later name a b tag freq n w4) (objs : List (Object ℝ)) (srcs : List (Source ℝ)) (ho : objectsOf (simOps cs1) = objs)
    (hsr : sourcesOf (simOps cs1) = srcs) (hb : ∀ o ∈ objs, BoxSound o)
    (hc : ∀ o ∈ objs, ClearOfUnguardedEdges g o) (hp : ∀ o ∈ objs, PassiveObject o) (epsMax sigMax : ℝ) (he : AtMost epsMax objs)
    (hs : ConductAtMost sigMax objs) (eps sig : ℝ → ℝ → ℝ) (hmed : MediumOf objs eps sig) (hme : Measurable fun z : ℝ × ℝ => eps z.1 z.2)
    (w : Spec.Wave) (S : ℝ → ℝ → Prop) (J : ℝ → ℝ → ℝ → ℝ) (τ M δ η : ℝ)
    (hsm : w.Smooth S g τ M) (hst : w.Steady g τ M) (hev : w.Even g τ M) (hmx : w.Driven S eps sig J g τ) (hJ : CurrentAtMost J g τ M) (hwl : w.Walls g τ) (hr : w.AtRest g)
    (fits : ∀ s ∈ srcs, Fits g s) (hδ : 0 ≤ δ) (hk : Spec.Carries g srcs eps sig J τ δ) (hn : ((n : ℝ) + 1 / 2) * g.dt ≤ τ)
    (hS : w.Settled S (g.toReal (g.toGrid a)) (g.toReal (g.toGrid b)) (n * g.dt) η) :
    HoldsAbsorption w4 g name a b freq w (fun t x y => sig x y * w.E t x y + J t x y) (n * g.dt) fun f =>
      boxFlowError g (g.toGrid a) (g.toGrid b) M (n * g.dt) (restError S g M epsMax + n * g.dt * drivenError S g M epsMax sigMax δ) f +
        remainder (g.toReal (g.toGrid a)) (g.toReal (g.toGrid b)) (2 + epsMax) η M (n * g.dt) := by
  have dt0 : 0 < g.dt := by rw [h.lawful.dt]; linarith [h.lawful.dx]
  have n0 : (0 : ℝ) ≤ n := Nat.cast_nonneg n
  exact absorbed_close h.toBoxReport (current_nonneg h.wide h.lawful h.closed hJ (by nlinarith)) hsm hst hev hmx hr (by nlinarith) hS
    (fun x y => ⟨(medium_bounds hmed hp he x y).1, (medium_bounds hmed hp he x y).2.1⟩) hme
    (C97_simple h objs srcs ho hsr hb hc hp epsMax sigMax he hs eps sig hmed w S J τ M δ hsm hst hev hmx hJ hwl hr fits hδ hk hn)

/-- **C98**, Debye and Drude media of one pole. The currents to which the field gives its energy are those of conductors, poles and sources. -/
theorem C98_dispersive (h : BoxWritten now g cs1 cs2 later name a b tag freq n w4) (objs : List (Object ℝ)) (srcs : List (Source ℝ)) (hob : objectsOf (simOps cs1) = objs)
    (hsr : sourcesOf (simOps cs1) = srcs) (hb : ∀ o ∈ objs, BoxSound o)
    (hc : ∀ o ∈ objs, ClearOfUnguardedEdges g o) (hp : ∀ o ∈ objs, PassiveKind o.mat.kind) (hnm : OneMeaning objs) (hu : Uncovered g objs)
    (eps sig : ℝ → ℝ → ℝ) (res : ℝ → ℝ → Response) (hmat : MatterOf objs eps sig res) (epsMax sigMax q : ℝ) (hmax : MatterAtMost eps sig res epsMax sigMax q)
    (hme : Measurable fun z : ℝ × ℝ => eps z.1 z.2)
    (w : Spec.Wave) (K Kt I : ℝ → ℝ → ℝ → ℝ) (S : ℝ → ℝ → Prop) (τ M δ η : ℝ) (hsm : w.Smooth S g τ M) (hst : w.Steady g τ M) (hev : w.Even g τ M)
    (hmx : w.Driven S eps sig (fun t x y => K t x y + I t x y) g τ) (hK : w.Polarized K Kt S res g τ M) (hI : CurrentAtMost I g τ M) (hwl : w.Walls g τ)
    (hr : w.AtRest g) (hrK : ∀ x y, InDomain g x y → K 0 x y = 0) (fits : ∀ s ∈ srcs, Fits g s) (hδ : 0 ≤ δ)
    (hk : Spec.Carries g srcs eps sig I τ δ) (ho : OutsideMemory g objs srcs) (hn : ((n : ℝ) + 1 / 2) * g.dt ≤ τ)
    (hS : w.Settled S (g.toReal (g.toGrid a)) (g.toReal (g.toGrid b)) (n * g.dt) η) :
    HoldsAbsorption w4 g name a b freq w (fun t x y => sig x y * w.E t x y + (K t x y + I t x y)) (n * g.dt) fun f =>
      boxFlowError g (g.toGrid a) (g.toGrid b) M (n * g.dt) (restError S g M (epsMax + q ^ 2) + n * g.dt * polarError S g M epsMax sigMax q δ) f +
        remainder (g.toReal (g.toGrid a)) (g.toReal (g.toGrid b)) (2 + epsMax) η M (n * g.dt) := by
  have dt0 : 0 < g.dt := by rw [h.lawful.dt]; linarith [h.lawful.dx]
  have n0 : (0 : ℝ) ≤ n := Nat.cast_nonneg n
  exact absorbed_close h.toBoxReport (current_nonneg h.wide h.lawful h.closed hI (by nlinarith)) hsm hst hev hmx hr (by nlinarith) hS
    (fun x y => ⟨(matter_bounds hmat hp x y).1, hmax.eps x y⟩) hme
    (C97_dispersive h objs srcs hob hsr hb hc hp hnm hu eps sig res hmat epsMax sigMax q hmax w K Kt I S τ M δ hsm hst hev hmx hK hI hwl hr hrK fits hδ hk ho hn)

/-- **C98**, a Lorentz medium of one pole on top of passive simple media. -/
theorem C98_lorentz (h : BoxWritten now g cs1 cs2 later name a b tag freq n w4) (objs : List (Object ℝ)) (srcs : List (Source ℝ)) (o : Object ℝ)
    (hob : objectsOf (simOps cs1) = objs ++ [o]) (hsr : sourcesOf (simOps cs1) = srcs) (hb : ∀ o ∈ objs, BoxSound o)
    (hc : ∀ o ∈ objs, ClearOfUnguardedEdges g o) (hp : ∀ o ∈ objs, PassiveObject o) (epsMax sigMax : ℝ) (he : AtMost epsMax objs)
    (hs : ConductAtMost sigMax objs) (eps sig : ℝ → ℝ → ℝ) (hmed : MediumOf objs eps sig) (e : ℝ) (p : LorentzPole ℝ)
    (hk : o.mat.kind = .lorentz ⟨e, [p]⟩) (bo : BoxSound o) (co : ClearOfUnguardedEdges g o) (e1 : 1 ≤ e) (e2 : e ≤ epsMax)
    (p1 : p.omega ≠ 0) (p2 : 0 < p.dEps) (p3 : 0 ≤ p.gamma) (hme : Measurable fun z : ℝ × ℝ => coated o e eps z.1 z.2)
    (w : Spec.Wave) (S : ℝ → ℝ → Prop) (P K Kt I : ℝ → ℝ → ℝ → ℝ) (τ M δ η : ℝ) (hsm : w.Smooth S g τ M) (hst : w.Steady g τ M) (hev : w.Even g τ M)
    (hmx : w.Driven S (coated o e eps) (coated o 0 sig) (fun t x y => K t x y + I t x y) g τ)
    (hq : w.Swinging P K Kt S (fun x y => o.inside ⟨x, y⟩ = true) p g τ M) (hI : CurrentAtMost I g τ M) (hwl : w.Walls g τ) (hr : w.AtRest g)
    (hP : ∀ x y, InDomain g x y → P 0 x y = 0 ∧ K 0 x y = 0)
    (fits : ∀ s ∈ srcs, Fits g s) (hδ : 0 ≤ δ) (hcr : Spec.Carries g srcs (coated o e eps) (coated o 0 sig) I τ δ)
    (ho : ∀ t (i j : ℤ), o.inside ⟨i * g.dx, j * g.dx⟩ = true → addedE g srcs t i j = 0) (hn : ((n : ℝ) + 1 / 2) * g.dt ≤ τ)
    (hS : w.Settled S (g.toReal (g.toGrid a)) (g.toReal (g.toGrid b)) (n * g.dt) η) :
    HoldsAbsorption w4 g name a b freq w (fun t x y => coated o 0 sig x y * w.E t x y + (K t x y + I t x y)) (n * g.dt) fun f =>
      boxFlowError g (g.toGrid a) (g.toGrid b) M (n * g.dt) (3 * (Real.exp (swingRate p epsMax sigMax g.dt * (n * g.dt)) *
        (swingStart S g p M epsMax + n * g.dt * swingError S g p M epsMax sigMax δ))) f +
        remainder (g.toReal (g.toGrid a)) (g.toReal (g.toGrid b)) (2 + epsMax) η M (n * g.dt) := by
  have dt0 : 0 < g.dt := by rw [h.lawful.dt]; linarith [h.lawful.dx]
  have n0 : (0 : ℝ) ≤ n := Nat.cast_nonneg n
  refine absorbed_close h.toBoxReport (current_nonneg h.wide h.lawful h.closed hI (by nlinarith)) hsm hst hev hmx hr (by nlinarith) hS (fun x y => ?_) hme
    (C97_lorentz h objs srcs o hob hsr hb hc hp epsMax sigMax he hs eps sig hmed e p hk bo co e1 e2 p1 p2 p3 w S P K Kt I τ M δ hsm hst hev hmx hq hI hwl hr hP fits hδ hcr ho hn)
  unfold coated
  split
  · exact ⟨e1, e2⟩
  · exact ⟨(medium_bounds hmed hp he x y).1, (medium_bounds hmed hp he x y).2.1⟩

/-- No current flows in the box. -/
def NoCurrent (I : ℝ → ℝ → ℝ → ℝ) (p q : V2 ℝ) (T : ℝ) : Prop := ∀ t ∈ Set.Icc 0 T, ∀ x y, (x, y) ∈ between p q → I t x y = 0

theorem workAt_conductor {w : Spec.Wave} {S : ℝ → ℝ → Prop} {sig : ℝ → ℝ → ℝ} {C : ℝ → ℝ → ℝ → ℝ} {τ M T : ℝ} (hsm : w.Smooth S g τ M) (hT : 0 ≤ T) (hτ : T ≤ τ)
    {x y : ℝ} (d : InDomain g x y) (s : S x y) (hC : ∀ t ∈ Set.Icc 0 T, C t x y = sig x y * w.E t x y) (f : ℝ) :
    w.workAt C f T x y = sig x y * (spectrum (fun t => w.E t x y) f T * (starRingEnd ℂ) (spectrum (fun t => w.E t x y) f T)).re := by
  have cE : ContinuousOn (fun t => w.E t x y) (Set.Icc 0 T) := fun t ht => by
    obtain ⟨f2, f3, k⟩ := hsm.Et x y d s
    exact (k t ht.1 (ht.2.trans hτ)).1.continuousAt.continuousWithinAt
  have e := spectrum_linear (w := fun t => C t x y) hT (sig x y) 0 cE cE (fun t ht => by rw [hC t ht]; ring) f
  simp only [Complex.ofReal_zero, zero_mul, add_zero] at e
  unfold Wave.workAt
  rw [e, map_mul, Complex.conj_ofReal, mul_left_comm, Complex.re_ofReal_mul]

/-- **C98**: nothing comes out of a box in which no current flows and nothing conducts, whatever dielectrics are in it and whatever light passes through it. -/
theorem C98_lossless (h : BoxWritten now g cs1 cs2 later name a b tag freq n w4) (objs : List (Object ℝ)) (srcs : List (Source ℝ)) (ho : objectsOf (simOps cs1) = objs)
    (hsr : sourcesOf (simOps cs1) = srcs) (hb : ∀ o ∈ objs, BoxSound o)
    (hc : ∀ o ∈ objs, ClearOfUnguardedEdges g o) (hp : ∀ o ∈ objs, PassiveObject o) (epsMax sigMax : ℝ) (he : AtMost epsMax objs)
    (hs : ConductAtMost sigMax objs) (eps sig : ℝ → ℝ → ℝ) (hmed : MediumOf objs eps sig) (hme : Measurable fun z : ℝ × ℝ => eps z.1 z.2)
    (w : Spec.Wave) (S : ℝ → ℝ → Prop) (J : ℝ → ℝ → ℝ → ℝ) (τ M δ η : ℝ)
    (hsm : w.Smooth S g τ M) (hst : w.Steady g τ M) (hev : w.Even g τ M) (hmx : w.Driven S eps sig J g τ) (hJ : CurrentAtMost J g τ M) (hwl : w.Walls g τ) (hr : w.AtRest g)
    (fits : ∀ s ∈ srcs, Fits g s) (hδ : 0 ≤ δ) (hk : Spec.Carries g srcs eps sig J τ δ) (hn : ((n : ℝ) + 1 / 2) * g.dt ≤ τ)
    (hS : w.Settled S (g.toReal (g.toGrid a)) (g.toReal (g.toGrid b)) (n * g.dt) η)
    (hno : NoCurrent J (g.toReal (g.toGrid a)) (g.toReal (g.toGrid b)) (n * g.dt)) (hsig : ∀ x y, (x, y) ∈ between (g.toReal (g.toGrid a)) (g.toReal (g.toGrid b)) → sig x y = 0) :
    ∃ F : ℝ → ℝ, w4.tree.at ["monitors", "box_monitor", name, "flux"] = some (.nums (freq.map F)) ∧ ∀ f, |g.dt ^ 2 * F f| ≤
      boxFlowError g (g.toGrid a) (g.toGrid b) M (n * g.dt) (restError S g M epsMax + n * g.dt * drivenError S g M epsMax sigMax δ) f +
        remainder (g.toReal (g.toGrid a)) (g.toReal (g.toGrid b)) (2 + epsMax) η M (n * g.dt) := by
  have dt0 : 0 < g.dt := by rw [h.lawful.dt]; linarith [h.lawful.dx]
  have n0 : (0 : ℝ) ≤ n := Nat.cast_nonneg n
  obtain ⟨F, h1, h2⟩ := C98_simple h objs srcs ho hsr hb hc hp epsMax sigMax he hs eps sig hmed hme w S J τ M δ η hsm hst hev hmx hJ hwl hr fits hδ hk hn hS
  refine ⟨F, h1, fun f => ?_⟩
  have := h2 f
  have z : w.work (fun t x y => sig x y * w.E t x y + J t x y) f (n * g.dt) (g.toReal (g.toGrid a)) (g.toReal (g.toGrid b)) = 0 := by
    unfold Wave.work
    refine setIntegral_eq_zero_of_forall_eq_zero fun u hu => ?_
    unfold Wave.workAt
    have e : spectrum (fun t => sig u.1 u.2 * w.E t u.1 u.2 + J t u.1 u.2) f (n * g.dt) = 0 := by
      show (∫ t in (0 : ℝ)..(n * g.dt), ((sig u.1 u.2 * w.E t u.1 u.2 + J t u.1 u.2 : ℝ) : ℂ) * wavelet f t) = 0
      rw [intervalIntegral.integral_congr (g := fun _ => (0 : ℂ)) fun t ht => ?_, intervalIntegral.integral_zero]
      rw [Set.uIcc_of_le (by positivity)] at ht
      dsimp only
      rw [hno t ht u.1 u.2 hu, hsig u.1 u.2 hu]
      simp
    rw [e]
    simp
  rw [z, add_zero] at this
  exact this

/-- **C98**: bodies of passive simple media supply no energy. If the box has no source in it, the number in the file is not positive, up to the error. -/
theorem C98_passive_simple (h : BoxWritten now g cs1 cs2 later name a b tag freq n w4) (objs : List (Object ℝ)) (srcs : List (Source ℝ)) (ho : objectsOf (simOps cs1) = objs)
    (hsr : sourcesOf (simOps cs1) = srcs) (hb : ∀ o ∈ objs, BoxSound o)
    (hc : ∀ o ∈ objs, ClearOfUnguardedEdges g o) (hp : ∀ o ∈ objs, PassiveObject o) (epsMax sigMax : ℝ) (he : AtMost epsMax objs)
    (hs : ConductAtMost sigMax objs) (eps sig : ℝ → ℝ → ℝ) (hmed : MediumOf objs eps sig) (hme : Measurable fun z : ℝ × ℝ => eps z.1 z.2)
    (w : Spec.Wave) (S : ℝ → ℝ → Prop) (J : ℝ → ℝ → ℝ → ℝ) (τ M δ η : ℝ)
    (hsm : w.Smooth S g τ M) (hst : w.Steady g τ M) (hev : w.Even g τ M) (hmx : w.Driven S eps sig J g τ) (hJ : CurrentAtMost J g τ M) (hwl : w.Walls g τ) (hr : w.AtRest g)
    (fits : ∀ s ∈ srcs, Fits g s) (hδ : 0 ≤ δ) (hk : Spec.Carries g srcs eps sig J τ δ) (hn : ((n : ℝ) + 1 / 2) * g.dt ≤ τ)
    (hS : w.Settled S (g.toReal (g.toGrid a)) (g.toReal (g.toGrid b)) (n * g.dt) η)
    (hno : NoCurrent J (g.toReal (g.toGrid a)) (g.toReal (g.toGrid b)) (n * g.dt)) :
    HoldsNoSupply w4 g name freq fun f =>
      boxFlowError g (g.toGrid a) (g.toGrid b) M (n * g.dt) (restError S g M epsMax + n * g.dt * drivenError S g M epsMax sigMax δ) f +
        remainder (g.toReal (g.toGrid a)) (g.toReal (g.toGrid b)) (2 + epsMax) η M (n * g.dt) := by
  have dt0 : 0 < g.dt := by rw [h.lawful.dt]; linarith [h.lawful.dx]
  have n0 : (0 : ℝ) ≤ n := Nat.cast_nonneg n
  have key := absorption_supply (k := 0) (C98_simple h objs srcs ho hsr hb hc hp epsMax sigMax he hs eps sig hmed hme w S J τ M δ η hsm hst hev hmx hJ hwl hr fits hδ hk hn hS) fun f => by
    obtain ⟨c1, c2, c3⟩ := box_corners h.toBoxReport
    have := work_ge (w := w) (C := fun t x y => sig x y * w.E t x y + J t x y) (f := f) (T := n * g.dt) c1 c2 hS.pieces le_rfl fun z hz => by
      have := workAt_conductor (C := fun t x y => sig x y * w.E t x y + J t x y) hsm (by positivity) (by nlinarith : n * g.dt ≤ τ) (c3 z.1 z.2 (core_sub hz).1) (core_sub hz).2 (fun t ht => by
        rw [hno t ht z.1 z.2 (core_sub hz).1, add_zero]) f
      rw [this, neg_zero]
      exact mul_nonneg (medium_bounds hmed hp he z.1 z.2).2.2 (re_conj_self _)
    rw [mul_zero] at this
    exact this
  simpa using key

/-- The energy that a body with memory gives back is what it still holds at the end. -/
theorem response_work {w : Spec.Wave} {S : ℝ → ℝ → Prop} {K Kt : ℝ → ℝ → ℝ → ℝ} {res : ℝ → ℝ → Response} {τ M T η q : ℝ} (hM : 0 ≤ M) (hsm : w.Smooth S g τ M) (hst : w.Steady g τ M)
    (hr : w.AtRest g) (hK : w.Polarized K Kt S res g τ M) (hrK : ∀ x y, InDomain g x y → K 0 x y = 0) (hT : 0 ≤ T) (hτ : T ≤ τ) {x y : ℝ} (d : InDomain g x y) (s : S x y)
    (hp : (res x y).Passive) (hq : (res x y).stiff ≤ q) (hE : |w.E T x y| ≤ η) (hη : |K T x y| ≤ η) (f : ℝ) :
    -(q ^ 2 * (η * (M * T * T))) ≤ (spectrum (fun t => w.E t x y) f T * (starRingEnd ℂ) (spectrum (fun t => K t x y) f T)).re := by
  have inT : ∀ t ∈ Set.Icc 0 T, 0 ≤ t ∧ t ≤ τ := fun t ht => ⟨ht.1, ht.2.trans hτ⟩
  have η0 : 0 ≤ η := (abs_nonneg _).trans hη
  have A0 : 0 ≤ M * T * T := by positivity
  have dE : ∀ t ∈ Set.Icc 0 T, HasDerivAt (fun t => w.E t x y) (w.Et t x y) t := fun t ht => by
    obtain ⟨f2, f3, k⟩ := hsm.Et x y d s
    exact (k t (inT t ht).1 (inT t ht).2).1
  have cE : ContinuousOn (fun t => w.E t x y) (Set.Icc 0 T) := fun t ht => (dE t ht).continuousAt.continuousWithinAt
  have dK : ∀ t ∈ Set.Icc 0 T, HasDerivAt (fun t => K t x y) (Kt t x y) t := fun t ht => by
    obtain ⟨f2, f3, k⟩ := hK.tame x y d s
    exact (k t (inT t ht).1 (inT t ht).2).1
  have cKt : ContinuousOn (fun t => Kt t x y) (Set.Icc 0 T) := fun t ht => by
    obtain ⟨f2, f3, k⟩ := hK.tame x y d s
    exact (k t (inT t ht).1 (inT t ht).2).2.1.continuousAt.continuousWithinAt
  have LE := lip_E hst hr
  have nE : ‖spectrum (fun t => w.E t x y) f T‖ ≤ M * T * T := spectrum_le hT hM (fun t t' a b c => LE.t t t' x y a b (c.trans hτ) d) (LE.rest x y d) f
  have nK : ‖spectrum (fun t => K t x y) f T‖ ≤ M * T * T := spectrum_le hT hM (fun t t' a b c => hK.steady t t' x y a b (c.trans hτ) d) (hrK x y d) f
  have law := fun t (ht : t ∈ Set.Icc 0 T) => hK.law t x y (inT t ht).1 (inT t ht).2 d s
  have p0 := mul_nonneg η0 A0
  revert law hp hq
  cases res x y with
  | plain =>
    intro _ _ law
    have e : spectrum (fun t => K t x y) f T = 0 := by
      show (∫ t in (0 : ℝ)..T, ((K t x y : ℝ) : ℂ) * wavelet f t) = 0
      rw [intervalIntegral.integral_congr (g := fun _ => (0 : ℂ)) fun t ht => ?_, intervalIntegral.integral_zero]
      rw [Set.uIcc_of_le hT] at ht
      have : K t x y = 0 := law t ht
      dsimp only
      rw [this]
      simp
    rw [e, map_zero, mul_zero, Complex.zero_re]
    nlinarith [mul_nonneg (sq_nonneg q) p0]
  | drude γ ω =>
    intro hp hq law
    have key := drude_absorbs hT cE dK cKt (hrK x y d) hp.1 hp.2 law f hη nK
    have w0 : 0 < ω ^ 2 := by positivity [hp.2]
    have wa : 0 < |ω| := abs_pos.mpr hp.2
    have qb : 1 ≤ q * |ω| := by
      have : (1 + γ + ω ^ 2) / |ω| ≤ q := hq
      rw [div_le_iff₀ wa] at this
      linarith [hp.1]
    have q2 : 1 ≤ q ^ 2 * ω ^ 2 := by
      have := mul_le_mul qb qb zero_le_one (by linarith)
      rw [← sq_abs ω]
      nlinarith
    by_contra c
    push Not at c
    have := mul_lt_mul_of_pos_left c w0
    nlinarith [mul_le_mul_of_nonneg_right q2 p0]
  | debye dE' τ' =>
    intro hp hq law
    have key := debye_absorbs hT dE dK (LE.rest x y d) (hrK x y d) hp.1 hp.2 law f hE hη nE nK
    have s0 : 0 < Real.sqrt dE' := Real.sqrt_pos.mpr hp.1
    have qb : dE' + τ' ≤ q * Real.sqrt dE' := by
      have : (τ' + 1 + dE') / Real.sqrt dE' ≤ q := hq
      rw [div_le_iff₀ s0] at this
      linarith
    have q2 : (dE' + τ') ^ 2 ≤ q ^ 2 * dE' := by
      have := pow_le_pow_left₀ (by linarith [hp.1, hp.2]) qb 2
      rwa [mul_pow, Real.sq_sqrt hp.1.le] at this
    by_contra c
    push Not at c
    have := mul_lt_mul_of_pos_left c hp.1
    nlinarith [mul_le_mul_of_nonneg_right q2 p0]

/-- The energy that a Lorentz body gives back is what it still holds at the end. -/
theorem swing_work {w : Spec.Wave} {S inside : ℝ → ℝ → Prop} {P K Kt : ℝ → ℝ → ℝ → ℝ} {p : LorentzPole ℝ} {τ M T η : ℝ} (hM : 0 ≤ M) (hsm : w.Smooth S g τ M)
    (hq : w.Swinging P K Kt S inside p g τ M) (hP : ∀ x y, InDomain g x y → P 0 x y = 0 ∧ K 0 x y = 0) (p1 : p.omega ≠ 0) (p2 : 0 < p.dEps) (p3 : 0 ≤ p.gamma) (hT : 0 ≤ T) (hτ : T ≤ τ)
    {x y : ℝ} (d : InDomain g x y) (s : S x y) (hη : |P T x y| ≤ η ∧ |K T x y| ≤ η) (f : ℝ) :
    -(swingStiff p ^ 2 * (η * (M * T * T))) ≤ (spectrum (fun t => w.E t x y) f T * (starRingEnd ℂ) (spectrum (fun t => K t x y) f T)).re := by
  have inT : ∀ t ∈ Set.Icc 0 T, 0 ≤ t ∧ t ≤ τ := fun t ht => ⟨ht.1, ht.2.trans hτ⟩
  have η0 : 0 ≤ η := (abs_nonneg _).trans hη.1
  have A0 : 0 ≤ M * T * T := by positivity
  have p0 := mul_nonneg η0 A0
  by_cases ci : inside x y
  · have cE : ContinuousOn (fun t => w.E t x y) (Set.Icc 0 T) := fun t ht => by
      obtain ⟨f2, f3, k⟩ := hsm.Et x y d s
      exact (k t (inT t ht).1 (inT t ht).2).1.continuousAt.continuousWithinAt
    have dP : ∀ t ∈ Set.Icc 0 T, HasDerivAt (fun t => P t x y) (K t x y) t := fun t ht => by
      obtain ⟨f2, f3, k⟩ := hq.tameP x y d s
      exact (k t (inT t ht).1 (inT t ht).2).1
    have dK : ∀ t ∈ Set.Icc 0 T, HasDerivAt (fun t => K t x y) (Kt t x y) t := fun t ht => by
      obtain ⟨f2, f3, k⟩ := hq.tameK x y d s
      exact (k t (inT t ht).1 (inT t ht).2).1
    have cKt : ContinuousOn (fun t => Kt t x y) (Set.Icc 0 T) := fun t ht => by
      obtain ⟨f2, f3, k⟩ := hq.tameK x y d s
      exact (k t (inT t ht).1 (inT t ht).2).2.1.continuousAt.continuousWithinAt
    have nP : ‖spectrum (fun t => P t x y) f T‖ ≤ M * T * T := spectrum_le hT hM (fun t t' a b c => hq.steadyP t t' x y a b (c.trans hτ) d) (hP x y d).1 f
    have nK : ‖spectrum (fun t => K t x y) f T‖ ≤ M * T * T := spectrum_le hT hM (fun t t' a b c => hq.steadyK t t' x y a b (c.trans hτ) d) (hP x y d).2 f
    have key := lorentz_absorbs hT cE dP dK cKt (hP x y d).1 (hP x y d).2 p3 (fun t ht => hq.law t x y (inT t ht).1 (inT t ht).2 d s ci) f hη.1 hη.2 nP nK
    have wa : 0 < |p.omega| := abs_pos.mpr p1
    have w0 : 0 < p.omega ^ 2 := by positivity
    have s0 : 0 < Real.sqrt p.dEps := Real.sqrt_pos.mpr p2
    have k0 : 0 < p.dEps * p.omega ^ 2 := by positivity
    have q2 : 1 + p.omega ^ 2 ≤ swingStiff p ^ 2 * (p.dEps * p.omega ^ 2) := by
      have e : swingStiff p ^ 2 * (p.dEps * p.omega ^ 2) = (1 + 2 * p.gamma + p.dEps * p.omega ^ 2 + p.omega ^ 2) ^ 2 := by
        unfold swingStiff
        rw [div_pow, mul_pow, Real.sq_sqrt p2.le, sq_abs]
        field_simp
      rw [e]
      have b : 1 + p.omega ^ 2 ≤ 1 + 2 * p.gamma + p.dEps * p.omega ^ 2 + p.omega ^ 2 := by linarith
      nlinarith
    by_contra c
    push Not at c
    have := mul_lt_mul_of_pos_left c k0
    nlinarith [mul_le_mul_of_nonneg_right q2 p0]
  · have e : spectrum (fun t => K t x y) f T = 0 := by
      show (∫ t in (0 : ℝ)..T, ((K t x y : ℝ) : ℂ) * wavelet f t) = 0
      rw [intervalIntegral.integral_congr (g := fun _ => (0 : ℂ)) fun t ht => ?_, intervalIntegral.integral_zero]
      rw [Set.uIcc_of_le hT] at ht
      dsimp only
      rw [hq.free t x y (inT t ht).1 (inT t ht).2 d ci]
      simp
    rw [e, map_zero, mul_zero, Complex.zero_re]
    nlinarith [mul_nonneg (sq_nonneg (swingStiff p)) p0]

theorem workAt_memory {w : Spec.Wave} {S : ℝ → ℝ → Prop} {sig : ℝ → ℝ → ℝ} {C K : ℝ → ℝ → ℝ → ℝ} {τ M T : ℝ} (hsm : w.Smooth S g τ M) (hT : 0 ≤ T) (hτ : T ≤ τ)
    {x y : ℝ} (d : InDomain g x y) (s : S x y) (cK : ContinuousOn (fun t => K t x y) (Set.Icc 0 T)) (hs : 0 ≤ sig x y) (hC : ∀ t ∈ Set.Icc 0 T, C t x y = sig x y * w.E t x y + K t x y) (f : ℝ) :
    (spectrum (fun t => w.E t x y) f T * (starRingEnd ℂ) (spectrum (fun t => K t x y) f T)).re ≤ w.workAt C f T x y := by
  have cE : ContinuousOn (fun t => w.E t x y) (Set.Icc 0 T) := fun t ht => by
    obtain ⟨f2, f3, k⟩ := hsm.Et x y d s
    exact (k t ht.1 (ht.2.trans hτ)).1.continuousAt.continuousWithinAt
  have e := spectrum_linear (w := fun t => C t x y) hT (sig x y) 1 cE cK (fun t ht => by rw [hC t ht]; ring) f
  unfold Wave.workAt
  rw [e, Complex.ofReal_one, one_mul, map_add, mul_add, Complex.add_re, map_mul, Complex.conj_ofReal, mul_left_comm, Complex.re_ofReal_mul]
  linarith [mul_nonneg hs (re_conj_self (spectrum (fun t => w.E t x y) f T))]

/-- **C98**: bodies of passive Debye and Drude media supply no energy, once their currents have faded too. -/
theorem C98_passive_dispersive (h : BoxWritten now g cs1 cs2 later name a b tag freq n w4) (objs : List (Object ℝ)) (srcs : List (Source ℝ)) (hob : objectsOf (simOps cs1) = objs)
    (hsr : sourcesOf (simOps cs1) = srcs) (hb : ∀ o ∈ objs, BoxSound o)
    (hc : ∀ o ∈ objs, ClearOfUnguardedEdges g o) (hp : ∀ o ∈ objs, PassiveKind o.mat.kind) (hnm : OneMeaning objs) (hu : Uncovered g objs)
    (eps sig : ℝ → ℝ → ℝ) (res : ℝ → ℝ → Response) (hmat : MatterOf objs eps sig res) (epsMax sigMax q : ℝ) (hmax : MatterAtMost eps sig res epsMax sigMax q)
    (hme : Measurable fun z : ℝ × ℝ => eps z.1 z.2)
    (w : Spec.Wave) (K Kt I : ℝ → ℝ → ℝ → ℝ) (S : ℝ → ℝ → Prop) (τ M δ η : ℝ) (hη : 0 ≤ η) (hsm : w.Smooth S g τ M) (hst : w.Steady g τ M) (hev : w.Even g τ M)
    (hmx : w.Driven S eps sig (fun t x y => K t x y + I t x y) g τ) (hK : w.Polarized K Kt S res g τ M) (hI : CurrentAtMost I g τ M) (hwl : w.Walls g τ)
    (hr : w.AtRest g) (hrK : ∀ x y, InDomain g x y → K 0 x y = 0) (fits : ∀ s ∈ srcs, Fits g s) (hδ : 0 ≤ δ)
    (hk : Spec.Carries g srcs eps sig I τ δ) (ho : OutsideMemory g objs srcs) (hn : ((n : ℝ) + 1 / 2) * g.dt ≤ τ)
    (hS : w.Settled S (g.toReal (g.toGrid a)) (g.toReal (g.toGrid b)) (n * g.dt) η)
    (hno : NoCurrent I (g.toReal (g.toGrid a)) (g.toReal (g.toGrid b)) (n * g.dt))
    (hfK : ∀ x y, (x, y) ∈ between (g.toReal (g.toGrid a)) (g.toReal (g.toGrid b)) → |K (n * g.dt) x y| ≤ η) :
    HoldsNoSupply w4 g name freq fun f =>
      boxFlowError g (g.toGrid a) (g.toGrid b) M (n * g.dt) (restError S g M (epsMax + q ^ 2) + n * g.dt * polarError S g M epsMax sigMax q δ) f +
        remainder (g.toReal (g.toGrid a)) (g.toReal (g.toGrid b)) (2 + epsMax + q ^ 2) η M (n * g.dt) := by
  have dt0 : 0 < g.dt := by rw [h.lawful.dt]; linarith [h.lawful.dx]
  have n0 : (0 : ℝ) ≤ n := Nat.cast_nonneg n
  have M0 := current_nonneg h.wide h.lawful h.closed hI (by nlinarith)
  obtain ⟨c1, c2, c3⟩ := box_corners h.toBoxReport
  obtain ⟨F, k1, k2⟩ := absorption_supply (C98_dispersive h objs srcs hob hsr hb hc hp hnm hu eps sig res hmat epsMax sigMax q hmax hme w K Kt I S τ M δ η hsm hst hev hmx hK hI hwl hr hrK fits
    hδ hk ho hn hS) fun f => work_ge (w := w) (f := f) (T := n * g.dt) c1 c2 hS.pieces (k := q ^ 2 * (η * (M * (n * g.dt) * (n * g.dt)))) (by positivity) fun z hz => by
      have dm := c3 z.1 z.2 (core_sub hz).1
      refine (response_work M0 hsm hst hr hK hrK (by positivity) (by nlinarith : n * g.dt ≤ τ) dm (core_sub hz).2 (matter_bounds hmat hp z.1 z.2).2.2 (hmax.res z.1 z.2)
        (hS.faded z.1 z.2 (core_sub hz).1).1 (hfK z.1 z.2 (core_sub hz).1) f).trans ?_
      refine workAt_memory (sig := sig) hsm (by positivity) (by nlinarith : n * g.dt ≤ τ) dm (core_sub hz).2 (fun t ht => ?_) (matter_bounds hmat hp z.1 z.2).2.1 (fun t ht => ?_) f
      · obtain ⟨f2, f3, k⟩ := hK.tame z.1 z.2 dm (core_sub hz).2
        exact (k t ht.1 (ht.2.trans (by nlinarith))).1.continuousAt.continuousWithinAt
      · rw [hno t ht z.1 z.2 (core_sub hz).1, add_zero]
  refine ⟨F, k1, fun f => (k2 f).trans (le_of_eq ?_)⟩
  unfold remainder
  ring

/-- **C98**: a passive Lorentz body supplies no energy, once its polarization and current have faded too. -/
theorem C98_passive_lorentz (h : BoxWritten now g cs1 cs2 later name a b tag freq n w4) (objs : List (Object ℝ)) (srcs : List (Source ℝ)) (o : Object ℝ)
    (hob : objectsOf (simOps cs1) = objs ++ [o]) (hsr : sourcesOf (simOps cs1) = srcs) (hb : ∀ o ∈ objs, BoxSound o)
    (hc : ∀ o ∈ objs, ClearOfUnguardedEdges g o) (hp : ∀ o ∈ objs, PassiveObject o) (epsMax sigMax : ℝ) (he : AtMost epsMax objs)
    (hs : ConductAtMost sigMax objs) (eps sig : ℝ → ℝ → ℝ) (hmed : MediumOf objs eps sig) (e : ℝ) (p : LorentzPole ℝ)
    (hk : o.mat.kind = .lorentz ⟨e, [p]⟩) (bo : BoxSound o) (co : ClearOfUnguardedEdges g o) (e1 : 1 ≤ e) (e2 : e ≤ epsMax)
    (p1 : p.omega ≠ 0) (p2 : 0 < p.dEps) (p3 : 0 ≤ p.gamma) (hme : Measurable fun z : ℝ × ℝ => coated o e eps z.1 z.2)
    (w : Spec.Wave) (S : ℝ → ℝ → Prop) (P K Kt I : ℝ → ℝ → ℝ → ℝ) (τ M δ η : ℝ) (hη : 0 ≤ η) (hsm : w.Smooth S g τ M) (hst : w.Steady g τ M) (hev : w.Even g τ M)
    (hmx : w.Driven S (coated o e eps) (coated o 0 sig) (fun t x y => K t x y + I t x y) g τ)
    (hq : w.Swinging P K Kt S (fun x y => o.inside ⟨x, y⟩ = true) p g τ M) (hI : CurrentAtMost I g τ M) (hwl : w.Walls g τ) (hr : w.AtRest g)
    (hP : ∀ x y, InDomain g x y → P 0 x y = 0 ∧ K 0 x y = 0)
    (fits : ∀ s ∈ srcs, Fits g s) (hδ : 0 ≤ δ) (hcr : Spec.Carries g srcs (coated o e eps) (coated o 0 sig) I τ δ)
    (ho : ∀ t (i j : ℤ), o.inside ⟨i * g.dx, j * g.dx⟩ = true → addedE g srcs t i j = 0) (hn : ((n : ℝ) + 1 / 2) * g.dt ≤ τ)
    (hS : w.Settled S (g.toReal (g.toGrid a)) (g.toReal (g.toGrid b)) (n * g.dt) η)
    (hno : NoCurrent I (g.toReal (g.toGrid a)) (g.toReal (g.toGrid b)) (n * g.dt))
    (hfK : ∀ x y, (x, y) ∈ between (g.toReal (g.toGrid a)) (g.toReal (g.toGrid b)) → |P (n * g.dt) x y| ≤ η ∧ |K (n * g.dt) x y| ≤ η) :
    HoldsNoSupply w4 g name freq fun f =>
      boxFlowError g (g.toGrid a) (g.toGrid b) M (n * g.dt) (3 * (Real.exp (swingRate p epsMax sigMax g.dt * (n * g.dt)) *
        (swingStart S g p M epsMax + n * g.dt * swingError S g p M epsMax sigMax δ))) f +
        remainder (g.toReal (g.toGrid a)) (g.toReal (g.toGrid b)) (2 + epsMax + swingStiff p ^ 2) η M (n * g.dt) := by
  have dt0 : 0 < g.dt := by rw [h.lawful.dt]; linarith [h.lawful.dx]
  have n0 : (0 : ℝ) ≤ n := Nat.cast_nonneg n
  have M0 := current_nonneg h.wide h.lawful h.closed hI (by nlinarith)
  obtain ⟨c1, c2, c3⟩ := box_corners h.toBoxReport
  obtain ⟨F, k1, k2⟩ := absorption_supply (C98_lorentz h objs srcs o hob hsr hb hc hp epsMax sigMax he hs eps sig hmed e p hk bo co e1 e2 p1 p2 p3 hme w S P K Kt I τ M δ η hsm hst hev hmx hq hI
    hwl hr hP fits hδ hcr ho hn hS) fun f => work_ge (w := w) (f := f) (T := n * g.dt) c1 c2 hS.pieces (k := swingStiff p ^ 2 * (η * (M * (n * g.dt) * (n * g.dt)))) (by positivity) fun z hz => by
      have dm := c3 z.1 z.2 (core_sub hz).1
      refine (swing_work M0 hsm hq hP p1 p2 p3 (by positivity) (by nlinarith : n * g.dt ≤ τ) dm (core_sub hz).2 (hfK z.1 z.2 (core_sub hz).1) f).trans ?_
      refine workAt_memory (sig := coated o 0 sig) hsm (by positivity) (by nlinarith : n * g.dt ≤ τ) dm (core_sub hz).2 (fun t ht => ?_) ?_ (fun t ht => ?_) f
      · obtain ⟨f2, f3, k⟩ := hq.tameK z.1 z.2 dm (core_sub hz).2
        exact (k t ht.1 (ht.2.trans (by nlinarith))).1.continuousAt.continuousWithinAt
      · unfold coated
        split
        · exact le_rfl
        · exact (medium_bounds hmed hp he z.1 z.2).2.2
      · rw [hno t ht z.1 z.2 (core_sub hz).1, add_zero]
  refine ⟨F, k1, fun f => (k2 f).trans (le_of_eq ?_)⟩
  unfold remainder
  ring

end

end Props
end Qbox
