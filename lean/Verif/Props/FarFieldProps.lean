import Verif.Props.CylFluxProps
import Verif.Props.IncidentFluxProps
import Verif.Spec.FarFieldSpec

/-!
# C54: near-to-far-field transform; C37 for monitors
-/

namespace Qbox.Props
open Qbox Scalar Spec

/-- the complex number held by the model -/
def toC (z : Cx ℝ) : ℂ := ⟨z.re, z.im⟩

theorem toC_add (a b : Cx ℝ) : toC (a.add b) = toC a + toC b := by
  apply Complex.ext <;> simp [toC, Cx.add]

theorem toC_mul (a b : Cx ℝ) : toC (a.mul b) = toC a * toC b := by
  apply Complex.ext <;> simp [toC, Cx.mul]

theorem toC_smul (c : ℝ) (b : Cx ℝ) : toC (b.smul c) = c * toC b := by
  apply Complex.ext <;> simp [toC, Cx.smul]

theorem toC_cis (x : ℝ) : toC (Cx.cis x) = Complex.exp (x * Complex.I) := by
  apply Complex.ext
  · rw [Complex.exp_ofReal_mul_I_re]; simp [toC, Cx.cis]
  · rw [Complex.exp_ofReal_mul_I_im]; simp [toC, Cx.cis]

theorem toC_cxSumTo (n : ℕ) (f : ℤ → Cx ℝ) : toC (cxSumTo n f) = ∑ i ∈ Finset.range n, toC (f i) := by
  induction n with
  | zero => simp [cxSumTo, intRange_empty]; rfl
  | succ n ih =>
    rw [Finset.sum_range_succ, ← ih]
    unfold cxSumTo
    rw [show ((n + 1 : ℕ) : ℤ) = (n : ℤ) + 1 by push_cast; rfl, intRange_succ (by omega), List.foldl_append]
    simp only [List.foldl_cons, List.foldl_nil, toC_add]

theorem norm_len (p : V2 ℝ) : p.norm = len p := by
  simp [V2.norm, V2.sqNorm, len, sq]

theorem dot_inner (p q : V2 ℝ) : p.dot q = inner2 p q := rfl

theorem omega_eq (freq : List ℝ) (j : ℕ) (hj : j < freq.length) : dftOmega freq j = 2 * Real.pi * freq[j] := by
  simp only [dftOmega, Int.toNat_natCast, getD_lt freq hj, ofInt_real, pi_real]
  norm_num

theorem toC_factor (freq : List ℝ) (r : ℝ) (j : ℕ) (hj : j < freq.length) : toC (ntffFactor freq r j) =
    Complex.exp ((Real.pi / 4 - 2 * Real.pi * freq[j] * r : ℝ) * Complex.I) / (Real.sqrt (8 * r * Real.pi * (2 * Real.pi * freq[j])) : ℝ) := by
  rw [← toC_cis]
  simp only [ntffFactor, omega_eq freq j hj, Cx.cis, toC, ofInt_real, pi_real, sqrt_real, sin_real, cos_real]
  apply Complex.ext <;> simp

theorem toC_term (freq : List ℝ) (E H : Acc ℝ ℤ) (Js Ms an ph : ℝ) (i : ℤ) (j : ℕ) (hj : j < freq.length) :
    toC (ntffTerm freq E H Js Ms an ph i j) = ((2 * Real.pi * freq[j] : ℝ) * (Js * toC (H.cx i j)) +
      (2 * Real.pi * freq[j] : ℝ) * (Ms * toC (E.cx i j)) * an) * Complex.exp ((2 * Real.pi * freq[j] * ph : ℝ) * Complex.I) := by
  simp only [ntffTerm, omega_eq freq j hj, toC_mul, toC_add, toC_smul, toC_cis]
  push_cast
  ring

theorem carries_cx {a : Acc ℝ ℤ} {n nf : ℕ} {z : ℕ → ℕ → ℂ} (h : Carries a n nf z) {i j : ℕ} (hi : i < n) (hj : j < nf) :
    toC (a.cx i j) = z i j := by
  obtain ⟨h1, h2⟩ := h i hi j hj
  apply Complex.ext <;> simp [toC, Acc.cx, h1, h2]

/-- The unit vector from `a` to `b`. -/
noncomputable def lineTangent (a b : V2 ℝ) : V2 ℝ := ⟨(b.x - a.x) / len (b - a), (b.y - a.y) / len (b - a)⟩

theorem make_tangent (a b : V2 ℝ) (sg : Sgn) (s : Surf ℝ) (hs : Surf.make a b sg = .ok s) : s.tangent = lineTangent a b := by
  have : s.tangent = V2.sdiv (b - a) (b - a).norm := by
    unfold Surf.make at hs
    simp only at hs
    split_ifs at hs <;> rw [← Except.ok.inj hs]
  rw [this, norm_len]
  ext <;> simp [lineTangent]

/-- The far field of what a straight monitor has recorded. -/
noncomputable def lineFar (k dx : ℝ) (a b c p : V2 ℝ) (n : ℕ) (F : ℕ → TM) : ℂ :=
  farField k (p - c) n
    (fun i => ((lineTangent a b).x + (lineTangent a b).y : ℝ) * if a.x = b.x then (F i).Hy else (F i).Hx)
    (fun i => (-(lineTangent a b).x + (lineTangent a b).y : ℝ) * (F i).Ez)
    (fun _ => if a.x = b.x then ⟨1, 0⟩ else ⟨0, 1⟩)
    (fun i => ⟨a.x + dx * (i * (lineTangent a b).x) - c.x, a.y + dx * (i * (lineTangent a b).y) - c.y⟩)

/-- **C54**: what `ntff` of a surface monitor computes, for every data, centre, observation point and frequency. -/
theorem C54_formula (g : Grid ℝ) (m : SurfMon ℝ) (a b c p : V2 ℝ) (sg : Sgn) (hs : Surf.make a b sg = .ok m.surf) (n : ℕ) (F : ℕ → ℕ → TM)
    (hn : m.length = n) (h : Recorded m a b n m.fourier.freq.length F) :
    ∃ S, m.ntff g c p = .ok S ∧ ∀ (j : ℕ) (hj : j < m.fourier.freq.length),
      toC (S j) = lineFar (2 * Real.pi * m.fourier.freq[j]) g.dx a b c p n (fun i => F i j) := by
  obtain ⟨s1, -, -, h4, -, h6, -⟩ := surf_make a b sg m.surf hs
  have htan := make_tangent a b sg m.surf hs
  have hnor := normal_cabs m.surf a b sg h6
  obtain ⟨aE, aT, e1, e2, e3, t1, t2⟩ := h
  have hT : m.Ht = .ok aT := by
    unfold SurfMon.Ht
    by_cases hv : a.x = b.x
    · simp only [hv, if_true] at t1
      simp only [eqb_real, h4.mpr hv, decide_true, if_true, t1]
    · have hd : ¬ m.surf.dim.x = 0 := fun e => hv (h4.mp e)
      simp only [hv, if_false] at t1
      simp only [eqb_real, hd, decide_false, Bool.false_eq_true, if_false, t1]
  unfold SurfMon.ntff
  simp only [e1, hT, Except.ok_bind, Except.pure_eq]
  refine ⟨_, rfl, fun j hj => ?_⟩
  simp only [toC_mul, hn, toC_cxSumTo, toC_factor _ _ _ hj, toC_term _ _ _ _ _ _ _ _ _ hj, htan, hnor, s1]
  unfold lineFar farField
  rw [norm_len]
  congr 1
  refine Finset.sum_congr rfl fun i hi => ?_
  rw [Finset.mem_range] at hi
  rw [carries_cx e3 hi hj, carries_cx t2 hi hj]
  have d1 : V2.dot (lineTangent a b) ⟨1, 1⟩ = (lineTangent a b).x + (lineTangent a b).y := by simp [V2.dot]
  have d2 : V2.dot (lineTangent a b) ⟨ofInt (-1), 1⟩ = -(lineTangent a b).x + (lineTangent a b).y := by simp [V2.dot]
  rw [d1, d2]
  simp only [dot_inner]
  congr 2

theorem farField_linear (k : ℝ) (p : V2 ℝ) (n : ℕ) (J N J1 N1 J2 N2 : ℕ → ℂ) (normal pos : ℕ → V2 ℝ) (α β : ℂ)
    (hJ : ∀ i < n, J i = α * J1 i + β * J2 i) (hN : ∀ i < n, N i = α * N1 i + β * N2 i) :
    farField k p n J N normal pos = α * farField k p n J1 N1 normal pos + β * farField k p n J2 N2 normal pos := by
  unfold farField
  rw [mul_left_comm α, mul_left_comm β, ← mul_add]
  congr 1
  rw [Finset.mul_sum, Finset.mul_sum, ← Finset.sum_add_distrib]
  refine Finset.sum_congr rfl fun i hi => ?_
  rw [Finset.mem_range] at hi
  rw [hJ i hi, hN i hi]
  ring

theorem lineFar_linear (k dx : ℝ) (a b c p : V2 ℝ) (n : ℕ) (F F1 F2 : ℕ → TM) (α β : ℂ)
    (h : ∀ i < n, F i = ⟨α * (F1 i).Ez + β * (F2 i).Ez, α * (F1 i).Hx + β * (F2 i).Hx, α * (F1 i).Hy + β * (F2 i).Hy⟩) :
    lineFar k dx a b c p n F = α * lineFar k dx a b c p n F1 + β * lineFar k dx a b c p n F2 := by
  unfold lineFar
  refine farField_linear _ _ _ _ _ _ _ _ _ _ _ _ _ (fun i hi => ?_) (fun i hi => ?_)
  · rw [h i hi]; split_ifs <;> ring
  · rw [h i hi]; ring

/-- **C54**: superposition. If the recorded spectra are `α` times those of one monitor plus `β` times those of another, so is the far field. -/
theorem C54_linear (g : Grid ℝ) (m m1 m2 : SurfMon ℝ) (a b c p : V2 ℝ) (sg : Sgn) (hs : Surf.make a b sg = .ok m.surf)
    (hs1 : m1.surf = m.surf) (hs2 : m2.surf = m.surf) (n : ℕ) (hn : m.length = n) (hn1 : m1.length = n) (hn2 : m2.length = n)
    (freq : List ℝ) (hf : m.fourier.freq = freq) (hf1 : m1.fourier.freq = freq) (hf2 : m2.fourier.freq = freq) (F F1 F2 : ℕ → ℕ → TM)
    (h : Recorded m a b n freq.length F) (h1 : Recorded m1 a b n freq.length F1) (h2 : Recorded m2 a b n freq.length F2) (α β : ℂ)
    (hl : ∀ i < n, ∀ j < freq.length, F i j = ⟨α * (F1 i j).Ez + β * (F2 i j).Ez, α * (F1 i j).Hx + β * (F2 i j).Hx, α * (F1 i j).Hy + β * (F2 i j).Hy⟩) :
    ∃ S S1 S2, m.ntff g c p = .ok S ∧ m1.ntff g c p = .ok S1 ∧ m2.ntff g c p = .ok S2 ∧
      ∀ j : ℕ, j < freq.length → toC (S j) = α * toC (S1 j) + β * toC (S2 j) := by
  subst hf
  obtain ⟨S, k1, k2⟩ := C54_formula g m a b c p sg hs n F hn h
  obtain ⟨S1, k1', k2'⟩ := C54_formula g m1 a b c p sg (by rw [hs1]; exact hs) n F1 hn1 (by rw [hf1]; exact h1)
  obtain ⟨S2, k1'', k2''⟩ := C54_formula g m2 a b c p sg (by rw [hs2]; exact hs) n F2 hn2 (by rw [hf2]; exact h2)
  refine ⟨S, S1, S2, k1, k1', k1'', fun j hj => ?_⟩
  have e1 := k2' j (by rw [hf1]; exact hj)
  have e2 := k2'' j (by rw [hf2]; exact hj)
  simp only [hf1] at e1
  simp only [hf2] at e2
  rw [k2 j hj, e1, e2]
  exact lineFar_linear _ _ _ _ _ _ _ _ _ _ _ _ (fun i hi => hl i hi j hj)

/-- **C54**: the far field of a box is the sum of those of its four faces, all seen from the centre of the box. -/
theorem C54_box (g : Grid ℝ) (m : BoxMon ℝ) (a b p : V2 ℝ) (nx ny : ℕ) (freq : List ℝ) (F : Fin 4 → ℕ → ℕ → TM) (hv : m.vol = Vol.make a b)
    (M : Fin 4 → SurfMon ℝ) (hm : m.faces = [M 0, M 1, M 2, M 3])
    (hM : ∀ f, Surf.make (boxFace a b f).1 (boxFace a b f).2.1 (boxFace a b f).2.2 = .ok (M f).surf ∧ (M f).length = faceCount nx ny f ∧
      (M f).fourier.freq = freq ∧ Recorded (M f) (boxFace a b f).1 (boxFace a b f).2.1 (faceCount nx ny f) freq.length (F f)) :
    ∃ S, m.ntff g p = .ok S ∧ ∀ (j : ℕ) (hj : j < freq.length), toC (S j) =
      ∑ f, lineFar (2 * Real.pi * freq[j]) g.dx (boxFace a b f).1 (boxFace a b f).2.1 ⟨(a.x + b.x) / 2, (a.y + b.y) / 2⟩ p (faceCount nx ny f)
        (fun i => F f i j) := by
  have hc : m.vol.center = ⟨(a.x + b.x) / 2, (a.y + b.y) / 2⟩ := by
    rw [hv]; ext <;> simp [Vol.center, Vol.make]
  have key : ∀ f, ∃ S, (M f).ntff g m.vol.center p = .ok S ∧ ∀ (j : ℕ) (hj : j < freq.length), toC (S j) =
      lineFar (2 * Real.pi * freq[j]) g.dx (boxFace a b f).1 (boxFace a b f).2.1 ⟨(a.x + b.x) / 2, (a.y + b.y) / 2⟩ p (faceCount nx ny f)
        (fun i => F f i j) := by
    intro f
    obtain ⟨h1, h2, h3, h4⟩ := hM f
    obtain ⟨S, k1, k2⟩ := C54_formula g (M f) _ _ m.vol.center p _ h1 _ (F f) h2 (by rw [h3]; exact h4)
    refine ⟨S, k1, fun j hj => ?_⟩
    have := k2 j (by rw [h3]; exact hj)
    simp only [h3] at this
    rw [this, hc]
  choose S hS using key
  refine ⟨fun j => Cx.add (Cx.add (Cx.add (Cx.add ⟨0, 0⟩ (S 0 j)) (S 1 j)) (S 2 j)) (S 3 j), ?_, ?_⟩
  · unfold BoxMon.ntff
    rw [hm]
    exact sumFaces_four _ _ M S ⟨0, 0⟩ (fun f => (hS f).1)
  · intro j hj
    simp only [Fin.sum_univ_four, ← (hS _).2 j hj, toC_add]
    have : toC ⟨0, 0⟩ = 0 := rfl
    rw [this, zero_add]

/-- **C54**: what `ntff` of a cylinder monitor computes. -/
theorem C54_cylinder (m : CylMon ℝ) (p : V2 ℝ) (n : ℕ) (F : ℕ → ℕ → TM) (h : CylRecorded m n m.fourier.freq.length F) :
    ∃ S, m.ntff p = .ok S ∧ ∀ (j : ℕ) (hj : j < m.fourier.freq.length), toC (S j) =
      farField (2 * Real.pi * m.fourier.freq[j]) (p - m.surf.center) n
        (fun i => along (F i j) ⟨-Real.sin (arcAngle n i), Real.cos (arcAngle n i)⟩) (fun i => -(F i j).Ez)
        (fun i => radial (arcAngle n i)) (fun i => V2.smul m.surf.radius (radial (arcAngle n i))) := by
  obtain ⟨hn, aE, aT, e1, e2, e3, t1, t2⟩ := h
  unfold CylMon.ntff
  simp only [e1, t1, Except.ok_bind, Except.pure_eq]
  refine ⟨_, rfl, fun j hj => ?_⟩
  simp only [toC_mul, hn, toC_cxSumTo, toC_factor _ _ _ hj, toC_term _ _ _ _ _ _ _ _ _ hj]
  unfold farField
  rw [norm_len]
  congr 1
  refine Finset.sum_congr rfl fun i hi => ?_
  rw [Finset.mem_range] at hi
  rw [carries_cx e3 hi hj, carries_cx t2 hi hj, cylTheta_eq]
  have e : m.surf.position (arcAngle n i) - m.surf.center = V2.smul m.surf.radius (radial (arcAngle n i)) := by
    ext <;> simp [CylSurf.position, CylSurf.normal, radial]
  rw [e]
  simp only [dot_inner, ofInt_real]
  have e' : m.surf.normal (arcAngle n i) = radial (arcAngle n i) := by
    ext <;> simp [CylSurf.normal, radial]
  rw [e']
  push_cast
  ring_nf

/-- **C54**: superposition for cylinder monitors. -/
theorem C54_cylinder_linear (m m1 m2 : CylMon ℝ) (p : V2 ℝ) (hs1 : m1.surf = m.surf) (hs2 : m2.surf = m.surf) (n : ℕ) (freq : List ℝ)
    (hf : m.fourier.freq = freq) (hf1 : m1.fourier.freq = freq) (hf2 : m2.fourier.freq = freq) (F F1 F2 : ℕ → ℕ → TM)
    (h : CylRecorded m n freq.length F) (h1 : CylRecorded m1 n freq.length F1) (h2 : CylRecorded m2 n freq.length F2) (α β : ℂ)
    (hl : ∀ i < n, ∀ j < freq.length, F i j = ⟨α * (F1 i j).Ez + β * (F2 i j).Ez, α * (F1 i j).Hx + β * (F2 i j).Hx, α * (F1 i j).Hy + β * (F2 i j).Hy⟩) :
    ∃ S S1 S2, m.ntff p = .ok S ∧ m1.ntff p = .ok S1 ∧ m2.ntff p = .ok S2 ∧
      ∀ j : ℕ, j < freq.length → toC (S j) = α * toC (S1 j) + β * toC (S2 j) := by
  subst hf
  obtain ⟨S, k1, k2⟩ := C54_cylinder m p n F h
  obtain ⟨S1, k1', k2'⟩ := C54_cylinder m1 p n F1 (by rw [hf1]; exact h1)
  obtain ⟨S2, k1'', k2''⟩ := C54_cylinder m2 p n F2 (by rw [hf2]; exact h2)
  refine ⟨S, S1, S2, k1, k1', k1'', fun j hj => ?_⟩
  have e1 := k2' j (by rw [hf1]; exact hj)
  have e2 := k2'' j (by rw [hf2]; exact hj)
  simp only [hf1, hs1] at e1
  simp only [hf2, hs2] at e2
  rw [k2 j hj, e1, e2]
  refine farField_linear _ _ _ _ _ _ _ _ _ _ _ _ _ (fun i hi => ?_) (fun i hi => ?_)
  · rw [hl i hi j hj]; simp only [along]; ring
  · rw [hl i hi j hj]; ring

/-! ## C37: differences of monitors -/

theorem get_find {d : Dft ℝ ℤ} {x : String} {a : Acc ℝ ℤ} : d.get x = .ok a ↔ accFind x d.acc = some a := by
  unfold Dft.get
  cases accFind x d.acc <;> simp

/-- `-=` of transforms of the same make. -/
theorem sub_get (d o : Dft ℝ ℤ) (hk : Like d o) : ∃ e, d.sub o = .ok e ∧ e.freq = d.freq ∧
    ∀ x a b, d.get x = .ok a → o.get x = .ok b → e.get x = .ok (a.sub b) := by
  obtain ⟨l, h1, h2⟩ := accSub_find o hk.1 d.acc hk.2
  refine ⟨{ d with acc := l }, by unfold Dft.sub; rw [h1]; rfl, rfl, fun x a b ha hb => ?_⟩
  rw [get_find] at ha hb ⊢
  obtain ⟨b', k1, k2⟩ := h2 x a ha
  rw [hb] at k1
  cases k1
  exact k2

theorem carries_sub {a b : Acc ℝ ℤ} {n nf : ℕ} {z w : ℕ → ℕ → ℂ} (h : Carries a n nf z) (h' : Carries b n nf w) :
    Carries (a.sub b) n nf (fun i j => z i j - w i j) := by
  intro i hi j hj
  simp only [Acc.sub, (h i hi j hj).1, (h i hi j hj).2, (h' i hi j hj).1, (h' i hi j hj).2, Complex.sub_re, Complex.sub_im, and_self]

/-- **C37**: the difference of two surface monitors of the same shape holds the difference of the recorded fields. -/
theorem C37_surface (m o : SurfMon ℝ) (a b : V2 ℝ) (n nf : ℕ) (F G : ℕ → ℕ → TM) (hk : Like m.fourier o.fourier)
    (h : Recorded m a b n nf F) (h' : Recorded o a b n nf G) :
    ∃ d, m.sub o = .ok d ∧ d.surf = m.surf ∧ d.length = m.length ∧ d.fourier.freq = m.fourier.freq ∧
      Recorded d a b n nf (fun i j => (F i j).minus (G i j)) := by
  obtain ⟨e, h1, h2, h3⟩ := sub_get m.fourier o.fourier hk
  obtain ⟨aE, aT, e1, e2, e3, t1, t2⟩ := h
  obtain ⟨aE', aT', e1', e2', e3', t1', t2'⟩ := h'
  refine ⟨{ m with fourier := e }, by unfold SurfMon.sub; rw [h1]; rfl, rfl, rfl, h2, aE.sub aE', aT.sub aT', h3 _ _ _ e1 e1', e2, carries_sub e3 e3', h3 _ _ _ t1 t1', ?_⟩
  have := carries_sub t2 t2'
  intro i hi j hj
  have := this i hi j hj
  simp only [TM.minus] at this ⊢
  split_ifs at this ⊢ <;> exact this

/-- **C37**: the flux of a difference is the flux of the difference field. -/
theorem C37_flux (g : Grid ℝ) (m o : SurfMon ℝ) (a b : V2 ℝ) (sg : Sgn) (hs : Surf.make a b sg = .ok m.surf) (n nf : ℕ) (F G : ℕ → ℕ → TM)
    (hk : Like m.fourier o.fourier) (h : Recorded m a b n nf F) (h' : Recorded o a b n nf G) :
    ∃ d S, m.sub o = .ok d ∧ d.flux g = .ok S ∧
      ∀ j < nf, S j = ∑ i ∈ Finset.range n, ((F i j).minus (G i j)).outflow (lineNormal a b sg) * g.dx := by
  obtain ⟨d, h1, h2, -, -, h3⟩ := C37_surface m o a b n nf F G hk h h'
  obtain ⟨S, k1, k2⟩ := C41_flux g d a b sg (by rw [h2]; exact hs) n nf _ h3
  exact ⟨d, S, h1, k1, k2⟩

/-- **C37**, **C54**: the far field of a difference is the difference of the far fields. -/
theorem C54_difference (g : Grid ℝ) (m o : SurfMon ℝ) (a b c p : V2 ℝ) (sg : Sgn) (hs : Surf.make a b sg = .ok m.surf) (ho : o.surf = m.surf)
    (n : ℕ) (hn : m.length = n) (hn' : o.length = n) (freq : List ℝ) (hf : m.fourier.freq = freq) (hf' : o.fourier.freq = freq)
    (F G : ℕ → ℕ → TM) (hk : Like m.fourier o.fourier) (h : Recorded m a b n freq.length F) (h' : Recorded o a b n freq.length G) :
    ∃ d S S1 S2, m.sub o = .ok d ∧ d.ntff g c p = .ok S ∧ m.ntff g c p = .ok S1 ∧ o.ntff g c p = .ok S2 ∧
      ∀ j : ℕ, j < freq.length → toC (S j) = toC (S1 j) - toC (S2 j) := by
  obtain ⟨d, h1, h2, h3, h4, h5⟩ := C37_surface m o a b n _ F G hk h h'
  obtain ⟨S, S1, S2, k1, k2, k3, k4⟩ := C54_linear g d m o a b c p sg (by rw [h2]; exact hs) h2.symm (ho.trans h2.symm) n (h3.trans hn) hn hn'
    freq (h4.trans hf) hf hf' _ F G h5 h h' 1 (-1) (fun i _ j _ => by simp only [TM.minus]; congr 1 <;> ring)
  exact ⟨d, S, S1, S2, h1, k1, k2, k3, fun j hj => by rw [k4 j hj]; ring⟩

/-- **C37** for boxes: the difference of two box monitors of the same shape holds the difference of the recorded fields on every face. -/
theorem C37_box (m o : BoxMon ℝ) (a b : V2 ℝ) (nx ny nf : ℕ) (F G : Fin 4 → ℕ → ℕ → TM) (M O : Fin 4 → SurfMon ℝ)
    (hm : m.faces = [M 0, M 1, M 2, M 3]) (ho : o.faces = [O 0, O 1, O 2, O 3])
    (hM : ∀ f, Surf.make (boxFace a b f).1 (boxFace a b f).2.1 (boxFace a b f).2.2 = .ok (M f).surf ∧
      Recorded (M f) (boxFace a b f).1 (boxFace a b f).2.1 (faceCount nx ny f) nf (F f))
    (hO : ∀ f, Recorded (O f) (boxFace a b f).1 (boxFace a b f).2.1 (faceCount nx ny f) nf (G f))
    (hk : ∀ f, Like (M f).fourier (O f).fourier) :
    ∃ d, m.sub o = .ok d ∧ d.vol = m.vol ∧ BoxRecorded d a b nx ny nf (fun f i j => (F f i j).minus (G f i j)) := by
  choose D h1 h2 _ _ h5 using fun f => C37_surface (M f) (O f) _ _ _ nf (F f) (G f) (hk f) (hM f).2 (hO f)
  refine ⟨{ m with faces := [D 0, D 1, D 2, D 3] }, ?_, rfl, D, rfl, fun f => ⟨by rw [h2]; exact (hM f).1, h5 f⟩⟩
  unfold BoxMon.sub
  rw [hm, ho]
  simp only [subFaces, h1, Except.ok_bind, Except.pure_eq]

/-- **C37**: the scattered flux of a box is the flux of the scattered field, and a copy subtracted leaves none. -/
theorem C37_box_flux (g : Grid ℝ) (m o : BoxMon ℝ) (a b : V2 ℝ) (hx : a.x < b.x) (nx ny nf : ℕ) (F G : Fin 4 → ℕ → ℕ → TM) (M O : Fin 4 → SurfMon ℝ)
    (hm : m.faces = [M 0, M 1, M 2, M 3]) (ho : o.faces = [O 0, O 1, O 2, O 3])
    (hM : ∀ f, Surf.make (boxFace a b f).1 (boxFace a b f).2.1 (boxFace a b f).2.2 = .ok (M f).surf ∧
      Recorded (M f) (boxFace a b f).1 (boxFace a b f).2.1 (faceCount nx ny f) nf (F f))
    (hO : ∀ f, Recorded (O f) (boxFace a b f).1 (boxFace a b f).2.1 (faceCount nx ny f) nf (G f))
    (hk : ∀ f, Like (M f).fourier (O f).fourier) :
    ∃ d S, m.sub o = .ok d ∧ d.flux g = .ok S ∧ (∀ j < nf, S j = ∑ f, ∑ i ∈ Finset.range (faceCount nx ny f),
      ((F f i j).minus (G f i j)).outflow (outward f) * g.dx) ∧ (F = G → ∀ j < nf, S j = 0) := by
  obtain ⟨d, h1, -, h3⟩ := C37_box m o a b nx ny nf F G M O hm ho hM hO hk
  obtain ⟨S, k1, k2⟩ := C41_box g d a b hx nx ny nf _ h3
  refine ⟨d, S, h1, k1, k2, fun e j hj => ?_⟩
  rw [k2 j hj, e]
  refine Finset.sum_eq_zero fun f _ => Finset.sum_eq_zero fun i _ => ?_
  rw [outflow_eq]
  simp [TM.minus]

/-! ### Histories -/

theorem surfRuns_layout (g : Grid ℝ) : ∀ (l : List (Flds ℝ × ℝ)) (m m' : SurfMon ℝ), SurfMon.runs g l m = .ok m' →
    m'.fourier.layout = m.fourier.layout ∧ m'.fourier.freq = m.fourier.freq
  | [], m, m', h => by cases h; exact ⟨rfl, rfl⟩
  | q :: l, m, m', h => by
    simp only [SurfMon.runs, Except.bind_ok] at h
    obtain ⟨x, h1, h2⟩ := h
    obtain ⟨e1, e2⟩ := surfRuns_layout g l x m' h2
    rw [e1, e2]
    unfold SurfMon.update at h1
    simp only [Except.bind_ok, Except.pure_eq] at h1
    obtain ⟨is, -, r, h3, h4⟩ := h1
    rw [← Except.ok.inj h4]
    exact Dft.update_layout h3

/-- **C37** for monitors that have watched two runs at the same times: the difference holds the spectra of the difference of the runs. -/
theorem C37_history (g : Grid ℝ) (name name' : String) (a b : V2 ℝ) (sg : Sgn) (s : Surf ℝ) (hs : Surf.make a b sg = .ok s)
    (hne : g.toGrid a ≠ g.toGrid b) (tag : DftTag) (ht : tag = .all ∨ tag = .tangent) (freq : List ℝ)
    (l l' : List (Flds ℝ × ℝ)) (ss ss' : List (Snap ℝ)) (is : ISurf) (hi : g.toGridS s = .ok is)
    (h : List.Forall₂ (fun q r => Finds (cells g a b) (surfKeys tag is) (surfReads g s is q) r) l ss)
    (h' : List.Forall₂ (fun q r => Finds (cells g a b) (surfKeys tag is) (surfReads g s is q) r) l' ss') :
    ∃ m1 m o1 o d S, (SurfMon.make name s tag freq).setF g = .ok m1 ∧ SurfMon.runs g l m1 = .ok m ∧
      (SurfMon.make name' s tag freq).setF g = .ok o1 ∧ SurfMon.runs g l' o1 = .ok o ∧ m.sub o = .ok d ∧ d.flux g = .ok S ∧
      ∀ (j : ℕ) (hj : j < freq.length), S j = ∑ i ∈ Finset.range (cells g a b),
        ((phasors freq[j] i (averaged 0 (fun _ => 0) ss)).minus (phasors freq[j] i (averaged 0 (fun _ => 0) ss'))).outflow (lineNormal a b sg) * g.dx := by
  obtain ⟨m1, m, h1, h2, h3, -, -, h4, -⟩ := surf_recorded g name a b sg s hs hne tag ht freq l ss is hi h
  obtain ⟨o1, o, h1', h2', h3', -, -, h4', -⟩ := surf_recorded g name' a b sg s hs hne tag ht freq l' ss' is hi h'
  have hk : Like m.fourier o.fourier := by
    obtain ⟨a1, a2⟩ := surfRuns_layout g _ _ _ h2
    obtain ⟨b1, b2⟩ := surfRuns_layout g _ _ _ h2'
    obtain ⟨is', k1, k2, -, -⟩ := toGridS_make g a b sg s hs hne
    rw [surf_setF g name s tag freq is' k1 _ rfl] at h1
    rw [surf_setF g name' s tag freq is' k1 _ rfl] at h1'
    rw [← Except.ok.inj h1] at a1 a2
    rw [← Except.ok.inj h1'] at b1 b2
    refine like_of_layout (by rw [a2, b2]) (by rw [a1, b1]) ?_
    obtain ⟨c1, -, -, c2⟩ := addAll_acc freq (intRange 0 is'.dim.inorm) _ (surfKeys_mem tag is')
    have := congrArg (List.map Prod.fst) b1
    simp only [Dft.layout, List.map_map, Function.comp_def] at this
    rw [this, c1, List.map_map]
    simpa [Function.comp_def] using c2
  obtain ⟨d, S, k1, k2, k3⟩ := C37_flux g m o a b sg (by rw [h3]; exact hs) _ _ _ _ hk h4 h4'
  refine ⟨m1, m, o1, o, d, S, h1, h2, h1', h2', k1, k2, fun j hj => ?_⟩
  rw [k3 j hj]
  simp only [lineField, getD_lt freq hj]

end Qbox.Props
