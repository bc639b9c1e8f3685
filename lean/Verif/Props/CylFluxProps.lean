import Verif.Props.SurfDomainProps
import Mathlib.RingTheory.RootsOfUnity.Complex

/-!
# C41, C42: flux and force of cylinder monitors
-/

namespace Qbox.Props
open Qbox Scalar Spec

/-- The outward normal of a circle at the angle `θ`. -/
noncomputable def radial (θ : ℝ) : V2 ℝ := ⟨Real.cos θ, Real.sin θ⟩

/-- The angle of the middle of arc number `i` of `n` equal arcs. -/
noncomputable def arcAngle (n i : ℕ) : ℝ := 2 * Real.pi * (i + 1 / 2) / n

/-- Component of the magnetic field along the direction `d`. -/
noncomputable def along (φ : TM) (d : V2 ℝ) : ℂ := φ.Hx * d.x + φ.Hy * d.y

/-- A cylinder monitor with `n` points has recorded the field `F i j` (point `i`, frequency `j`): the electric field and the azimuthal
magnetic component. -/
def CylRecorded (m : CylMon ℝ) (n nf : ℕ) (F : ℕ → ℕ → TM) : Prop :=
  m.length = n ∧ ∃ aE aT, m.fourier.get "Ez" = .ok aE ∧ aE.pos.length = n ∧ Carries aE n nf (fun i j => (F i j).Ez) ∧
    m.fourier.get "Hp" = .ok aT ∧ Carries aT n nf (fun i j => along (F i j) ⟨-Real.sin (arcAngle n i), Real.cos (arcAngle n i)⟩)

/-- The radial magnetic component too. -/
def CylRecordedAll (m : CylMon ℝ) (n nf : ℕ) (F : ℕ → ℕ → TM) : Prop :=
  CylRecorded m n nf F ∧ ∃ aN, m.fourier.get "Hr" = .ok aN ∧ Carries aN n nf (fun i j => along (F i j) (radial (arcAngle n i)))

theorem cylTheta_eq (n i : ℕ) : cylTheta (K := ℝ) n i = arcAngle n i := by
  simp [cylTheta, arcAngle, half]

theorem outflow_radial (φ : TM) (θ : ℝ) : φ.outflow (radial θ) =
    -(φ.Ez.re * (along φ ⟨-Real.sin θ, Real.cos θ⟩).re + φ.Ez.im * (along φ ⟨-Real.sin θ, Real.cos θ⟩).im) := by
  rw [outflow_eq]
  simp only [radial, along, Complex.add_re, Complex.add_im, Complex.mul_re, Complex.mul_im, Complex.ofReal_re, Complex.ofReal_im]
  ring

/-- **C41**: the flux of a cylinder monitor is the sum over its points of the Poynting vector dotted with the outward normal, times the
arc length. -/
theorem C41_cylinder (m : CylMon ℝ) (n nf : ℕ) (F : ℕ → ℕ → TM) (h : CylRecorded m n nf F) :
    ∃ S, m.flux = .ok S ∧ ∀ j < nf, S j = ∑ i ∈ Finset.range n, (F i j).outflow (radial (arcAngle n i)) * (2 * Real.pi * m.surf.radius / n) := by
  obtain ⟨hn, aE, aT, e1, e2, e3, t1, t2⟩ := h
  unfold CylMon.flux
  simp only [e1, t1, Except.ok_bind, Except.pure_eq]
  refine ⟨_, rfl, fun j hj => ?_⟩
  simp only [computeFlux, e2, sumTo_eq, Finset.sum_mul, CylMon.da, hn]
  refine Finset.sum_congr rfl fun i hi => ?_
  rw [Finset.mem_range] at hi
  rw [outflow_radial, (e3 i hi j hj).1, (e3 i hi j hj).2, (t2 i hi j hj).1, (t2 i hi j hj).2]
  simp only [Sgn.toInt, ofInt_real, pi_real]
  push_cast
  ring

/-- **C42**: the force on a cylinder monitor is the sum over its points of the Maxwell stress tensor contracted with the outward normal,
times the arc length. -/
theorem C42_cylinder_force (m : CylMon ℝ) (n nf : ℕ) (F : ℕ → ℕ → TM) (h : CylRecordedAll m n nf F) :
    ∃ S, m.force = .ok S ∧ ∀ j < nf,
      (S j).x = ∑ i ∈ Finset.range n, (F i j).traction (radial (arcAngle n i)) 0 * (2 * Real.pi * m.surf.radius / n) ∧
      (S j).y = ∑ i ∈ Finset.range n, (F i j).traction (radial (arcAngle n i)) 1 * (2 * Real.pi * m.surf.radius / n) := by
  obtain ⟨⟨hn, aE, aT, e1, e2, e3, t1, t2⟩, aN, n1, n2⟩ := h
  unfold CylMon.force
  simp only [e1, t1, n1, Except.ok_bind, Except.pure_eq]
  refine ⟨_, rfl, fun j hj => ?_⟩
  constructor
  · simp only [computeForce, e2, sumTo_eq, CylMon.da, hn]
    refine Finset.sum_congr rfl fun i hi => ?_
    rw [Finset.mem_range] at hi
    simp only [traction, Acc.cx, (e3 i hi j hj).1, (e3 i hi j hj).2, (t2 i hi j hj).1, (t2 i hi j hj).2, (n2 i hi j hj).1, (n2 i hi j hj).2,
      (traction_eq (F i j) _).1, CylSurf.tangent, CylSurf.normal, cylTheta_eq, radial, sin_real, cos_real, Complex.normSq_apply, half_real,
      along, Complex.add_re, Complex.add_im, Complex.mul_re, Complex.mul_im, Complex.ofReal_re, Complex.ofReal_im, Sgn.toInt, ofInt_real, pi_real]
    have := Real.sin_sq_add_cos_sq (arcAngle n i)
    push_cast
    linear_combination (2 * Real.pi * m.surf.radius / n) * ((((F i j).Hx.re ^ 2 + (F i j).Hx.im ^ 2) - ((F i j).Hy.re ^ 2 + (F i j).Hy.im ^ 2)) / 2 * Real.cos (arcAngle n i) + ((F i j).Hx.re * (F i j).Hy.re + (F i j).Hx.im * (F i j).Hy.im) * Real.sin (arcAngle n i)) * this
  · simp only [computeForce, e2, sumTo_eq, CylMon.da, hn]
    refine Finset.sum_congr rfl fun i hi => ?_
    rw [Finset.mem_range] at hi
    simp only [traction, Acc.cx, (e3 i hi j hj).1, (e3 i hi j hj).2, (t2 i hi j hj).1, (t2 i hi j hj).2, (n2 i hi j hj).1, (n2 i hi j hj).2,
      (traction_eq (F i j) _).2, CylSurf.tangent, CylSurf.normal, cylTheta_eq, radial, sin_real, cos_real, Complex.normSq_apply, half_real,
      along, Complex.add_re, Complex.add_im, Complex.mul_re, Complex.mul_im, Complex.ofReal_re, Complex.ofReal_im, Sgn.toInt, ofInt_real, pi_real]
    have := Real.sin_sq_add_cos_sq (arcAngle n i)
    push_cast
    linear_combination (2 * Real.pi * m.surf.radius / n) * (-((((F i j).Hx.re ^ 2 + (F i j).Hx.im ^ 2) - ((F i j).Hy.re ^ 2 + (F i j).Hy.im ^ 2)) / 2) * Real.sin (arcAngle n i) + ((F i j).Hx.re * (F i j).Hy.re + (F i j).Hx.im * (F i j).Hy.im) * Real.cos (arcAngle n i)) * this

/-- **C42**: computing the torque on a cylinder monitor with at least one point is undefined behaviour. -/
theorem C42_cylinder_torque_undefined (m : CylMon ℝ) (n nf : ℕ) (F : ℕ → ℕ → TM) (h : CylRecordedAll m n nf F) (hn : 0 < n) :
    m.torque = .error (.ub .dangling) := by
  obtain ⟨⟨-, aE, aT, e1, e2, -, t1, -⟩, aN, n1, -⟩ := h
  unfold CylMon.torque
  simp only [e1, t1, n1, Except.ok_bind]
  rw [if_neg]
  intro e
  rw [e] at e2
  simp at e2
  omega

/-! ## Uniform fields -/

theorem arc_sum (n : ℕ) (hn : 2 ≤ n) : ∑ i ∈ Finset.range n, Complex.exp (arcAngle n i * Complex.I) = 0 := by
  have hn0 : (n : ℂ) ≠ 0 := by exact_mod_cast (by omega : n ≠ 0)
  have h := (Complex.isPrimitiveRoot_exp n (by omega)).geom_sum_eq_zero (by omega)
  have : ∀ i ∈ Finset.range n, Complex.exp (arcAngle n i * Complex.I) =
      Complex.exp (Real.pi / n * Complex.I) * Complex.exp (2 * Real.pi * Complex.I / n) ^ i := by
    intro i _
    rw [← Complex.exp_nat_mul, ← Complex.exp_add]
    congr 1
    simp only [arcAngle]
    push_cast
    field_simp
    ring
  rw [Finset.sum_congr rfl this, ← Finset.mul_sum, h, mul_zero]

theorem arc_cos (n : ℕ) (hn : 2 ≤ n) : ∑ i ∈ Finset.range n, Real.cos (arcAngle n i) = 0 := by
  have := congrArg Complex.re (arc_sum n hn)
  simpa only [Complex.re_sum, Complex.exp_ofReal_mul_I_re, Complex.zero_re] using this

theorem arc_sin (n : ℕ) (hn : 2 ≤ n) : ∑ i ∈ Finset.range n, Real.sin (arcAngle n i) = 0 := by
  have := congrArg Complex.im (arc_sum n hn)
  simpa only [Complex.im_sum, Complex.exp_ofReal_mul_I_im, Complex.zero_im] using this

/-- **C41**: a spatially uniform field gives a cylinder monitor with at least two points no net flux. -/
theorem C41_cylinder_uniform (m : CylMon ℝ) (n nf : ℕ) (hn : 2 ≤ n) (u : ℕ → TM) (h : CylRecorded m n nf (fun _ j => u j)) :
    ∃ S, m.flux = .ok S ∧ ∀ j < nf, S j = 0 := by
  obtain ⟨S, h1, h2⟩ := C41_cylinder m n nf _ h
  refine ⟨S, h1, fun j hj => ?_⟩
  rw [h2 j hj, ← Finset.sum_mul]
  simp only [outflow_eq, radial, Finset.sum_add_distrib, ← Finset.mul_sum, arc_cos n hn, arc_sin n hn]
  simp

/-- **C42**: a spatially uniform field exerts no net force on a cylinder monitor with at least two points. -/
theorem C42_cylinder_uniform_force (m : CylMon ℝ) (n nf : ℕ) (hn : 2 ≤ n) (u : ℕ → TM) (h : CylRecordedAll m n nf (fun _ j => u j)) :
    ∃ S, m.force = .ok S ∧ ∀ j < nf, S j = ⟨0, 0⟩ := by
  obtain ⟨S, h1, h2⟩ := C42_cylinder_force m n nf _ h
  refine ⟨S, h1, fun j hj => ?_⟩
  ext
  · rw [(h2 j hj).1, ← Finset.sum_mul]
    simp only [(traction_eq _ _).1, radial, Finset.sum_add_distrib, ← Finset.mul_sum, arc_cos n hn, arc_sin n hn]
    simp
  · rw [(h2 j hj).2, ← Finset.sum_mul]
    simp only [(traction_eq _ _).2, radial, Finset.sum_add_distrib, ← Finset.mul_sum, arc_cos n hn, arc_sin n hn]
    simp

/-! ## Monitors that have watched a history -/

/-- The fields found on the circle. -/
def Sees (g : Grid ℝ) (surf : CylSurf ℝ) (n : ℕ) (q : Flds ℝ × ℝ) (r : Snap ℝ) : Prop :=
  q.2 = r.t ∧ ∀ i : ℕ, i < n →
    let p : V2 ℝ := ⟨surf.center.x + surf.radius * Real.cos (arcAngle n i), surf.center.y + surf.radius * Real.sin (arcAngle n i)⟩
    q.1.interpolate g .Ez p = .ok (r.e i) ∧ q.1.interpolate g .Hx p = .ok (r.h "Hx" i) ∧ q.1.interpolate g .Hy p = .ok (r.h "Hy" i)

/-- The polar components of what was found. -/
noncomputable def polar (n : ℕ) (r : Snap ℝ) : Snap ℝ :=
  ⟨r.t, r.e, fun x i => if x = "Hp" then r.h "Hx" i * -Real.sin (arcAngle n i.toNat) + r.h "Hy" i * Real.cos (arcAngle n i.toNat)
    else r.h "Hx" i * Real.cos (arcAngle n i.toNat) + r.h "Hy" i * Real.sin (arcAngle n i.toNat)⟩

theorem sees_finds (g : Grid ℝ) (surf : CylSurf ℝ) (n : ℕ) (q : Flds ℝ × ℝ) (r : Snap ℝ) (tag : DftTag) (h : Sees g surf n q r) :
    Finds n (cylKeys tag) (cylReads g surf n q) (polar n r) := by
  obtain ⟨h1, h2⟩ := h
  have hp : ∀ i : ℕ, surf.position (cylTheta n i) = ⟨surf.center.x + surf.radius * Real.cos (arcAngle n i),
      surf.center.y + surf.radius * Real.sin (arcAngle n i)⟩ := by
    intro i
    rw [cylTheta_eq]
    ext <;> simp [CylSurf.position, CylSurf.normal] <;> ring
  refine ⟨h1, fun i i0 i1 => ?_, fun x hx hne i i0 i1 => ?_⟩
  · obtain ⟨i, rfl⟩ := Int.eq_ofNat_of_zero_le i0
    simp only [cylReads, hp]
    exact (h2 i (by omega)).1
  · obtain ⟨i, rfl⟩ := Int.eq_ofNat_of_zero_le i0
    obtain ⟨-, k2, k3⟩ := h2 i (by omega)
    have hx' : x = "Hp" ∨ x = "Hr" := by
      cases tag <;> simp [cylKeys] at hx <;> tauto
    simp only [cylReads, hp]
    rcases hx' with rfl | rfl
    · simp only [if_true, k2, k3, Except.ok_bind, Except.pure_eq, polar, cylTheta_eq, CylSurf.tangent, V2.dot, sin_real, cos_real, Int.toNat_natCast]
    · simp only [if_true, if_neg (show ¬ ("Hr" = "Hp") by decide), k2, k3, Except.ok_bind, Except.pure_eq, polar, cylTheta_eq, CylSurf.normal, V2.dot, sin_real,
        cos_real, Int.toNat_natCast]

theorem averaged_polar (n : ℕ) (f : ℝ) (i : ℕ) : ∀ (rs : List (Snap ℝ)) (t0 : ℝ) (p : ℤ → ℝ),
    fourierSum f "Ez" i (averaged t0 p (rs.map (polar n))) = fourierSum f "Ez" i (averaged t0 p rs) ∧
    fourierSum f "Hp" i (averaged t0 p (rs.map (polar n))) =
      along (phasors f i (averaged t0 p rs)) ⟨-Real.sin (arcAngle n i), Real.cos (arcAngle n i)⟩ ∧
    fourierSum f "Hr" i (averaged t0 p (rs.map (polar n))) = along (phasors f i (averaged t0 p rs)) (radial (arcAngle n i))
  | [], t0, p => by simp [averaged, fourierSum, along, phasors]
  | r :: rs, t0, p => by
    by_cases c : t0 = r.t
    · have e : eqb t0 r.t = true := by simp [c]
      have e' : eqb t0 (polar n r).t = true := by simp [c, polar]
      simp only [List.map_cons, averaged, e, e', if_true]
      exact averaged_polar n f i rs t0 p
    · have e : ¬ (eqb t0 r.t = true) := by simp [c]
      have e' : ¬ (eqb t0 (polar n r).t = true) := by simp [c, polar]
      obtain ⟨h1, h2, h3⟩ := averaged_polar n f i rs r.t r.e
      have ht : (polar n r).t = r.t := rfl
      have he : (polar n r).e = r.e := rfl
      simp only [List.map_cons, averaged, e, e', Bool.false_eq_true, if_false, ht, he]
      simp only [fourierSum, along, phasors, List.map_cons, List.sum_cons, radial] at h1 h2 h3 ⊢
      refine ⟨?_, ?_, ?_⟩
      · rw [h1]; simp
      · rw [h2]
        simp [polar]
        ring
      · rw [h3]
        simp [polar]
        ring

/-- A cylinder monitor that has watched the fields `l`, in which it found `rs`, has recorded the spectra of the averaged samples. -/
theorem cyl_recorded (g : Grid ℝ) (name : String) (surf : CylSurf ℝ) (tag : DftTag) (ht : tag = .all ∨ tag = .tangent) (freq : List ℝ) (n : ℕ)
    (hn : ⌈2 * Real.pi * surf.radius / g.dx⌉ = n) (l : List (Flds ℝ × ℝ)) (rs : List (Snap ℝ))
    (h : List.Forall₂ (Sees g surf n) l rs) :
    ∃ m, CylMon.runs g l ((CylMon.make name surf tag freq).setF g) = .ok m ∧ m.surf = surf ∧ m.fourier.freq = freq ∧
      CylRecorded m n freq.length (lineField freq (averaged 0 (fun _ => 0) rs)) ∧
      (tag = .all → CylRecordedAll m n freq.length (lineField freq (averaged 0 (fun _ => 0) rs))) := by
  have h' : List.Forall₂ (fun q s => Finds n (cylKeys tag) (cylReads g surf n q) s) l (rs.map (polar n)) := by
    clear hn
    induction h with
    | nil => exact .nil
    | cons h _ ih => exact .cons (sees_finds g surf n _ _ tag h) ih
  obtain ⟨m, h1, h2, h3, -, -, h4, h5⟩ := cyl_record g name surf tag freq n (by simpa using hn) l _ h'
  obtain ⟨aE, e1, e2, e3⟩ := h5 "Ez" (by rcases ht with rfl | rfl <;> simp [cylKeys])
  obtain ⟨aT, t1, t2, t3⟩ := h5 "Hp" (by rcases ht with rfl | rfl <;> simp [cylKeys])
  have R : CylRecorded m n freq.length (lineField freq (averaged 0 (fun _ => 0) rs)) := by
    refine ⟨h3, aE, aT, e1, by rw [e2, length_intRange]; simp, ?_, t1, ?_⟩
    · refine holds_carries aE freq _ _ _ e2 e3 _ (fun i _ j hj => ?_)
      simp only [lineField, phasors, getD_lt freq hj, (averaged_polar n freq[j] i rs 0 _).1]
    · refine holds_carries aT freq _ _ _ t2 t3 _ (fun i _ j hj => ?_)
      simp only [lineField, getD_lt freq hj, (averaged_polar n freq[j] i rs 0 _).2.1]
  refine ⟨m, h1, h2, h4, R, fun hall => ⟨R, ?_⟩⟩
  subst hall
  obtain ⟨aN, n1, n2, n3⟩ := h5 "Hr" (by simp [cylKeys])
  refine ⟨aN, n1, holds_carries aN freq _ _ _ n2 n3 _ (fun i _ j hj => ?_)⟩
  simp only [lineField, getD_lt freq hj, (averaged_polar n freq[j] i rs 0 _).2.2]

/-- **C41**, **C42** for a cylinder monitor that has watched any history of fields. -/
theorem C41_cylinder_history (g : Grid ℝ) (name : String) (surf : CylSurf ℝ) (freq : List ℝ) (n : ℕ)
    (hn : ⌈2 * Real.pi * surf.radius / g.dx⌉ = n) (l : List (Flds ℝ × ℝ)) (rs : List (Snap ℝ)) (h : List.Forall₂ (Sees g surf n) l rs) :
    ∃ m S P, CylMon.runs g l ((CylMon.make name surf .all freq).setF g) = .ok m ∧ m.flux = .ok S ∧ m.force = .ok P ∧
      ∀ (j : ℕ) (hj : j < freq.length),
        S j = ∑ i ∈ Finset.range n, (phasors freq[j] i (averaged 0 (fun _ => 0) rs)).outflow (radial (arcAngle n i)) * (2 * Real.pi * surf.radius / n) ∧
        (P j).x = ∑ i ∈ Finset.range n, (phasors freq[j] i (averaged 0 (fun _ => 0) rs)).traction (radial (arcAngle n i)) 0 * (2 * Real.pi * surf.radius / n) ∧
        (P j).y = ∑ i ∈ Finset.range n, (phasors freq[j] i (averaged 0 (fun _ => 0) rs)).traction (radial (arcAngle n i)) 1 * (2 * Real.pi * surf.radius / n) := by
  obtain ⟨m, h1, h2, -, h4, h5⟩ := cyl_recorded g name surf .all (Or.inl rfl) freq n hn l rs h
  obtain ⟨S, k1, k2⟩ := C41_cylinder m n _ _ h4
  obtain ⟨P, k3, k4⟩ := C42_cylinder_force m n _ _ (h5 rfl)
  refine ⟨m, S, P, h1, k1, k3, fun j hj => ⟨?_, ?_, ?_⟩⟩
  · rw [k2 j hj, h2]; simp only [lineField, getD_lt freq hj]
  · rw [(k4 j hj).1, h2]; simp only [lineField, getD_lt freq hj]
  · rw [(k4 j hj).2, h2]; simp only [lineField, getD_lt freq hj]

/-- A circle whose points are all inner nodes or between them finds its readings. -/
theorem C14_cylinder_monitor (g : Grid ℝ) (hg : 0 < g.dx) (f : Flds ℝ) (hf : FieldDims g f) (surf : CylSurf ℝ) (hr : 0 ≤ surf.radius)
    (h1 : g.dx * g.dx ≤ surf.center.x - surf.radius) (h2 : g.dx * g.dx ≤ surf.center.y - surf.radius)
    (h3 : surf.center.x + surf.radius ≤ (g.Nx - 1) * g.dx) (h4 : surf.center.y + surf.radius ≤ (g.Ny - 1) * g.dx) (n : ℕ) (t : ℝ) :
    ∃ r, Sees g surf n (f, t) r := by
  have key : ∀ i : ℕ, ∃ v : ℝ × ℝ × ℝ,
      let p : V2 ℝ := ⟨surf.center.x + surf.radius * Real.cos (arcAngle n i), surf.center.y + surf.radius * Real.sin (arcAngle n i)⟩
      f.interpolate g .Ez p = .ok v.1 ∧ f.interpolate g .Hx p = .ok v.2.1 ∧ f.interpolate g .Hy p = .ok v.2.2 := by
    intro i
    have c1 := Real.neg_one_le_cos (arcAngle n i)
    have c2 := Real.cos_le_one (arcAngle n i)
    have s1 := Real.neg_one_le_sin (arcAngle n i)
    have s2 := Real.sin_le_one (arcAngle n i)
    obtain ⟨⟨a, ha⟩, ⟨b, hb⟩, c, hc⟩ := reads_inner g hg f hf
      ⟨surf.center.x + surf.radius * Real.cos (arcAngle n i), surf.center.y + surf.radius * Real.sin (arcAngle n i)⟩
      (by rw [le_div_iff₀ hg]; simp only; nlinarith) (by rw [le_div_iff₀ hg]; simp only; nlinarith)
      (by rw [div_le_iff₀ hg]; push_cast; nlinarith) (by rw [div_le_iff₀ hg]; push_cast; nlinarith)
    exact ⟨(a, b, c), ha, hb, hc⟩
  choose v hv using key
  refine ⟨⟨t, fun i => (v i.toNat).1, fun x i => if x = "Hx" then (v i.toNat).2.1 else (v i.toNat).2.2⟩, rfl, fun i hi => ?_⟩
  have := hv i
  simpa using this

/-- a circle of radius 3 around the middle of `unitGrid` meets the conditions -/
example : ∃ r, Sees unitGrid ⟨⟨10, 10⟩, 3⟩ 19 (oneFlds, 1) r :=
  C14_cylinder_monitor unitGrid (by simp [unitGrid]) oneFlds oneFlds_dims _ (by norm_num) (by norm_num [unitGrid]) (by norm_num [unitGrid])
    (by norm_num [unitGrid]) (by norm_num [unitGrid]) 19 1

end Qbox.Props
