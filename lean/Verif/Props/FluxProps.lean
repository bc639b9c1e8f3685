import Verif.Model.Monitors
import Verif.Spec.FluxSpec
import Verif.Props.GridProps
import Mathlib.Algebra.BigOperators.Fin
import Mathlib.Algebra.BigOperators.Ring.Finset
import Mathlib.Tactic.Ring
import Mathlib.Tactic.LinearCombination

/-!
# C41, C42: flux, force and torque
-/

namespace Qbox.Props
open Qbox Scalar Spec

/-! ## Recorded data -/

/-- The first `n` entries of the accumulator are the complex numbers `z`, at the first `nf` frequencies. -/
def Carries (a : Acc ℝ ℤ) (n nf : ℕ) (z : ℕ → ℕ → ℂ) : Prop :=
  ∀ i < n, ∀ j < nf, a.re i j = (z i j).re ∧ a.im i j = (z i j).im

/-- A surface monitor from `a` to `b` has recorded the field `F i j` (point `i`, frequency `j`): the electric field and the magnetic
component along the surface. -/
def Recorded (m : SurfMon ℝ) (a b : V2 ℝ) (n nf : ℕ) (F : ℕ → ℕ → TM) : Prop :=
  ∃ aE aT, m.fourier.get "Ez" = .ok aE ∧ aE.pos.length = n ∧ Carries aE n nf (fun i j => (F i j).Ez) ∧
    m.fourier.get (if a.x = b.x then "Hy" else "Hx") = .ok aT ∧ Carries aT n nf (fun i j => if a.x = b.x then (F i j).Hy else (F i j).Hx)

/-- All three components have been recorded. -/
def RecordedAll (m : SurfMon ℝ) (a b : V2 ℝ) (n nf : ℕ) (F : ℕ → ℕ → TM) : Prop :=
  Recorded m a b n nf F ∧ ∃ aN, m.fourier.get (if a.x = b.x then "Hx" else "Hy") = .ok aN ∧
    Carries aN n nf (fun i j => if a.x = b.x then (F i j).Hx else (F i j).Hy)

/-! ## Helpers -/

theorem sumTo_eq (n : ℕ) (f : ℤ → ℝ) : sumTo (n : ℤ) f = ∑ i ∈ Finset.range n, f i := by
  induction n with
  | zero => simp [sumTo, intRange_empty]
  | succ n ih =>
    rw [Finset.sum_range_succ, ← ih]
    unfold sumTo
    rw [show ((n + 1 : ℕ) : ℤ) = (n : ℤ) + 1 by push_cast; rfl, intRange_succ (by omega), List.foldl_append]
    rfl

theorem outflow_eq (φ : TM) (n : V2 ℝ) : φ.outflow n =
    -(φ.Ez.re * φ.Hy.re + φ.Ez.im * φ.Hy.im) * n.x + (φ.Ez.re * φ.Hx.re + φ.Ez.im * φ.Hx.im) * n.y := by
  simp [TM.outflow, TM.poynting, TM.E, TM.H, crossProduct, Fin.sum_univ_three, up]

theorem traction_eq (φ : TM) (n : V2 ℝ) :
    φ.traction n 0 = (Complex.normSq φ.Hx - (Complex.normSq φ.Ez + (Complex.normSq φ.Hx + Complex.normSq φ.Hy)) / 2) * n.x
      + (φ.Hx.re * φ.Hy.re + φ.Hx.im * φ.Hy.im) * n.y ∧
    φ.traction n 1 = (φ.Hx.re * φ.Hy.re + φ.Hx.im * φ.Hy.im) * n.x
      + (Complex.normSq φ.Hy - (Complex.normSq φ.Ez + (Complex.normSq φ.Hx + Complex.normSq φ.Hy)) / 2) * n.y := by
  constructor
  · simp [TM.traction, TM.stress, TM.E, TM.H, Fin.sum_univ_three, up, Complex.normSq_apply]
  · simp [TM.traction, TM.stress, TM.E, TM.H, Fin.sum_univ_three, up, Complex.normSq_apply]; left; ring

theorem moment_eq (φ : TM) (n r : V2 ℝ) : φ.moment n r = r.x * φ.traction n 1 - r.y * φ.traction n 0 := by
  simp [TM.moment, crossProduct, up]

/-- What the constructor of a surface gives. -/
theorem surf_make (a b : V2 ℝ) (sg : Sgn) (s : Surf ℝ) (h : Surf.make a b sg = .ok s) :
    s.a = a ∧ s.b = b ∧ s.sg = sg ∧ (s.dim.x = 0 ↔ a.x = b.x) ∧ (a.x = b.x ∨ a.y = b.y) ∧
      s.normal = (if a.x = b.x then ⟨sg.toInt, 0⟩ else ⟨0, sg.toInt⟩) ∧
      (a ≠ b → s.tangent.cabs = if a.x = b.x then ⟨0, 1⟩ else ⟨1, 0⟩) := by
  unfold Surf.make at h
  simp only [eqb_real, V2.cabs, V2.sub_x, V2.sub_y, absS_real, abs_eq_zero, sub_eq_zero, decide_eq_true_eq] at h
  split_ifs at h with h1 h2
  · cases h
    refine ⟨rfl, rfl, rfl, by simp [sub_eq_zero], Or.inl h1, by simp [h1, V2.smul], fun hne => ?_⟩
    have hy : b.y - a.y ≠ 0 := fun e => hne (V2.ext h1 (by linarith))
    have hn : (b - a).norm = |b.y - a.y| := by
      simp only [V2.norm, V2.sqNorm, V2.sub_x, V2.sub_y, h1, sub_self, mul_zero, zero_add, sqrt_real, Real.sqrt_mul_self_eq_abs]
    simp only [V2.cabs, V2.sdiv_x, V2.sdiv_y, V2.sub_x, V2.sub_y, hn, h1, sub_self, zero_div, absS_real, abs_zero, abs_div, abs_abs, if_true,
      div_self (abs_ne_zero.mpr hy)]
  · cases h
    refine ⟨rfl, rfl, rfl, by simp [sub_eq_zero], Or.inr h2, by simp [h1, V2.smul], fun hne => ?_⟩
    have hx : b.x - a.x ≠ 0 := fun e => h1 (by linarith)
    have hn : (b - a).norm = |b.x - a.x| := by
      simp only [V2.norm, V2.sqNorm, V2.sub_x, V2.sub_y, h2, sub_self, mul_zero, add_zero, sqrt_real, Real.sqrt_mul_self_eq_abs]
    simp only [V2.cabs, V2.sdiv_x, V2.sdiv_y, V2.sub_x, V2.sub_y, hn, h2, h1, sub_self, zero_div, absS_real, abs_zero, abs_div, abs_abs, if_false,
      div_self (abs_ne_zero.mpr hx)]

theorem normal_cabs (s : Surf ℝ) (a b : V2 ℝ) (sg : Sgn) (h : s.normal = if a.x = b.x then ⟨sg.toInt, 0⟩ else ⟨0, sg.toInt⟩) :
    s.normal.cabs = if a.x = b.x then ⟨1, 0⟩ else ⟨0, 1⟩ := by
  rw [h]
  split_ifs <;> cases sg <;> simp [V2.cabs, Sgn.toInt]

/-! ## C41: flux -/

/-- **C41**: the flux of a surface monitor is the sum over its points of the Poynting vector `Re (E × H*)` dotted with the signed
normal, times the cell size; for every data, orientation and frequency. -/
theorem C41_flux (g : Grid ℝ) (m : SurfMon ℝ) (a b : V2 ℝ) (sg : Sgn) (hs : Surf.make a b sg = .ok m.surf) (n nf : ℕ) (F : ℕ → ℕ → TM)
    (h : Recorded m a b n nf F) :
    ∃ S, m.flux g = .ok S ∧ ∀ j < nf, S j = ∑ i ∈ Finset.range n, (F i j).outflow (lineNormal a b sg) * g.dx := by
  obtain ⟨-, -, h3, h4, -, -, -⟩ := surf_make a b sg m.surf hs
  obtain ⟨aE, aT, e1, e2, e3, t1, t2⟩ := h
  unfold SurfMon.flux SurfMon.Ht
  by_cases hv : a.x = b.x
  · simp only [hv, if_true] at t1 t2
    simp only [e1, Except.ok_bind, eqb_real, h4.mpr hv, decide_true, if_true, t1, Except.pure_eq]
    refine ⟨_, rfl, fun j hj => ?_⟩
    simp only [computeFlux, e2, sumTo_eq, h3, Finset.sum_mul]
    refine Finset.sum_congr rfl fun i hi => ?_
    rw [Finset.mem_range] at hi
    rw [outflow_eq, (e3 i hi j hj).1, (e3 i hi j hj).2, (t2 i hi j hj).1, (t2 i hi j hj).2]
    simp only [lineNormal, hv, if_true, ofInt_real, Int.cast_neg, Int.cast_one]
    ring
  · have hd : ¬ m.surf.dim.x = 0 := fun e => hv (h4.mp e)
    simp only [hv, if_false] at t1 t2
    simp only [e1, Except.ok_bind, eqb_real, hd, decide_false, Bool.false_eq_true, if_false, t1, Except.pure_eq]
    refine ⟨_, rfl, fun j hj => ?_⟩
    simp only [computeFlux, e2, sumTo_eq, h3, Finset.sum_mul]
    refine Finset.sum_congr rfl fun i hi => ?_
    rw [Finset.mem_range] at hi
    rw [outflow_eq, (e3 i hi j hj).1, (e3 i hi j hj).2, (t2 i hi j hj).1, (t2 i hi j hj).2]
    simp only [lineNormal, hv, if_false, ofInt_real, Int.cast_one]
    ring

/-- the opposite sign -/
def flip : Sgn → Sgn
  | .Positive => .Negative
  | .Negative => .Positive

theorem lineNormal_flip (a b : V2 ℝ) (sg : Sgn) : lineNormal a b (flip sg) = ⟨-(lineNormal a b sg).x, -(lineNormal a b sg).y⟩ := by
  unfold lineNormal
  split_ifs <;> cases sg <;> simp [flip, Sgn.toInt]

/-- **C41**: reversing the sign of a surface negates its flux. -/
theorem C41_reverse (g : Grid ℝ) (m m' : SurfMon ℝ) (a b : V2 ℝ) (sg : Sgn) (hs : Surf.make a b sg = .ok m.surf)
    (hs' : Surf.make a b (flip sg) = .ok m'.surf) (n nf : ℕ) (F : ℕ → ℕ → TM) (h : Recorded m a b n nf F) (h' : Recorded m' a b n nf F) :
    ∃ S S', m.flux g = .ok S ∧ m'.flux g = .ok S' ∧ ∀ j < nf, S' j = -S j := by
  obtain ⟨S, h1, h2⟩ := C41_flux g m a b sg hs n nf F h
  obtain ⟨S', h1', h2'⟩ := C41_flux g m' a b _ hs' n nf F h'
  refine ⟨S, S', h1, h1', fun j hj => ?_⟩
  rw [h2 j hj, h2' j hj, ← Finset.sum_neg_distrib]
  refine Finset.sum_congr rfl fun i _ => ?_
  rw [outflow_eq, outflow_eq, lineNormal_flip]
  ring

/-- **C41**: multiplying the fields by a complex number `c` multiplies the flux by `|c|²`. -/
theorem C41_scale (g : Grid ℝ) (m m' : SurfMon ℝ) (a b : V2 ℝ) (sg : Sgn) (hs : Surf.make a b sg = .ok m.surf)
    (hs' : Surf.make a b sg = .ok m'.surf) (n nf : ℕ) (F : ℕ → ℕ → TM) (c : ℂ) (h : Recorded m a b n nf F)
    (h' : Recorded m' a b n nf (fun i j => (F i j).smul c)) :
    ∃ S S', m.flux g = .ok S ∧ m'.flux g = .ok S' ∧ ∀ j < nf, S' j = Complex.normSq c * S j := by
  obtain ⟨S, h1, h2⟩ := C41_flux g m a b sg hs n nf F h
  obtain ⟨S', h1', h2'⟩ := C41_flux g m' a b _ hs' n nf _ h'
  refine ⟨S, S', h1, h1', fun j hj => ?_⟩
  rw [h2 j hj, h2' j hj, Finset.mul_sum]
  refine Finset.sum_congr rfl fun i _ => ?_
  rw [outflow_eq, outflow_eq]
  simp only [TM.smul, Complex.mul_re, Complex.mul_im, Complex.normSq_apply]
  ring

/-! ## Boxes -/

/-- The four faces of a box with corners `a` and `b`, in the order bottom, right, top, left: end points and sign. -/
def boxFace (a b : V2 ℝ) : Fin 4 → V2 ℝ × V2 ℝ × Sgn :=
  ![(a, ⟨b.x, a.y⟩, .Negative), (⟨b.x, a.y⟩, b, .Positive), (b, ⟨a.x, b.y⟩, .Positive), (⟨a.x, b.y⟩, a, .Negative)]

/-- The outward normals of the faces of a box. -/
def outward : Fin 4 → V2 ℝ := ![⟨0, -1⟩, ⟨1, 0⟩, ⟨0, 1⟩, ⟨-1, 0⟩]

/-- Number of points of the faces of a box that is `nx` by `ny` cells. -/
def faceCount (nx ny : ℕ) : Fin 4 → ℕ := ![nx, ny, nx, ny]

/-- The box monitor has recorded the fields `F f i j` (face, point, frequency). -/
def BoxRecorded (m : BoxMon ℝ) (a b : V2 ℝ) (nx ny nf : ℕ) (F : Fin 4 → ℕ → ℕ → TM) : Prop :=
  ∃ M : Fin 4 → SurfMon ℝ, m.faces = [M 0, M 1, M 2, M 3] ∧ ∀ f, Surf.make (boxFace a b f).1 (boxFace a b f).2.1 (boxFace a b f).2.2 = .ok (M f).surf ∧
    Recorded (M f) (boxFace a b f).1 (boxFace a b f).2.1 (faceCount nx ny f) nf (F f)

theorem boxFace_normal (a b : V2 ℝ) (hx : a.x ≠ b.x) (f : Fin 4) :
    lineNormal (boxFace a b f).1 (boxFace a b f).2.1 (boxFace a b f).2.2 = outward f := by
  fin_cases f <;> simp [boxFace, lineNormal, outward, Sgn.toInt, hx, Ne.symm hx]

theorem sumFaces_four {α β : Type} (add : β → β → β) (part : α → M (ℤ → β)) (M : Fin 4 → α) (S : Fin 4 → ℤ → β) (z : β)
    (h : ∀ f, part (M f) = .ok (S f)) : sumFaces add part [M 0, M 1, M 2, M 3] (fun _ => z) =
      .ok (fun j => add (add (add (add z (S 0 j)) (S 1 j)) (S 2 j)) (S 3 j)) := by
  simp only [sumFaces, h, Except.ok_bind]

/-- **C41**: the flux of a box monitor is the sum of the energy flows out of its four faces. -/
theorem C41_box (g : Grid ℝ) (m : BoxMon ℝ) (a b : V2 ℝ) (hx : a.x < b.x) (nx ny nf : ℕ) (F : Fin 4 → ℕ → ℕ → TM)
    (h : BoxRecorded m a b nx ny nf F) :
    ∃ S, m.flux g = .ok S ∧ ∀ j < nf, S j = ∑ f, ∑ i ∈ Finset.range (faceCount nx ny f), (F f i j).outflow (outward f) * g.dx := by
  obtain ⟨M, h1, h2⟩ := h
  have key : ∀ f, ∃ S, (M f).flux g = .ok S ∧ ∀ j < nf, S j = ∑ i ∈ Finset.range (faceCount nx ny f), (F f i j).outflow (outward f) * g.dx := by
    intro f
    obtain ⟨S, k1, k2⟩ := C41_flux g (M f) _ _ _ (h2 f).1 _ nf _ (h2 f).2
    rw [boxFace_normal a b hx.ne f] at k2
    exact ⟨S, k1, k2⟩
  choose S hS using key
  refine ⟨fun j => 0 + S 0 j + S 1 j + S 2 j + S 3 j, ?_, ?_⟩
  · unfold BoxMon.flux
    rw [h1]
    exact sumFaces_four _ _ M S 0 (fun f => (hS f).1)
  · intro j hj
    simp only [Fin.sum_univ_four, ← (hS _).2 j hj, zero_add]

/-- **C41**: the flux of a box vanishes when the recorded field is the same at all its points. -/
theorem C41_uniform (g : Grid ℝ) (m : BoxMon ℝ) (a b : V2 ℝ) (hx : a.x < b.x) (nx ny nf : ℕ) (u : ℕ → TM)
    (h : BoxRecorded m a b nx ny nf (fun _ _ j => u j)) : ∃ S, m.flux g = .ok S ∧ ∀ j < nf, S j = 0 := by
  obtain ⟨S, h1, h2⟩ := C41_box g m a b hx nx ny nf _ h
  refine ⟨S, h1, fun j hj => ?_⟩
  rw [h2 j hj]
  simp only [Fin.sum_univ_four, Finset.sum_const, Finset.card_range, outflow_eq, faceCount, outward, nsmul_eq_mul]
  simp
  ring

/-! ## C42: force and torque -/

/-- **C42**: the force on a surface is the sum of the stress tensor contracted with the signed normal, times the cell size. -/
theorem C42_force (g : Grid ℝ) (m : SurfMon ℝ) (a b : V2 ℝ) (sg : Sgn) (hab : a ≠ b) (hs : Surf.make a b sg = .ok m.surf) (n nf : ℕ)
    (F : ℕ → ℕ → TM) (h : RecordedAll m a b n nf F) :
    ∃ S, m.partialForce g = .ok S ∧ ∀ j < nf,
      (S j).x = ∑ i ∈ Finset.range n, (F i j).traction (lineNormal a b sg) 0 * g.dx ∧
      (S j).y = ∑ i ∈ Finset.range n, (F i j).traction (lineNormal a b sg) 1 * g.dx := by
  obtain ⟨-, -, h3, h4, -, h5, h6⟩ := surf_make a b sg m.surf hs
  have h7 := normal_cabs m.surf a b sg h5
  have h6 := h6 hab
  obtain ⟨⟨aE, aT, e1, e2, e3, t1, t2⟩, aN, n1, n2⟩ := h
  unfold SurfMon.partialForce SurfMon.Ht SurfMon.Hn
  by_cases hv : a.x = b.x
  · simp only [hv, if_true] at t1 t2 n1 n2 h6 h7
    simp only [e1, Except.ok_bind, eqb_real, h4.mpr hv, decide_true, if_true, t1, n1, Except.pure_eq, h6, h7]
    refine ⟨_, rfl, fun j hj => ?_⟩
    simp only [computeForce, e2, sumTo_eq, h3]
    constructor <;>
    · refine Finset.sum_congr rfl fun i hi => ?_
      rw [Finset.mem_range] at hi
      simp only [traction_eq, traction, Acc.cx, (e3 i hi j hj).1, (e3 i hi j hj).2, (t2 i hi j hj).1, (t2 i hi j hj).2, (n2 i hi j hj).1, (n2 i hi j hj).2,
        lineNormal, hv, if_true, ofInt_real, half_real, Complex.normSq_apply]
      ring
  · have hd : ¬ m.surf.dim.x = 0 := fun e => hv (h4.mp e)
    simp only [hv, if_false] at t1 t2 n1 n2 h6 h7
    simp only [e1, Except.ok_bind, eqb_real, hd, decide_false, Bool.false_eq_true, if_false, t1, n1, Except.pure_eq, h6, h7]
    refine ⟨_, rfl, fun j hj => ?_⟩
    simp only [computeForce, e2, sumTo_eq, h3]
    constructor <;>
    · refine Finset.sum_congr rfl fun i hi => ?_
      rw [Finset.mem_range] at hi
      simp only [traction_eq, traction, Acc.cx, (e3 i hi j hj).1, (e3 i hi j hj).2, (t2 i hi j hj).1, (t2 i hi j hj).2, (n2 i hi j hj).1, (n2 i hi j hj).2,
        lineNormal, hv, if_false, ofInt_real, half_real, Complex.normSq_apply]
      ring

/-- The point number `i` of a surface from `a` to `b`: the middle of the cell number `i`. -/
noncomputable def midPoint (a b : V2 ℝ) (dx : ℝ) (i : ℕ) : V2 ℝ :=
  let L := Real.sqrt ((b.x - a.x) ^ 2 + (b.y - a.y) ^ 2)
  ⟨a.x + (i + 1 / 2) * dx * ((b.x - a.x) / L), a.y + (i + 1 / 2) * dx * ((b.y - a.y) / L)⟩

/-- **C42**: the torque on a surface about `c` is the sum of the moments of the tractions at the middles of the cells. -/
theorem C42_torque (g : Grid ℝ) (m : SurfMon ℝ) (a b c : V2 ℝ) (sg : Sgn) (hab : a ≠ b) (hs : Surf.make a b sg = .ok m.surf) (n nf : ℕ)
    (F : ℕ → ℕ → TM) (h : RecordedAll m a b n nf F) :
    ∃ S, m.partialTorque g c = .ok S ∧ ∀ j < nf,
      S j = ∑ i ∈ Finset.range n, (F i j).moment (lineNormal a b sg) (midPoint a b g.dx i - c) * g.dx := by
  have ht : m.surf.tangent = ⟨(b.x - a.x) / Real.sqrt ((b.x - a.x) ^ 2 + (b.y - a.y) ^ 2),
      (b.y - a.y) / Real.sqrt ((b.x - a.x) ^ 2 + (b.y - a.y) ^ 2)⟩ := by
    unfold Surf.make at hs
    simp only at hs
    split_ifs at hs <;>
    · rw [← Except.ok.inj hs]
      simp only [V2.sdiv, V2.norm, V2.sqNorm, V2.sub_x, V2.sub_y, sqrt_real, pow_two]
  obtain ⟨h1, -, h3, h4, -, h5, h6⟩ := surf_make a b sg m.surf hs
  have h7 := normal_cabs m.surf a b sg h5
  have h6 := h6 hab
  obtain ⟨⟨aE, aT, e1, e2, e3, t1, t2⟩, aN, n1, n2⟩ := h
  unfold SurfMon.partialTorque SurfMon.Ht SurfMon.Hn
  by_cases hv : a.x = b.x
  · simp only [hv, if_true] at t1 t2 n1 n2 h6 h7
    simp only [e1, Except.ok_bind, eqb_real, h4.mpr hv, decide_true, if_true, t1, n1, Except.pure_eq, h6, h7]
    refine ⟨_, rfl, fun j hj => ?_⟩
    simp only [computeTorque, e2, sumTo_eq, h3, h1, ht]
    refine Finset.sum_congr rfl fun i hi => ?_
    rw [Finset.mem_range] at hi
    simp only [moment_eq, traction_eq, traction, Acc.cx, (e3 i hi j hj).1, (e3 i hi j hj).2, (t2 i hi j hj).1, (t2 i hi j hj).2, (n2 i hi j hj).1,
      (n2 i hi j hj).2, lineNormal, hv, if_true, ofInt_real, half_real, Complex.normSq_apply, midPoint, V2.add_x, V2.add_y, V2.sub_x, V2.sub_y,
      V2.smul_x, V2.smul_y, Int.cast_natCast]
    ring
  · have hd : ¬ m.surf.dim.x = 0 := fun e => hv (h4.mp e)
    simp only [hv, if_false] at t1 t2 n1 n2 h6 h7
    simp only [e1, Except.ok_bind, eqb_real, hd, decide_false, Bool.false_eq_true, if_false, t1, n1, Except.pure_eq, h6, h7]
    refine ⟨_, rfl, fun j hj => ?_⟩
    simp only [computeTorque, e2, sumTo_eq, h3, h1, ht]
    refine Finset.sum_congr rfl fun i hi => ?_
    rw [Finset.mem_range] at hi
    simp only [moment_eq, traction_eq, traction, Acc.cx, (e3 i hi j hj).1, (e3 i hi j hj).2, (t2 i hi j hj).1, (t2 i hi j hj).2, (n2 i hi j hj).1,
      (n2 i hi j hj).2, lineNormal, hv, if_false, ofInt_real, half_real, Complex.normSq_apply, midPoint, V2.add_x, V2.add_y, V2.sub_x, V2.sub_y,
      V2.smul_x, V2.smul_y, Int.cast_natCast]
    ring

/-- **C42**: reversing the sign of a surface negates force and torque. -/
theorem C42_reverse (g : Grid ℝ) (m m' : SurfMon ℝ) (a b c : V2 ℝ) (sg : Sgn) (hab : a ≠ b) (hs : Surf.make a b sg = .ok m.surf)
    (hs' : Surf.make a b (flip sg) = .ok m'.surf) (n nf : ℕ) (F : ℕ → ℕ → TM) (h : RecordedAll m a b n nf F) (h' : RecordedAll m' a b n nf F) :
    ∃ S S' T T', m.partialForce g = .ok S ∧ m'.partialForce g = .ok S' ∧ m.partialTorque g c = .ok T ∧ m'.partialTorque g c = .ok T' ∧
      ∀ j < nf, (S' j).x = -(S j).x ∧ (S' j).y = -(S j).y ∧ T' j = -T j := by
  obtain ⟨S, h1, h2⟩ := C42_force g m a b sg hab hs n nf F h
  obtain ⟨S', h1', h2'⟩ := C42_force g m' a b _ hab hs' n nf F h'
  obtain ⟨T, h3, h4⟩ := C42_torque g m a b c sg hab hs n nf F h
  obtain ⟨T', h3', h4'⟩ := C42_torque g m' a b c _ hab hs' n nf F h'
  refine ⟨S, S', T, T', h1, h1', h3, h3', fun j hj => ⟨?_, ?_, ?_⟩⟩
  · rw [(h2 j hj).1, (h2' j hj).1, ← Finset.sum_neg_distrib]
    refine Finset.sum_congr rfl fun i _ => ?_
    rw [(traction_eq _ _).1, (traction_eq _ _).1, lineNormal_flip]; ring
  · rw [(h2 j hj).2, (h2' j hj).2, ← Finset.sum_neg_distrib]
    refine Finset.sum_congr rfl fun i _ => ?_
    rw [(traction_eq _ _).2, (traction_eq _ _).2, lineNormal_flip]; ring
  · rw [h4 j hj, h4' j hj, ← Finset.sum_neg_distrib]
    refine Finset.sum_congr rfl fun i _ => ?_
    simp only [moment_eq, traction_eq, lineNormal_flip]; ring

/-- The box monitor has recorded all components of the fields `F f i j` (face, point, frequency). -/
def BoxRecordedAll (m : BoxMon ℝ) (a b : V2 ℝ) (nx ny nf : ℕ) (F : Fin 4 → ℕ → ℕ → TM) : Prop :=
  m.vol = Vol.make a b ∧ ∃ M : Fin 4 → SurfMon ℝ, m.faces = [M 0, M 1, M 2, M 3] ∧
    ∀ f, Surf.make (boxFace a b f).1 (boxFace a b f).2.1 (boxFace a b f).2.2 = .ok (M f).surf ∧
      RecordedAll (M f) (boxFace a b f).1 (boxFace a b f).2.1 (faceCount nx ny f) nf (F f)

theorem boxFace_ne (a b : V2 ℝ) (hx : a.x < b.x) (hy : a.y < b.y) (f : Fin 4) : (boxFace a b f).1 ≠ (boxFace a b f).2.1 := by
  intro h
  have h1 := congrArg V2.x h
  have h2 := congrArg V2.y h
  fin_cases f <;> simp [boxFace] at h1 h2 <;> linarith

/-- **C42**: the force on a box is the sum over its four faces of the traction on the outward normal. -/
theorem C42_box_force (g : Grid ℝ) (m : BoxMon ℝ) (a b : V2 ℝ) (hx : a.x < b.x) (hy : a.y < b.y) (nx ny nf : ℕ) (F : Fin 4 → ℕ → ℕ → TM)
    (h : BoxRecordedAll m a b nx ny nf F) :
    ∃ S, m.force g = .ok S ∧ ∀ j < nf,
      (S j).x = ∑ f, ∑ i ∈ Finset.range (faceCount nx ny f), (F f i j).traction (outward f) 0 * g.dx ∧
      (S j).y = ∑ f, ∑ i ∈ Finset.range (faceCount nx ny f), (F f i j).traction (outward f) 1 * g.dx := by
  obtain ⟨-, M, h1, h2⟩ := h
  have key : ∀ f, ∃ S, (M f).partialForce g = .ok S ∧ ∀ j < nf,
      (S j).x = ∑ i ∈ Finset.range (faceCount nx ny f), (F f i j).traction (outward f) 0 * g.dx ∧
      (S j).y = ∑ i ∈ Finset.range (faceCount nx ny f), (F f i j).traction (outward f) 1 * g.dx := by
    intro f
    obtain ⟨S, k1, k2⟩ := C42_force g (M f) _ _ _ (boxFace_ne a b hx hy f) (h2 f).1 _ nf _ (h2 f).2
    rw [boxFace_normal a b hx.ne f] at k2
    exact ⟨S, k1, k2⟩
  choose S hS using key
  refine ⟨fun j => ⟨0, 0⟩ + S 0 j + S 1 j + S 2 j + S 3 j, ?_, ?_⟩
  · unfold BoxMon.force
    rw [h1]
    exact sumFaces_four _ _ M S ⟨0, 0⟩ (fun f => (hS f).1)
  · intro j hj
    constructor
    · simp only [Fin.sum_univ_four, ← ((hS _).2 j hj).1, V2.add_x, zero_add]
    · simp only [Fin.sum_univ_four, ← ((hS _).2 j hj).2, V2.add_y, zero_add]

/-- **C42**: the force on a box in a uniform field vanishes. -/
theorem C42_uniform_force (g : Grid ℝ) (m : BoxMon ℝ) (a b : V2 ℝ) (hx : a.x < b.x) (hy : a.y < b.y) (nx ny nf : ℕ) (u : ℕ → TM)
    (h : BoxRecordedAll m a b nx ny nf (fun _ _ j => u j)) : ∃ S, m.force g = .ok S ∧ ∀ j < nf, S j = ⟨0, 0⟩ := by
  obtain ⟨S, h1, h2⟩ := C42_box_force g m a b hx hy nx ny nf _ h
  refine ⟨S, h1, fun j hj => V2.ext ?_ ?_⟩
  · rw [(h2 j hj).1]
    simp only [Fin.sum_univ_four, Finset.sum_const, Finset.card_range, traction_eq, faceCount, outward, nsmul_eq_mul]
    simp
    ring
  · rw [(h2 j hj).2]
    simp only [Fin.sum_univ_four, Finset.sum_const, Finset.card_range, traction_eq, faceCount, outward, nsmul_eq_mul]
    simp
    ring

/-- **C42**: the torque on a box is the sum over its four faces of the moments about the centre of the box. -/
theorem C42_box_torque (g : Grid ℝ) (m : BoxMon ℝ) (a b : V2 ℝ) (hx : a.x < b.x) (hy : a.y < b.y) (nx ny nf : ℕ) (F : Fin 4 → ℕ → ℕ → TM)
    (h : BoxRecordedAll m a b nx ny nf F) :
    ∃ T, m.torque g = .ok T ∧ ∀ j < nf,
      T j = ∑ f, ∑ i ∈ Finset.range (faceCount nx ny f),
        (F f i j).moment (outward f) (midPoint (boxFace a b f).1 (boxFace a b f).2.1 g.dx i - ⟨(a.x + b.x) / 2, (a.y + b.y) / 2⟩) * g.dx := by
  obtain ⟨h0, M, h1, h2⟩ := h
  have hc : m.vol.center = ⟨(a.x + b.x) / 2, (a.y + b.y) / 2⟩ := by
    rw [h0]; simp [Vol.center, Vol.make, V2.sdiv]
  have key : ∀ f, ∃ T, (M f).partialTorque g m.vol.center = .ok T ∧ ∀ j < nf,
      T j = ∑ i ∈ Finset.range (faceCount nx ny f),
        (F f i j).moment (outward f) (midPoint (boxFace a b f).1 (boxFace a b f).2.1 g.dx i - ⟨(a.x + b.x) / 2, (a.y + b.y) / 2⟩) * g.dx := by
    intro f
    obtain ⟨T, k1, k2⟩ := C42_torque g (M f) _ _ m.vol.center _ (boxFace_ne a b hx hy f) (h2 f).1 _ nf _ (h2 f).2
    rw [boxFace_normal a b hx.ne f, hc] at k2
    exact ⟨T, k1, k2⟩
  choose T hT using key
  refine ⟨fun j => 0 + T 0 j + T 1 j + T 2 j + T 3 j, ?_, ?_⟩
  · unfold BoxMon.torque
    rw [h1]
    exact sumFaces_four _ _ M T 0 (fun f => (hT f).1)
  · intro j hj
    simp only [Fin.sum_univ_four, ← (hT _).2 j hj, zero_add]

theorem sum_affine {f : ℕ → ℝ} (A B : ℝ) (n : ℕ) (h : ∀ i, f i = A + B * ((i : ℝ) + 1 / 2)) :
    ∑ i ∈ Finset.range n, f i = n * A + B * (n ^ 2 / 2) := by
  induction n with
  | zero => simp
  | succ n ih => rw [Finset.sum_range_succ, ih, h]; push_cast; ring

/-- **C42**: the torque on a box in a uniform field: exact value. It vanishes when the box is a whole number of cells wide and high. -/
theorem C42_uniform_torque (g : Grid ℝ) (m : BoxMon ℝ) (a b : V2 ℝ) (hx : a.x < b.x) (hy : a.y < b.y) (nx ny nf : ℕ) (u : ℕ → TM)
    (h : BoxRecordedAll m a b nx ny nf (fun _ _ j => u j)) : ∃ T, m.torque g = .ok T ∧ ∀ j < nf,
      T j = g.dx * (nx * (b.x - a.x - nx * g.dx) * (u j).stress 1 1 + ny * (b.y - a.y - ny * g.dx) * (u j).stress 0 0
        + (ny * (b.x - a.x) - nx * (b.y - a.y)) * (u j).stress 0 1) := by
  obtain ⟨T, h1, h2⟩ := C42_box_torque g m a b hx hy nx ny nf _ h
  refine ⟨T, h1, fun j hj => ?_⟩
  rw [h2 j hj]
  have dx : Real.sqrt ((b.x - a.x) ^ 2) = b.x - a.x := Real.sqrt_sq (by linarith)
  have dy : Real.sqrt ((b.y - a.y) ^ 2) = b.y - a.y := Real.sqrt_sq (by linarith)
  have dx' : Real.sqrt ((a.x - b.x) ^ 2) = b.x - a.x := by rw [Real.sqrt_sq_eq_abs, abs_of_neg (by linarith)]; ring
  have dy' : Real.sqrt ((a.y - b.y) ^ 2) = b.y - a.y := by rw [Real.sqrt_sq_eq_abs, abs_of_neg (by linarith)]; ring
  have qx : (b.x - a.x) / (b.x - a.x) = 1 := div_self (by linarith)
  have qy : (b.y - a.y) / (b.y - a.y) = 1 := div_self (by linarith)
  have qx' : (a.x - b.x) / (b.x - a.x) = -1 := by rw [div_eq_iff (by linarith)]; ring
  have qy' : (a.y - b.y) / (b.y - a.y) = -1 := by rw [div_eq_iff (by linarith)]; ring
  have s00 : (u j).stress 0 0 = Complex.normSq (u j).Hx - (Complex.normSq (u j).Ez + (Complex.normSq (u j).Hx + Complex.normSq (u j).Hy)) / 2 := by
    have := (traction_eq (u j) ⟨1, 0⟩).1
    simpa [TM.traction, Fin.sum_univ_three, up] using this
  have s11 : (u j).stress 1 1 = Complex.normSq (u j).Hy - (Complex.normSq (u j).Ez + (Complex.normSq (u j).Hx + Complex.normSq (u j).Hy)) / 2 := by
    have := (traction_eq (u j) ⟨0, 1⟩).2
    simpa [TM.traction, Fin.sum_univ_three, up] using this
  have s01 : (u j).stress 0 1 = (u j).Hx.re * (u j).Hy.re + (u j).Hx.im * (u j).Hy.im := by
    have := (traction_eq (u j) ⟨0, 1⟩).1
    simpa [TM.traction, Fin.sum_univ_three, up] using this
  have tr : ∀ n : V2 ℝ, (u j).traction n 0 = (u j).stress 0 0 * n.x + (u j).stress 0 1 * n.y ∧
      (u j).traction n 1 = (u j).stress 0 1 * n.x + (u j).stress 1 1 * n.y := fun n => by
    rw [s00, s11, s01]; exact traction_eq (u j) n
  generalize (u j).stress 0 0 = X at tr
  generalize (u j).stress 1 1 = Y at tr
  generalize (u j).stress 0 1 = Z at tr
  have f0 : ∀ i : ℕ, (u j).moment (outward 0) (midPoint (boxFace a b 0).1 (boxFace a b 0).2.1 g.dx i - ⟨(a.x + b.x) / 2, (a.y + b.y) / 2⟩) * g.dx =
      ((b.x - a.x) / 2 * Y - (b.y - a.y) / 2 * Z) * g.dx + (-(g.dx * Y * g.dx)) * ((i : ℝ) + 1 / 2) := by
    intro i
    simp only [moment_eq, tr, outward, boxFace, midPoint, Matrix.cons_val_zero, V2.sub_x, V2.sub_y, sub_self, zero_pow (two_ne_zero), add_zero,
      dx, qx, zero_div]
    ring
  have f1 : ∀ i : ℕ, (u j).moment (outward 1) (midPoint (boxFace a b 1).1 (boxFace a b 1).2.1 g.dx i - ⟨(a.x + b.x) / 2, (a.y + b.y) / 2⟩) * g.dx =
      ((b.x - a.x) / 2 * Z + (b.y - a.y) / 2 * X) * g.dx + (-(g.dx * X * g.dx)) * ((i : ℝ) + 1 / 2) := by
    intro i
    simp only [moment_eq, tr, outward, boxFace, midPoint, Matrix.cons_val_one, Matrix.cons_val_zero, V2.sub_x, V2.sub_y, sub_self,
      zero_pow (two_ne_zero), zero_add, dy, qy, zero_div]
    ring
  have f2 : ∀ i : ℕ, (u j).moment (outward 2) (midPoint (boxFace a b 2).1 (boxFace a b 2).2.1 g.dx i - ⟨(a.x + b.x) / 2, (a.y + b.y) / 2⟩) * g.dx =
      ((b.x - a.x) / 2 * Y - (b.y - a.y) / 2 * Z) * g.dx + (-(g.dx * Y * g.dx)) * ((i : ℝ) + 1 / 2) := by
    intro i
    simp only [moment_eq, tr, outward, boxFace, midPoint, Matrix.cons_val, V2.sub_x, V2.sub_y, sub_self, zero_pow (two_ne_zero), add_zero,
      dx', qx', zero_div]
    ring
  have f3 : ∀ i : ℕ, (u j).moment (outward 3) (midPoint (boxFace a b 3).1 (boxFace a b 3).2.1 g.dx i - ⟨(a.x + b.x) / 2, (a.y + b.y) / 2⟩) * g.dx =
      ((b.x - a.x) / 2 * Z + (b.y - a.y) / 2 * X) * g.dx + (-(g.dx * X * g.dx)) * ((i : ℝ) + 1 / 2) := by
    intro i
    simp only [moment_eq, tr, outward, boxFace, midPoint, Matrix.cons_val, V2.sub_x, V2.sub_y, sub_self, zero_pow (two_ne_zero), zero_add,
      dy', qy', zero_div]
    ring
  rw [Fin.sum_univ_four, sum_affine _ _ _ f0, sum_affine _ _ _ f1, sum_affine _ _ _ f2, sum_affine _ _ _ f3]
  simp only [faceCount, Matrix.cons_val]
  ring

end Qbox.Props
