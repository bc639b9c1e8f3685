import Verif.Props.FluxProps
import Verif.Props.InterpProps
import Verif.Lemmas.SurfRecord
import Verif.Spec.SpectrumSpec

/-!
# C41, C42 for monitors that have watched any history of fields
-/

namespace Qbox.Props
open Qbox Scalar Spec

theorem spectrum_re (f : ℝ) (x : String) (i : ℤ) : ∀ (l : List (Sample ℝ ℤ)) (a : ℝ), cosSum f x i a l = a + (fourierSum f x i l).re
  | [], a => by simp [cosSum, fourierSum]
  | s :: l, a => by
    have ih := spectrum_re f x i l (a + s.v x i * Real.cos (2 * Real.pi * f * s.t))
    simp only [cosSum, List.foldl_cons, ofInt_real, cos_real, pi_real, Int.cast_ofNat] at ih ⊢
    rw [ih]
    simp only [fourierSum, List.map_cons, List.sum_cons, Complex.add_re, Complex.mul_re, Complex.ofReal_re, Complex.ofReal_im]
    have : Complex.exp (2 * Real.pi * f * s.t * Complex.I) = Complex.exp (((2 * Real.pi * f * s.t : ℝ) : ℂ) * Complex.I) := by push_cast; rfl
    rw [this, Complex.exp_ofReal_mul_I_re]
    ring

theorem spectrum_im (f : ℝ) (x : String) (i : ℤ) : ∀ (l : List (Sample ℝ ℤ)) (a : ℝ), sinSum f x i a l = a + (fourierSum f x i l).im
  | [], a => by simp [sinSum, fourierSum]
  | s :: l, a => by
    have ih := spectrum_im f x i l (a + s.v x i * Real.sin (2 * Real.pi * f * s.t))
    simp only [sinSum, List.foldl_cons, ofInt_real, sin_real, pi_real, Int.cast_ofNat] at ih ⊢
    rw [ih]
    simp only [fourierSum, List.map_cons, List.sum_cons, Complex.add_im, Complex.mul_im, Complex.ofReal_re, Complex.ofReal_im]
    have : Complex.exp (2 * Real.pi * f * s.t * Complex.I) = Complex.exp (((2 * Real.pi * f * s.t : ℝ) : ℂ) * Complex.I) := by push_cast; rfl
    rw [this, Complex.exp_ofReal_mul_I_im]
    ring

theorem holds_carries (a : Acc ℝ ℤ) (freq : List ℝ) (x : String) (l : List (Sample ℝ ℤ)) (n : ℕ) (hp : a.pos = intRange 0 n)
    (h : Holds a freq x l) (z : ℕ → ℕ → ℂ) (hz : ∀ i < n, ∀ (j : ℕ) (hj : j < freq.length), z i j = fourierSum freq[j] x i l) :
    Carries a n freq.length z := by
  intro i hi j hj
  have hm : (i : ℤ) ∈ a.pos := by rw [hp, mem_intRange]; omega
  rw [h.re i hm j hj, h.im i hm j hj, spectrum_re, spectrum_im, hz i hi j hj]
  simp

/-- The field recorded along a line: point `i`, frequency number `j`. -/
noncomputable def lineField (freq : List ℝ) (l : List (Sample ℝ ℤ)) (i j : ℕ) : TM := phasors (freq.getD j 0) i l

theorem getD_lt (freq : List ℝ) {j : ℕ} (hj : j < freq.length) : freq.getD j 0 = freq[j] := by
  simp [List.getD, List.getElem?_eq_getElem hj]

/-- The grid version of an axis-parallel surface. -/
theorem toGridS_make (g : Grid ℝ) (a b : V2 ℝ) (sg : Sgn) (s : Surf ℝ) (hs : Surf.make a b sg = .ok s) (hne : g.toGrid a ≠ g.toGrid b) :
    ∃ is, g.toGridS s = .ok is ∧ is.dim.inorm = |(g.toGrid a).x - (g.toGrid b).x| + |(g.toGrid a).y - (g.toGrid b).y| ∧
      is.dim = ⟨|(g.toGrid a).x - (g.toGrid b).x|, |(g.toGrid a).y - (g.toGrid b).y|⟩ ∧ is.a = g.toGrid a := by
  obtain ⟨h1, h2, h3, -, h5, -, -⟩ := surf_make a b sg s hs
  have hax : (g.toGrid a).x = (g.toGrid b).x ∨ (g.toGrid a).y = (g.toGrid b).y := by
    rcases h5 with h | h
    · left; simp [Grid.toGrid, h]
    · right; simp [Grid.toGrid, h]
  have hne' : ((g.toGrid a).x = (g.toGrid b).x ∧ (g.toGrid a).y ≠ (g.toGrid b).y) ∨
      ((g.toGrid a).x ≠ (g.toGrid b).x ∧ (g.toGrid a).y = (g.toGrid b).y) := by
    have : ¬ ((g.toGrid a).x = (g.toGrid b).x ∧ (g.toGrid a).y = (g.toGrid b).y) := by
      rintro ⟨u, v⟩; exact hne (V2.ext u v)
    tauto
  obtain ⟨is, k1, k2, -, -, k3, k4, -⟩ := (C05_isurface_outcome (g.toGrid a) (g.toGrid b) sg).2.2 hne'
  refine ⟨is, ?_, k4, k3, k2⟩
  unfold Grid.toGridS
  rw [h1, h2, h3]
  exact k1

/-- Number of cells between two points on a common grid line. -/
noncomputable def cells (g : Grid ℝ) (a b : V2 ℝ) : ℕ := ((g.toGrid a).x - (g.toGrid b).x).natAbs + ((g.toGrid a).y - (g.toGrid b).y).natAbs

/-- A surface monitor that has watched the fields `l`, in which it found `ss`, has recorded the spectra of the averaged samples. -/
theorem surf_recorded (g : Grid ℝ) (name : String) (a b : V2 ℝ) (sg : Sgn) (s : Surf ℝ) (hs : Surf.make a b sg = .ok s)
    (hne : g.toGrid a ≠ g.toGrid b) (tag : DftTag) (ht : tag = .all ∨ tag = .tangent) (freq : List ℝ)
    (l : List (Flds ℝ × ℝ)) (ss : List (Snap ℝ)) (is : ISurf) (hi : g.toGridS s = .ok is)
    (h : List.Forall₂ (fun q r => Finds (cells g a b) (surfKeys tag is) (surfReads g s is q) r) l ss) :
    ∃ m1 m, (SurfMon.make name s tag freq).setF g = .ok m1 ∧ SurfMon.runs g l m1 = .ok m ∧ m.surf = s ∧ m.fourier.freq = freq ∧
      m.length = cells g a b ∧
      Recorded m a b (cells g a b) freq.length (lineField freq (averaged 0 (fun _ => 0) ss)) ∧
      (tag = .all → RecordedAll m a b (cells g a b) freq.length (lineField freq (averaged 0 (fun _ => 0) ss))) := by
  obtain ⟨is', k1, k2, k3, -⟩ := toGridS_make g a b sg s hs hne
  rw [hi] at k1
  cases k1
  have hn : is.dim.inorm = (cells g a b : ℤ) := by
    rw [k2]; simp only [cells]; push_cast; rfl
  have hd : is.dim.x = 0 ↔ a.x = b.x := by
    obtain ⟨-, -, -, -, h5, -, -⟩ := surf_make a b sg s hs
    rw [k3]
    simp only [abs_eq_zero, sub_eq_zero]
    constructor
    · intro h
      rcases h5 with h' | h'
      · exact h'
      · exact absurd (V2.ext h (by simp [Grid.toGrid, h'])) hne
    · intro h; simp [Grid.toGrid, h]
  obtain ⟨m1, m, h1, h2, h3, h4, -, -, h5, h6⟩ := surf_record g name s tag freq is hi _ hn l ss h
  have hE : "Ez" ∈ surfKeys tag is := by
    rcases ht with rfl | rfl
    · simp [surfKeys]
    · by_cases hv : is.dim.x = 0 <;> simp [surfKeys, hv]
  have hT : (if a.x = b.x then "Hy" else "Hx") ∈ surfKeys tag is := by
    rcases ht with rfl | rfl
    · split_ifs <;> simp [surfKeys]
    · by_cases hv : a.x = b.x
      · simp [surfKeys, hd.mpr hv, hv]
      · have : ¬ is.dim.x = 0 := fun e => hv (hd.mp e)
        simp [surfKeys, this, hv]
  obtain ⟨aE, e1, e2, e3⟩ := h6 _ hE
  obtain ⟨aT, t1, t2, t3⟩ := h6 _ hT
  have R : Recorded m a b (cells g a b) freq.length (lineField freq (averaged 0 (fun _ => 0) ss)) := by
    refine ⟨aE, aT, e1, by rw [e2, length_intRange]; simp, ?_, t1, ?_⟩
    · exact holds_carries aE freq _ _ _ e2 e3 _ (fun i _ j hj => by simp only [lineField, phasors, getD_lt freq hj])
    · refine holds_carries aT freq _ _ _ t2 t3 _ (fun i _ j hj => ?_)
      split_ifs <;> simp only [lineField, phasors, getD_lt freq hj]
  refine ⟨m1, m, h1, h2, h3, h5, h4, R, fun hall => ⟨R, ?_⟩⟩
  subst hall
  obtain ⟨aN, n1, n2, n3⟩ := h6 (if a.x = b.x then "Hx" else "Hy") (by split_ifs <;> simp [surfKeys])
  refine ⟨aN, n1, ?_⟩
  refine holds_carries aN freq _ _ _ n2 n3 _ (fun i _ j hj => ?_)
  split_ifs <;> simp only [lineField, phasors, getD_lt freq hj]

/-- **C41** for a monitor that has watched any history of fields: its flux is the sum over its points of the Poynting vector of the
spectra of the fields it found (electric field averaged with the previous update), dotted with the signed normal, times the cell
size. -/
theorem C41_flux_history (g : Grid ℝ) (name : String) (a b : V2 ℝ) (sg : Sgn) (s : Surf ℝ) (hs : Surf.make a b sg = .ok s)
    (hne : g.toGrid a ≠ g.toGrid b) (tag : DftTag) (ht : tag = .all ∨ tag = .tangent) (freq : List ℝ)
    (l : List (Flds ℝ × ℝ)) (ss : List (Snap ℝ)) (is : ISurf) (hi : g.toGridS s = .ok is)
    (h : List.Forall₂ (fun q r => Finds (cells g a b) (surfKeys tag is) (surfReads g s is q) r) l ss) :
    ∃ m1 m S, (SurfMon.make name s tag freq).setF g = .ok m1 ∧ SurfMon.runs g l m1 = .ok m ∧ m.flux g = .ok S ∧
      ∀ (j : ℕ) (hj : j < freq.length), S j = ∑ i ∈ Finset.range (cells g a b),
        (phasors freq[j] i (averaged 0 (fun _ => 0) ss)).outflow (lineNormal a b sg) * g.dx := by
  obtain ⟨m1, m, h1, h2, h3, -, -, h4, -⟩ := surf_recorded g name a b sg s hs hne tag ht freq l ss is hi h
  obtain ⟨S, k1, k2⟩ := C41_flux g m a b sg (by rw [h3]; exact hs) _ _ _ h4
  refine ⟨m1, m, S, h1, h2, k1, fun j hj => ?_⟩
  rw [k2 j hj]
  simp only [lineField, getD_lt freq hj]

/-- **C42** for a monitor that has watched any history of fields. -/
theorem C42_force_history (g : Grid ℝ) (name : String) (a b c : V2 ℝ) (sg : Sgn) (s : Surf ℝ) (hs : Surf.make a b sg = .ok s)
    (hne : g.toGrid a ≠ g.toGrid b) (freq : List ℝ) (l : List (Flds ℝ × ℝ)) (ss : List (Snap ℝ)) (is : ISurf) (hi : g.toGridS s = .ok is)
    (h : List.Forall₂ (fun q r => Finds (cells g a b) (surfKeys .all is) (surfReads g s is q) r) l ss) :
    ∃ m1 m S T, (SurfMon.make name s .all freq).setF g = .ok m1 ∧ SurfMon.runs g l m1 = .ok m ∧ m.partialForce g = .ok S ∧
      m.partialTorque g c = .ok T ∧ ∀ (j : ℕ) (hj : j < freq.length),
        (S j).x = ∑ i ∈ Finset.range (cells g a b), (phasors freq[j] i (averaged 0 (fun _ => 0) ss)).traction (lineNormal a b sg) 0 * g.dx ∧
        (S j).y = ∑ i ∈ Finset.range (cells g a b), (phasors freq[j] i (averaged 0 (fun _ => 0) ss)).traction (lineNormal a b sg) 1 * g.dx ∧
        T j = ∑ i ∈ Finset.range (cells g a b),
          (phasors freq[j] i (averaged 0 (fun _ => 0) ss)).moment (lineNormal a b sg) (midPoint a b g.dx i - c) * g.dx := by
  obtain ⟨m1, m, h1, h2, h3, -, -, -, h4⟩ := surf_recorded g name a b sg s hs hne .all (Or.inl rfl) freq l ss is hi h
  have hab : a ≠ b := fun e => hne (by rw [e])
  obtain ⟨S, k1, k2⟩ := C42_force g m a b sg hab (by rw [h3]; exact hs) _ _ _ (h4 rfl)
  obtain ⟨T, k3, k4⟩ := C42_torque g m a b c sg hab (by rw [h3]; exact hs) _ _ _ (h4 rfl)
  refine ⟨m1, m, S, T, h1, h2, k1, k3, fun j hj => ⟨?_, ?_, ?_⟩⟩
  · rw [(k2 j hj).1]; simp only [lineField, getD_lt freq hj]
  · rw [(k2 j hj).2]; simp only [lineField, getD_lt freq hj]
  · rw [k4 j hj]; simp only [lineField, getD_lt freq hj]

/-! ## Boxes -/

/-- Updates of a box monitor, one after the other. -/
def boxRuns {K : Type} [Scalar K] (g : Grid K) : List (Flds K × K) → BoxMon K → M (BoxMon K)
  | [], m => .ok m
  | (f, t) :: l, m => do
    let m ← m.update g f t
    boxRuns g l m

theorem mapM'_four {α : Type} (f : α → M α) (A B : Fin 4 → α) (h : ∀ k, f (A k) = .ok (B k)) :
    mapM' f [A 0, A 1, A 2, A 3] = .ok [B 0, B 1, B 2, B 3] := by
  simp only [mapM', h, Except.ok_bind, Except.pure_eq]

theorem boxRuns_faces (g : Grid ℝ) : ∀ (l : List (Flds ℝ × ℝ)) (m : BoxMon ℝ) (A B : Fin 4 → SurfMon ℝ), m.faces = [A 0, A 1, A 2, A 3] →
    (∀ k, SurfMon.runs g l (A k) = .ok (B k)) → boxRuns g l m = .ok { m with faces := [B 0, B 1, B 2, B 3] }
  | [], m, A, B, hm, h => by
    have : A = B := funext fun k => Except.ok.inj (h k)
    subst this
    rw [boxRuns, ← hm]
  | (f, t) :: l, m, A, B, hm, h => by
    have : ∀ k, ∃ C, (A k).update g f t = .ok C ∧ SurfMon.runs g l C = .ok (B k) := by
      intro k
      have := h k
      simp only [SurfMon.runs, Except.bind_ok] at this
      exact this
    choose C hC using this
    have hu : m.update g f t = .ok { m with faces := [C 0, C 1, C 2, C 3] } := by
      unfold BoxMon.update
      rw [hm, mapM'_four _ A C (fun k => (hC k).1)]
      rfl
    simp only [boxRuns, hu, Except.ok_bind]
    exact boxRuns_faces g l _ C B rfl (fun k => (hC k).2)

theorem surf_make_ok (a b : V2 ℝ) (sg : Sgn) (h : a.x = b.x ∨ a.y = b.y) : ∃ s, Surf.make a b sg = .ok s := by
  unfold Surf.make
  simp only [eqb_real, V2.cabs, V2.sub_x, V2.sub_y, absS_real, abs_eq_zero, sub_eq_zero, decide_eq_true_eq]
  split_ifs with h1 h2
  · exact ⟨_, rfl⟩
  · exact ⟨_, rfl⟩
  · exact absurd h (by tauto)

theorem boxFace_make (a b : V2 ℝ) (f : Fin 4) :
    ∃ s, Surf.make (boxFace a b f).1 (boxFace a b f).2.1 (boxFace a b f).2.2 = .ok s := by
  apply surf_make_ok
  fin_cases f <;> simp [boxFace]

/-- A box monitor that has watched the fields `l`, in which its faces found `ss`, has recorded the spectra of the averaged samples. -/
theorem box_recorded (g : Grid ℝ) (name : String) (a b : V2 ℝ) (hx : (g.toGrid a).x < (g.toGrid b).x) (hy : (g.toGrid a).y < (g.toGrid b).y)
    (tag : DftTag) (ht : tag = .all ∨ tag = .tangent) (freq : List ℝ)
    (l : List (Flds ℝ × ℝ)) (ss : Fin 4 → List (Snap ℝ)) (nx ny : ℕ) (hnx : (g.toGrid b).x - (g.toGrid a).x = nx)
    (hny : (g.toGrid b).y - (g.toGrid a).y = ny)
    (h : ∀ f s is, Surf.make (boxFace a b f).1 (boxFace a b f).2.1 (boxFace a b f).2.2 = .ok s → g.toGridS s = .ok is →
      List.Forall₂ (fun q r => Finds (faceCount nx ny f) (surfKeys tag is) (surfReads g s is q) r) l (ss f)) :
    ∃ m0 m1 m, BoxMon.make name (Vol.make a b) tag freq = .ok m0 ∧ m0.setF g = .ok m1 ∧ boxRuns g l m1 = .ok m ∧
      m.vol = Vol.make a b ∧
      (∃ M : Fin 4 → SurfMon ℝ, m.faces = [M 0, M 1, M 2, M 3] ∧ ∀ f, (M f).fourier.freq = freq ∧ (M f).length = faceCount nx ny f ∧
        Surf.make (boxFace a b f).1 (boxFace a b f).2.1 (boxFace a b f).2.2 = .ok (M f).surf) ∧
      BoxRecorded m a b nx ny freq.length (fun f => lineField freq (averaged 0 (fun _ => 0) (ss f))) ∧
      (tag = .all → BoxRecordedAll m a b nx ny freq.length (fun f => lineField freq (averaged 0 (fun _ => 0) (ss f)))) := by
  have hc : ∀ f, cells g (boxFace a b f).1 (boxFace a b f).2.1 = faceCount nx ny f := by
    intro f
    simp only [Grid.toGrid, roundI_real] at hnx hny
    fin_cases f <;> simp [cells, boxFace, faceCount, Grid.toGrid] <;> omega
  have hg : ∀ f, g.toGrid (boxFace a b f).1 ≠ g.toGrid (boxFace a b f).2.1 := by
    intro f e
    have e1 := congrArg V2.x e
    have e2 := congrArg V2.y e
    simp only [Grid.toGrid, roundI_real] at hx hy e1 e2
    fin_cases f <;> simp [boxFace] at e1 e2 <;> omega
  choose s hs using boxFace_make a b
  choose is hi _ _ using fun f => toGridS_make g _ _ _ (s f) (hs f) (hg f)
  have key := fun f (nm : String) => surf_recorded g nm _ _ _ (s f) (hs f) (hg f) tag ht freq l (ss f) (is f) (hi f)
    (by rw [hc]; exact h f (s f) (is f) (hs f) (hi f))
  let nm : Fin 4 → String := ![name ++ "_1", name ++ "_2", name ++ "_3", name ++ "_4"]
  choose M1 M h1 h2 h3 h4 h4' h5 h6 using fun f => key f (nm f)
  refine ⟨⟨name, Vol.make a b, freq.length, [SurfMon.make (nm 0) (s 0) tag freq, SurfMon.make (nm 1) (s 1) tag freq,
    SurfMon.make (nm 2) (s 2) tag freq, SurfMon.make (nm 3) (s 3) tag freq], Dft.make freq⟩, ⟨name, Vol.make a b, freq.length, [M1 0, M1 1, M1 2, M1 3], Dft.make freq⟩,
    ⟨name, Vol.make a b, freq.length, [M 0, M 1, M 2, M 3], Dft.make freq⟩, ?_, ?_, ?_, rfl, ⟨M, rfl, fun f => ⟨h4 f, ?_, ?_⟩⟩, ⟨M, rfl, fun f => ?_⟩,
    fun hall => ⟨rfl, M, rfl, fun f => ?_⟩⟩
  · have e0 : (Vol.make a b).getSurface .y_bottom = .ok (s 0) := hs 0
    have e1 : (Vol.make a b).getSurface .x_top = .ok (s 1) := hs 1
    have e2 : (Vol.make a b).getSurface .y_top = .ok (s 2) := hs 2
    have e3 : (Vol.make a b).getSurface .x_bottom = .ok (s 3) := hs 3
    unfold BoxMon.make
    simp only [e0, e1, e2, e3, Except.ok_bind]
    rfl
  · unfold BoxMon.setF
    simp only [mapM'_four (SurfMon.setF g) (fun f => SurfMon.make (nm f) (s f) tag freq) M1 h1, Except.ok_bind]
    rfl
  · exact boxRuns_faces g l _ M1 M rfl h2
  · rw [h4' f, hc]
  · rw [h3]; exact hs f
  · refine ⟨by rw [h3]; exact hs f, ?_⟩
    rw [← hc]; exact h5 f
  · refine ⟨by rw [h3]; exact hs f, ?_⟩
    rw [← hc]; exact h6 f hall

/-- The fields are the same at all nodes. -/
def UniformFlds (f : Flds ℝ) : Prop := ∃ e hx hy : ℝ, (∀ i j, f.Ez.In i j → f.Ez.val i j = e) ∧ (∀ i j, f.Hx.In i j → f.Hx.val i j = hx) ∧
  ∀ i j, f.Hy.In i j → f.Hy.val i j = hy

theorem bilinear_uniform (F : Tensor ℝ) (c : ℝ) (h : ∀ i j, F.In i j → F.val i j = c) (ps : V2 ℝ) (v : ℝ) (hv : bilinear F ps = .ok v) : v = c := by
  by_cases ha : Around F ps
  · rw [bilinear_ok F ps ha] at hv
    obtain ⟨h1, h2, h3, h4⟩ := ha
    have e1 := Int.floor_le_ceil ps.x
    have e2 := Int.floor_le_ceil ps.y
    have := Except.ok.inj hv
    rw [h _ _ ⟨by omega, by omega, by omega, by omega⟩, h _ _ ⟨by omega, by omega, by omega, by omega⟩,
      h _ _ ⟨by omega, by omega, by omega, by omega⟩, h _ _ ⟨by omega, by omega, by omega, by omega⟩] at this
    rw [← this]; ring
  · rw [bilinear_oob F ps ha] at hv; cases hv

/-- What is found in a uniform field. -/
def uniformSnap (e hx hy t : ℝ) : Snap ℝ := ⟨t, fun _ => e, fun x _ => if x = "Hx" then hx else hy⟩

theorem uniform_finds (g : Grid ℝ) (s : Surf ℝ) (is : ISurf) (n : ℤ) (names : List String) (q : Flds ℝ × ℝ) (r : Snap ℝ) (e hx hy : ℝ)
    (h1 : ∀ i j, q.1.Ez.In i j → q.1.Ez.val i j = e) (h2 : ∀ i j, q.1.Hx.In i j → q.1.Hx.val i j = hx)
    (h3 : ∀ i j, q.1.Hy.In i j → q.1.Hy.val i j = hy) (h : Finds n names (surfReads g s is q) r) :
    Finds n names (surfReads g s is q) (uniformSnap e hx hy q.2) := by
  obtain ⟨-, f2, f3⟩ := h
  refine ⟨rfl, fun i i0 i1 => ?_, fun x hx' hne i i0 i1 => ?_⟩
  · have := f2 i i0 i1
    simp only [surfReads, Flds.interpolate, Flds.get, Except.ok_bind] at this ⊢
    rw [this, bilinear_uniform _ e h1 _ _ this]; rfl
  · have := f3 x hx' hne i i0 i1
    simp only [surfReads] at this ⊢
    split_ifs at this ⊢ with c1 c2
    · simp only [Flds.interpolate, Flds.get, Except.ok_bind] at this ⊢
      rw [this, bilinear_uniform _ hx h2 _ _ this]; simp [uniformSnap, c1]
    · simp only [Flds.interpolate, Flds.get, Except.ok_bind] at this ⊢
      rw [this, bilinear_uniform _ hy h3 _ _ this]; simp [uniformSnap, c1]

theorem averaged_uniform : ∀ (us : List (Snap ℝ)), (∀ s ∈ us, (∀ i i', s.e i = s.e i') ∧ ∀ x i i', s.h x i = s.h x i') → ∀ (t0 : ℝ) (p : ℤ → ℝ),
    (∀ i i', p i = p i') → ∀ s ∈ averaged t0 p us, ∀ x i i', s.v x i = s.v x i'
  | [], _, _, _, _ => by simp [averaged]
  | u :: us, hu, t0, p, hp => by
    have h0 := hu u (by simp)
    have ih := fun t0 p hp => averaged_uniform us (fun s hs => hu s (by simp [hs])) t0 p hp
    intro s hs
    unfold averaged at hs
    split_ifs at hs with c
    · exact ih t0 p hp s hs
    · rw [List.mem_cons] at hs
      rcases hs with rfl | hs
      · intro x i i'
        simp only [h0.1 i i', hp i i', h0.2 x i i']
      · exact ih u.t u.e h0.1 s hs

theorem phasors_uniform (f : ℝ) (l : List (Sample ℝ ℤ)) (h : ∀ s ∈ l, ∀ x i i', s.v x i = s.v x i') (i i' : ℤ) : phasors f i l = phasors f i' l := by
  have key : ∀ x, fourierSum f x i l = fourierSum f x i' l := by
    intro x
    unfold fourierSum
    exact congrArg List.sum (List.map_congr_left fun s hs => by rw [h s hs x i i'])
  simp only [phasors, key]

/-- A box that has watched uniform fields has recorded a uniform spectrum. -/
theorem box_uniform (g : Grid ℝ) (name : String) (a b : V2 ℝ) (hx : (g.toGrid a).x < (g.toGrid b).x) (hy : (g.toGrid a).y < (g.toGrid b).y)
    (tag : DftTag) (ht : tag = .all ∨ tag = .tangent) (freq : List ℝ) (l : List (Flds ℝ × ℝ)) (hu : ∀ q ∈ l, UniformFlds q.1)
    (nx ny : ℕ) (hnx : (g.toGrid b).x - (g.toGrid a).x = nx) (hny : (g.toGrid b).y - (g.toGrid a).y = ny)
    (h : ∀ f s is, Surf.make (boxFace a b f).1 (boxFace a b f).2.1 (boxFace a b f).2.2 = .ok s → g.toGridS s = .ok is →
      ∀ q ∈ l, ∃ r, Finds (faceCount nx ny f) (surfKeys tag is) (surfReads g s is q) r) :
    ∃ (m0 m1 m : BoxMon ℝ) (u : ℕ → TM), BoxMon.make name (Vol.make a b) tag freq = .ok m0 ∧ m0.setF g = .ok m1 ∧ boxRuns g l m1 = .ok m ∧
      BoxRecorded m a b nx ny freq.length (fun _ _ j => u j) ∧
      (tag = .all → BoxRecordedAll m a b nx ny freq.length (fun _ _ j => u j)) := by
  have : ∃ us : List (Snap ℝ), (∀ s ∈ us, (∀ i i', s.e i = s.e i') ∧ ∀ x i i', s.h x i = s.h x i') ∧
      ∀ f s is, Surf.make (boxFace a b f).1 (boxFace a b f).2.1 (boxFace a b f).2.2 = .ok s → g.toGridS s = .ok is →
        List.Forall₂ (fun q r => Finds (faceCount nx ny f) (surfKeys tag is) (surfReads g s is q) r) l us := by
    clear hx hy hnx hny
    induction l with
    | nil => exact ⟨[], by simp, fun _ _ _ _ _ => .nil⟩
    | cons q l ih =>
      obtain ⟨us, u1, u2⟩ := ih (fun q hq => hu q (by simp [hq])) (fun f s is h1 h2 q hq => h f s is h1 h2 q (by simp [hq]))
      obtain ⟨e, hx, hy, e1, e2, e3⟩ := hu q (by simp)
      refine ⟨uniformSnap e hx hy q.2 :: us, ?_, fun f s is h1 h2 => .cons ?_ (u2 f s is h1 h2)⟩
      · intro s hs
        rw [List.mem_cons] at hs
        rcases hs with rfl | hs
        · exact ⟨fun _ _ => rfl, fun _ _ _ => rfl⟩
        · exact u1 s hs
      · obtain ⟨r, hr⟩ := h f s is h1 h2 q (by simp)
        exact uniform_finds g s is _ _ q r e hx hy e1 e2 e3 hr
  obtain ⟨us, u1, u2⟩ := this
  obtain ⟨m0, m1, m, h1, h2, h3, -, -, h4, h5⟩ := box_recorded g name a b hx hy tag ht freq l (fun _ => us) nx ny hnx hny u2
  have e : (fun (_ : Fin 4) => lineField freq (averaged 0 (fun _ => 0) us)) =
      fun _ _ j => lineField freq (averaged 0 (fun _ => 0) us) 0 j := by
    funext _ i j
    exact phasors_uniform _ _ (averaged_uniform us u1 0 _ (fun _ _ => rfl)) _ _
  rw [e] at h4 h5
  exact ⟨m0, m1, m, _, h1, h2, h3, h4, h5⟩

theorem toGrid_lt (g : Grid ℝ) (hg : 0 < g.dx) {x y : ℝ} (h : roundAway (x / g.dx) < roundAway (y / g.dx)) : x < y := by
  by_contra hle
  push Not at hle
  have := roundAway_mono (div_le_div_of_nonneg_right hle hg.le)
  omega

/-- **C41**: after any history of spatially uniform fields, the flux of every box is zero. -/
theorem C41_uniform_history (g : Grid ℝ) (hg : 0 < g.dx) (name : String) (a b : V2 ℝ) (hx : (g.toGrid a).x < (g.toGrid b).x)
    (hy : (g.toGrid a).y < (g.toGrid b).y) (tag : DftTag) (ht : tag = .all ∨ tag = .tangent) (freq : List ℝ) (l : List (Flds ℝ × ℝ))
    (hu : ∀ q ∈ l, UniformFlds q.1)
    (nx ny : ℕ) (hnx : (g.toGrid b).x - (g.toGrid a).x = nx) (hny : (g.toGrid b).y - (g.toGrid a).y = ny)
    (h : ∀ f s is, Surf.make (boxFace a b f).1 (boxFace a b f).2.1 (boxFace a b f).2.2 = .ok s → g.toGridS s = .ok is →
      ∀ q ∈ l, ∃ r, Finds (faceCount nx ny f) (surfKeys tag is) (surfReads g s is q) r) :
    ∃ m0 m1 m S, BoxMon.make name (Vol.make a b) tag freq = .ok m0 ∧ m0.setF g = .ok m1 ∧ boxRuns g l m1 = .ok m ∧ m.flux g = .ok S ∧
      ∀ j < freq.length, S j = 0 := by
  obtain ⟨m0, m1, m, u, h1, h2, h3, h4, -⟩ := box_uniform g name a b hx hy tag ht freq l hu nx ny hnx hny h
  obtain ⟨S, k1, k2⟩ := C41_uniform g m a b (toGrid_lt g hg (by simpa [Grid.toGrid] using hx)) nx ny _ u h4
  exact ⟨m0, m1, m, S, h1, h2, h3, k1, k2⟩

/-- **C42**: after any history of spatially uniform fields, the force on every box is zero; the torque is too if the box is a whole number of
cells wide and high. -/
theorem C42_uniform_history_partial (g : Grid ℝ) (hg : 0 < g.dx) (name : String) (a b : V2 ℝ) (hx : (g.toGrid a).x < (g.toGrid b).x)
    (hy : (g.toGrid a).y < (g.toGrid b).y) (freq : List ℝ) (l : List (Flds ℝ × ℝ)) (hu : ∀ q ∈ l, UniformFlds q.1)
    (nx ny : ℕ) (hnx : (g.toGrid b).x - (g.toGrid a).x = nx) (hny : (g.toGrid b).y - (g.toGrid a).y = ny)
    (h : ∀ f s is, Surf.make (boxFace a b f).1 (boxFace a b f).2.1 (boxFace a b f).2.2 = .ok s → g.toGridS s = .ok is →
      ∀ q ∈ l, ∃ r, Finds (faceCount nx ny f) (surfKeys .all is) (surfReads g s is q) r) :
    ∃ m0 m1 m S T, BoxMon.make name (Vol.make a b) .all freq = .ok m0 ∧ m0.setF g = .ok m1 ∧ boxRuns g l m1 = .ok m ∧ m.force g = .ok S ∧
      m.torque g = .ok T ∧ (∀ j < freq.length, S j = ⟨0, 0⟩) ∧
      (b.x - a.x = nx * g.dx → b.y - a.y = ny * g.dx → ∀ j < freq.length, T j = 0) := by
  obtain ⟨m0, m1, m, u, h1, h2, h3, -, h4⟩ := box_uniform g name a b hx hy .all (Or.inl rfl) freq l hu nx ny hnx hny h
  have hx' := toGrid_lt g hg (by simpa [Grid.toGrid] using hx)
  have hy' := toGrid_lt g hg (by simpa [Grid.toGrid] using hy)
  obtain ⟨S, k1, k2⟩ := C42_uniform_force g m a b hx' hy' nx ny _ u (h4 rfl)
  obtain ⟨T, k3, k4⟩ := C42_uniform_torque g m a b hx' hy' nx ny _ u (h4 rfl)
  refine ⟨m0, m1, m, S, T, h1, h2, h3, k1, k3, k2, fun ex ey j hj => ?_⟩
  rw [k4 j hj, ex, ey]
  ring

end Qbox.Props
