import Verif.Model.Monitors
import Verif.Spec.InterpSpec
import Verif.Lemmas.Loops
import Mathlib.Algebra.BigOperators.Fin
import Mathlib.Tactic.FieldSimp
import Mathlib.Tactic.Linarith

/-!
# C39: interpolation of the fields
-/

namespace Qbox.Props
open Qbox Scalar

/-- The four nodes around the node coordinates `ps` exist. -/
def Around (F : Tensor ℝ) (ps : V2 ℝ) : Prop := 0 ≤ ⌊ps.x⌋ ∧ ⌈ps.x⌉ < F.nx ∧ 0 ≤ ⌊ps.y⌋ ∧ ⌈ps.y⌉ < F.ny

theorem bilinear_ok (F : Tensor ℝ) (ps : V2 ℝ) (h : Around F ps) :
    bilinear F ps = .ok ((1 - Int.fract ps.x) * (1 - Int.fract ps.y) * F.val ⌊ps.x⌋ ⌊ps.y⌋
      + Int.fract ps.x * (1 - Int.fract ps.y) * F.val ⌈ps.x⌉ ⌊ps.y⌋
      + Int.fract ps.x * Int.fract ps.y * F.val ⌈ps.x⌉ ⌈ps.y⌉
      + (1 - Int.fract ps.x) * Int.fract ps.y * F.val ⌊ps.x⌋ ⌈ps.y⌉) := by
  obtain ⟨h1, h2, h3, h4⟩ := h
  have e1 := Int.floor_le_ceil ps.x
  have e2 := Int.floor_le_ceil ps.y
  unfold bilinear
  simp only [floorI_real, ceilI_real, ofInt_real]
  simp (disch := omega) only [Tensor.rd_in, Except.ok_bind, Except.pure_eq, Int.self_sub_floor]

theorem bilinear_oob (F : Tensor ℝ) (ps : V2 ℝ) (h : ¬ Around F ps) : bilinear F ps = .error (.ub .oob) := by
  have e1 := Int.floor_le_ceil ps.x
  have e2 := Int.floor_le_ceil ps.y
  unfold bilinear
  simp only [floorI_real, ceilI_real, ofInt_real]
  have rd : ∀ {i j : ℤ}, F.In i j → F.rd i j = .ok (F.val i j) := fun {i j} h => by simp [Tensor.rd, h]
  by_cases h1 : F.In ⌊ps.x⌋ ⌊ps.y⌋
  · rw [rd h1]
    by_cases h2 : F.In ⌈ps.x⌉ ⌊ps.y⌋
    · rw [rd h2]
      by_cases h3 : F.In ⌈ps.x⌉ ⌈ps.y⌉
      · simp only [Tensor.In] at h1 h3
        exact absurd ⟨by omega, by omega, by omega, by omega⟩ h
      · rw [Tensor.rd_out h3]; rfl
    · rw [Tensor.rd_out h2]; rfl
  · rw [Tensor.rd_out h1]; rfl

theorem fract_ceil (x : ℝ) : Int.fract x * ((⌈x⌉ : ℝ) - ⌊x⌋) = Int.fract x := by
  by_cases h : Int.fract x = 0
  · rw [h, zero_mul]
  · have h0 : (⌊x⌋ : ℝ) < x := by
      have := Int.fract_nonneg x
      have h2 : 0 < Int.fract x := lt_of_le_of_ne this (Ne.symm h)
      have := Int.self_sub_floor x
      linarith
    have : ⌈x⌉ = ⌊x⌋ + 1 := by
      rw [Int.ceil_eq_iff]
      have := Int.lt_floor_add_one x
      constructor
      · push_cast; linarith
      · push_cast; linarith
    rw [this]; push_cast; ring

/-- The component is sampled where the code assumes it to be: always for `Ez`, for the magnetic components only at `dx = 1/2`. -/
def Aligned (g : Grid ℝ) (C : Fields) : Prop := C = .Ez ∨ g.dx = 1 / 2 ∧ (C = .Hx ∨ C = .Hy)

theorem interpPos_real (g : Grid ℝ) (C : Fields) (p : V2 ℝ) :
    interpPos g C p = match C with
      | .Hx => ⟨p.x / g.dx, p.y / g.dx - g.dx⟩
      | .Hy => ⟨p.x / g.dx - g.dx, p.y / g.dx⟩
      | _ => ⟨p.x / g.dx, p.y / g.dx⟩ := by
  unfold interpPos
  cases C <;> ext <;> simp <;> ring

theorem samplePos_x (g : Grid ℝ) (hg : 0 < g.dx) (C : Fields) (p : V2 ℝ) (i j : ℤ) (hC : Aligned g C) :
    (Spec.samplePos g.dx C i j).x - p.x = g.dx * ((i : ℝ) - (interpPos g C p).x) := by
  rw [interpPos_real]
  rcases hC with rfl | ⟨h, rfl | rfl⟩ <;> simp only [Spec.samplePos]
  · field_simp
  · field_simp
  · rw [h]; ring

theorem samplePos_y (g : Grid ℝ) (hg : 0 < g.dx) (C : Fields) (p : V2 ℝ) (i j : ℤ) (hC : Aligned g C) :
    (Spec.samplePos g.dx C i j).y - p.y = g.dx * ((j : ℝ) - (interpPos g C p).y) := by
  rw [interpPos_real]
  rcases hC with rfl | ⟨h, rfl | rfl⟩ <;> simp only [Spec.samplePos]
  · field_simp
  · rw [h]; ring
  · field_simp

theorem interpolate_cases (g : Grid ℝ) (f : Flds ℝ) (C : Fields) (p : V2 ℝ) (v : ℝ)
    (h : f.interpolate g C p = .ok v) :
    ∃ F, f.get C = .ok F ∧ Around F (interpPos g C p) ∧ bilinear F (interpPos g C p) = .ok v := by
  unfold Flds.interpolate at h
  obtain ⟨F, h1, h2⟩ := Except.bind_ok.mp h
  refine ⟨F, h1, ?_, h2⟩
  by_contra ha
  rw [bilinear_oob F _ ha] at h2; cases h2

/-- **C39** (all components): the result lies between any bounds of the samples of the component. -/
theorem C39_bounded (g : Grid ℝ) (f : Flds ℝ) (C : Fields) (p : V2 ℝ) (v lo hi : ℝ) (F : Tensor ℝ)
    (hF : f.get C = .ok F) (hb : ∀ i j, F.In i j → lo ≤ F.val i j ∧ F.val i j ≤ hi)
    (h : f.interpolate g C p = .ok v) : lo ≤ v ∧ v ≤ hi := by
  obtain ⟨F', h1, ha, h2⟩ := interpolate_cases g f C p v h
  obtain rfl : F' = F := Except.ok.inj (h1.symm.trans hF)
  rw [bilinear_ok F' _ ha] at h2
  generalize interpPos g C p = ps at *
  have hv := (Except.ok.inj h2).symm
  obtain ⟨k1, k2, k3, k4⟩ := ha
  have e1 := Int.floor_le_ceil ps.x
  have e2 := Int.floor_le_ceil ps.y
  have a1 := Int.fract_nonneg ps.x
  have a2 : 0 ≤ 1 - Int.fract ps.x := by linarith [Int.fract_lt_one ps.x]
  have a3 := Int.fract_nonneg ps.y
  have a4 : 0 ≤ 1 - Int.fract ps.y := by linarith [Int.fract_lt_one ps.y]
  have b1 := hb ⌊ps.x⌋ ⌊ps.y⌋ (by simp only [Tensor.In]; omega)
  have b2 := hb ⌈ps.x⌉ ⌊ps.y⌋ (by simp only [Tensor.In]; omega)
  have b3 := hb ⌈ps.x⌉ ⌈ps.y⌉ (by simp only [Tensor.In]; omega)
  have b4 := hb ⌊ps.x⌋ ⌈ps.y⌉ (by simp only [Tensor.In]; omega)
  have s : (1 - Int.fract ps.x) * (1 - Int.fract ps.y) + Int.fract ps.x * (1 - Int.fract ps.y)
    + Int.fract ps.x * Int.fract ps.y + (1 - Int.fract ps.x) * Int.fract ps.y = 1 := by ring
  have w1 := mul_nonneg a2 a4
  have w2 := mul_nonneg a1 a4
  have w3 := mul_nonneg a1 a3
  have w4 := mul_nonneg a2 a3
  constructor
  · have : lo = ((1 - Int.fract ps.x) * (1 - Int.fract ps.y) + Int.fract ps.x * (1 - Int.fract ps.y)
      + Int.fract ps.x * Int.fract ps.y + (1 - Int.fract ps.x) * Int.fract ps.y) * lo := by rw [s, one_mul]
    rw [this, hv]
    linarith [mul_le_mul_of_nonneg_left b1.1 w1, mul_le_mul_of_nonneg_left b2.1 w2,
      mul_le_mul_of_nonneg_left b3.1 w3, mul_le_mul_of_nonneg_left b4.1 w4]
  · have : hi = ((1 - Int.fract ps.x) * (1 - Int.fract ps.y) + Int.fract ps.x * (1 - Int.fract ps.y)
      + Int.fract ps.x * Int.fract ps.y + (1 - Int.fract ps.x) * Int.fract ps.y) * hi := by rw [s, one_mul]
    rw [this, hv]
    linarith [mul_le_mul_of_nonneg_left b1.2 w1, mul_le_mul_of_nonneg_left b2.2 w2,
      mul_le_mul_of_nonneg_left b3.2 w3, mul_le_mul_of_nonneg_left b4.2 w4]

/-- **C39**: a defined result is a convex combination of four samples around the point. Missing: the magnetic components at a
resolution other than `dx = 1/2`, where the code takes other samples (`C39_false`). -/
theorem C39_convex_partial (g : Grid ℝ) (hg : 0 < g.dx) (f : Flds ℝ) (C : Fields) (p : V2 ℝ) (v : ℝ)
    (hC : Aligned g C) (h : f.interpolate g C p = .ok v) :
    ∃ F, f.get C = .ok F ∧ Spec.ConvexAround g.dx C F p v := by
  obtain ⟨F, h1, ha, h2⟩ := interpolate_cases g f C p v h
  refine ⟨F, h1, ?_⟩
  rw [bilinear_ok F _ ha] at h2
  have kx := fun i j => samplePos_x g hg C p i j hC
  have ky := fun i j => samplePos_y g hg C p i j hC
  generalize interpPos g C p = ps at *
  have hv := (Except.ok.inj h2).symm
  have near : ∀ i j : ℤ, (i = ⌊ps.x⌋ ∨ i = ⌈ps.x⌉) → (j = ⌊ps.y⌋ ∨ j = ⌈ps.y⌉) →
      F.In i j ∧ |(Spec.samplePos g.dx C i j).x - p.x| < g.dx ∧ |(Spec.samplePos g.dx C i j).y - p.y| < g.dx := by
    intro i j hi hj
    have e1 := Int.floor_le_ceil ps.x
    have e2 := Int.floor_le_ceil ps.y
    obtain ⟨k1, k2, k3, k4⟩ := ha
    have hx : |(i : ℝ) - ps.x| < 1 := by
      rw [abs_lt]
      rcases hi with rfl | rfl
      · constructor <;> linarith [Int.floor_le ps.x, Int.lt_floor_add_one ps.x]
      · constructor <;> linarith [Int.le_ceil ps.x, Int.ceil_lt_add_one ps.x]
    have hy : |(j : ℝ) - ps.y| < 1 := by
      rw [abs_lt]
      rcases hj with rfl | rfl
      · constructor <;> linarith [Int.floor_le ps.y, Int.lt_floor_add_one ps.y]
      · constructor <;> linarith [Int.le_ceil ps.y, Int.ceil_lt_add_one ps.y]
    refine ⟨by simp only [Tensor.In]; rcases hi with rfl | rfl <;> rcases hj with rfl | rfl <;> omega, ?_, ?_⟩
    · rw [kx, abs_mul, abs_of_pos hg]
      calc g.dx * _ < g.dx * 1 := mul_lt_mul_of_pos_left hx hg
        _ = g.dx := mul_one _
    · rw [ky, abs_mul, abs_of_pos hg]
      calc g.dx * _ < g.dx * 1 := mul_lt_mul_of_pos_left hy hg
        _ = g.dx := mul_one _
  have a1 := Int.fract_nonneg ps.x
  have a2 := Int.fract_lt_one ps.x
  have a3 := Int.fract_nonneg ps.y
  have a4 := Int.fract_lt_one ps.y
  refine ⟨![(1 - Int.fract ps.x) * (1 - Int.fract ps.y), Int.fract ps.x * (1 - Int.fract ps.y),
    Int.fract ps.x * Int.fract ps.y, (1 - Int.fract ps.x) * Int.fract ps.y],
    ![(⌊ps.x⌋, ⌊ps.y⌋), (⌈ps.x⌉, ⌊ps.y⌋), (⌈ps.x⌉, ⌈ps.y⌉), (⌊ps.x⌋, ⌈ps.y⌉)], ?_, ?_, ?_, ?_, ?_⟩
  · intro k
    fin_cases k
    · exact mul_nonneg (by linarith) (by linarith)
    · exact mul_nonneg (by linarith) (by linarith)
    · exact mul_nonneg (by linarith) (by linarith)
    · exact mul_nonneg (by linarith) (by linarith)
  · simp [Fin.sum_univ_four]; ring
  · intro k
    fin_cases k
    · exact (near _ _ (Or.inl rfl) (Or.inl rfl)).1
    · exact (near _ _ (Or.inr rfl) (Or.inl rfl)).1
    · exact (near _ _ (Or.inr rfl) (Or.inr rfl)).1
    · exact (near _ _ (Or.inl rfl) (Or.inr rfl)).1
  · intro k
    fin_cases k
    · exact (near _ _ (Or.inl rfl) (Or.inl rfl)).2
    · exact (near _ _ (Or.inr rfl) (Or.inl rfl)).2
    · exact (near _ _ (Or.inr rfl) (Or.inr rfl)).2
    · exact (near _ _ (Or.inl rfl) (Or.inr rfl)).2
  · rw [hv]; simp [Fin.sum_univ_four]

/-- A bilinear interpolation of values that are affine in the indices is affine in the node coordinates. -/
theorem bilinear_affine (F : Tensor ℝ) (ps : V2 ℝ) (ha : Around F ps) (a b c : ℝ)
    (hF : ∀ i j, F.In i j → F.val i j = a + b * i + c * j) : bilinear F ps = .ok (a + b * ps.x + c * ps.y) := by
  rw [bilinear_ok F ps ha]
  obtain ⟨k1, k2, k3, k4⟩ := ha
  have e1 := Int.floor_le_ceil ps.x
  have e2 := Int.floor_le_ceil ps.y
  rw [hF ⌊ps.x⌋ ⌊ps.y⌋ (by simp only [Tensor.In]; omega), hF ⌈ps.x⌉ ⌊ps.y⌋ (by simp only [Tensor.In]; omega),
    hF ⌈ps.x⌉ ⌈ps.y⌉ (by simp only [Tensor.In]; omega), hF ⌊ps.x⌋ ⌈ps.y⌉ (by simp only [Tensor.In]; omega)]
  have u := fract_ceil ps.x
  have w := fract_ceil ps.y
  have u' := Int.self_sub_floor ps.x
  have w' := Int.self_sub_floor ps.y
  congr 1
  have hx : ps.x = ⌊ps.x⌋ + Int.fract ps.x * ((⌈ps.x⌉ : ℝ) - ⌊ps.x⌋) := by linarith
  have hy : ps.y = ⌊ps.y⌋ + Int.fract ps.y * ((⌈ps.y⌉ : ℝ) - ⌊ps.y⌋) := by linarith
  conv_rhs => rw [hx, hy]
  ring

/-- The samples around the point exist. -/
def Reads (g : Grid ℝ) (f : Flds ℝ) (C : Fields) (p : V2 ℝ) : Prop := ∃ v, f.interpolate g C p = .ok v

/-- **C39**: exact on fields that are affine in position. Missing: the magnetic components at a resolution other than `dx = 1/2`
(`C39_magnetic_error` gives the error made there). -/
theorem C39_affine_partial (g : Grid ℝ) (hg : 0 < g.dx) (f : Flds ℝ) (C : Fields) (F : Tensor ℝ) (p : V2 ℝ) (α β γ : ℝ)
    (hC : Aligned g C) (hF : f.get C = .ok F) (hA : Spec.Affine g.dx C F α β γ) (hp : Reads g f C p) :
    f.interpolate g C p = .ok (α + β * p.x + γ * p.y) := by
  obtain ⟨v, hv⟩ := hp
  obtain ⟨F', h1, ha, h2⟩ := interpolate_cases g f C p v hv
  obtain rfl : F' = F := Except.ok.inj (h1.symm.trans hF)
  have hx := fun i j => samplePos_x g hg C p i j hC
  have hy := fun i j => samplePos_y g hg C p i j hC
  unfold Flds.interpolate
  rw [hF, Except.ok_bind, bilinear_affine F' _ ha (α + β * (p.x - g.dx * (interpPos g C p).x)
    + γ * (p.y - g.dx * (interpPos g C p).y)) (β * g.dx) (γ * g.dx)]
  · congr 1; ring
  · intro i j hij
    rw [hA i j hij]
    have := hx i j
    have := hy i j
    have e1 : (Spec.samplePos g.dx C i j).x = p.x + g.dx * ((i : ℝ) - (interpPos g C p).x) := by linarith
    have e2 : (Spec.samplePos g.dx C i j).y = p.y + g.dx * ((j : ℝ) - (interpPos g C p).y) := by linarith
    rw [e1, e2]; ring

/-- What the code computes for an affine magnetic field: the value at a point `dx/2 - dx^2` away. -/
theorem C39_magnetic_error (g : Grid ℝ) (hg : 0 < g.dx) (f : Flds ℝ) (p : V2 ℝ) (α β γ : ℝ) :
    (Spec.Affine g.dx .Hx f.Hx α β γ → Reads g f .Hx p →
      f.interpolate g .Hx p = .ok (α + β * p.x + γ * p.y + γ * (g.dx / 2 - g.dx * g.dx))) ∧
    (Spec.Affine g.dx .Hy f.Hy α β γ → Reads g f .Hy p →
      f.interpolate g .Hy p = .ok (α + β * p.x + γ * p.y + β * (g.dx / 2 - g.dx * g.dx))) := by
  constructor
  · rintro hA ⟨v, hv⟩
    obtain ⟨F', h1, ha, h2⟩ := interpolate_cases g f .Hx p v hv
    obtain rfl : F' = f.Hx := (Except.ok.inj h1).symm
    unfold Flds.interpolate
    simp only [Flds.get, Except.ok_bind]
    rw [bilinear_affine f.Hx _ ha (α + γ * g.dx / 2) (β * g.dx) (γ * g.dx)]
    · rw [interpPos_real]; simp only; congr 1; field_simp; ring
    · intro i j hij
      rw [hA i j hij]; simp only [Spec.samplePos]; ring
  · rintro hA ⟨v, hv⟩
    obtain ⟨F', h1, ha, h2⟩ := interpolate_cases g f .Hy p v hv
    obtain rfl : F' = f.Hy := (Except.ok.inj h1).symm
    unfold Flds.interpolate
    simp only [Flds.get, Except.ok_bind]
    rw [bilinear_affine f.Hy _ ha (α + β * g.dx / 2) (β * g.dx) (γ * g.dx)]
    · rw [interpPos_real]; simp only; congr 1; field_simp; ring
    · intro i j hij
      rw [hA i j hij]; simp only [Spec.samplePos]; ring

/-- The magnetic components are interpolated exactly on all affine fields if and only if `dx = 1/2`. -/
theorem C39_magnetic_exact_iff (g : Grid ℝ) (hg : 0 < g.dx) (f : Flds ℝ) (p : V2 ℝ) (α β γ : ℝ) (hγ : γ ≠ 0)
    (hA : Spec.Affine g.dx .Hx f.Hx α β γ) (hp : Reads g f .Hx p) :
    f.interpolate g .Hx p = .ok (α + β * p.x + γ * p.y) ↔ g.dx = 1 / 2 := by
  rw [(C39_magnetic_error g hg f p α β γ).1 hA hp]
  constructor
  · intro h
    have h := Except.ok.inj h
    have : γ * (g.dx * (1 / 2 - g.dx)) = 0 := by linarith
    rcases mul_eq_zero.mp this with h | h
    · exact absurd h hγ
    · rcases mul_eq_zero.mp h with h | h <;> linarith
  · intro h; rw [h]; congr 1; ring

/-- **C39**: the stored value is returned at a sample position. Missing: as in `C39_affine_partial`. -/
theorem C39_stored_partial (g : Grid ℝ) (hg : 0 < g.dx) (f : Flds ℝ) (C : Fields) (F : Tensor ℝ) (i j : ℤ)
    (hC : Aligned g C) (hF : f.get C = .ok F) (hij : F.In i j) :
    f.interpolate g C (Spec.samplePos g.dx C i j) = .ok (F.val i j) := by
  have hx := samplePos_x g hg C (Spec.samplePos g.dx C i j) i j hC
  have hy := samplePos_y g hg C (Spec.samplePos g.dx C i j) i j hC
  have ex : (interpPos g C (Spec.samplePos g.dx C i j)).x = i := by
    rw [sub_self] at hx
    rcases mul_eq_zero.mp hx.symm with h | h <;> linarith
  have ey : (interpPos g C (Spec.samplePos g.dx C i j)).y = j := by
    rw [sub_self] at hy
    rcases mul_eq_zero.mp hy.symm with h | h <;> linarith
  unfold Flds.interpolate
  rw [hF, Except.ok_bind, bilinear_ok]
  · rw [ex, ey]; simp
  · simp only [Around, ex, ey, Int.floor_intCast, Int.ceil_intCast]
    exact ⟨hij.1, hij.2.1, hij.2.2.1, hij.2.2.2⟩

/-- Inside the domain the electric field can always be interpolated. -/
theorem C39_defined (g : Grid ℝ) (hg : 0 < g.dx) (f : Flds ℝ) (hx : f.Ez.nx = g.Nx) (hy : f.Ez.ny = g.Ny) (p : V2 ℝ)
    (h1 : 0 ≤ p.x) (h2 : p.x ≤ g.dx * (g.Nx - 1)) (h3 : 0 ≤ p.y) (h4 : p.y ≤ g.dx * (g.Ny - 1)) :
    Reads g f .Ez p := by
  unfold Reads Flds.interpolate
  simp only [Flds.get, Except.ok_bind]
  rw [bilinear_ok]
  · exact ⟨_, rfl⟩
  · rw [interpPos_real]
    simp only [Around]
    have a : p.x / g.dx ≤ ((g.Nx - 1 : ℤ) : ℝ) := by rw [div_le_iff₀ hg]; push_cast; linarith
    have b : p.y / g.dx ≤ ((g.Ny - 1 : ℤ) : ℝ) := by rw [div_le_iff₀ hg]; push_cast; linarith
    have a' := Int.ceil_le.mpr a
    have b' := Int.ceil_le.mpr b
    refine ⟨Int.floor_nonneg.mpr (by positivity), by omega, Int.floor_nonneg.mpr (by positivity), by omega⟩

/-- On the lower edge of the domain the magnetic field `Hx` cannot be read: the index is `-1` or smaller. -/
theorem C39_edge_undefined (g : Grid ℝ) (hg : 0 < g.dx) (f : Flds ℝ) (x : ℝ) :
    f.interpolate g .Hx ⟨x, 0⟩ = .error (.ub .oob) := by
  unfold Flds.interpolate
  simp only [Flds.get, Except.ok_bind]
  apply bilinear_oob
  rw [interpPos_real]
  rintro ⟨-, -, h, -⟩
  rw [Int.floor_nonneg] at h
  simp at h; linarith

/-- Fields on a 20 x 20 grid of unit cells, each component equal to the second coordinate of its sample. -/
noncomputable def rampFlds : Flds ℝ :=
  let z : Tensor ℝ := .const 20 20 0
  { Ez := ⟨20, 20, fun _ j => j⟩, Hx := ⟨20, 20, fun _ j => j + 1 / 2⟩, Hy := ⟨20, 20, fun _ j => j⟩,
    Ca := z, Cb := z, Da := z, Db := z }

/-- A grid of unit cells. -/
noncomputable def unitGrid : Grid ℝ := ⟨19, 19, 20, 20, 1, 1 / 2, 1, 3⟩

theorem rampFlds_affine : Spec.Affine unitGrid.dx .Hx rampFlds.Hx 0 0 1 := by
  intro i j _; simp [rampFlds, Spec.samplePos, unitGrid]

theorem rampFlds_reads : Reads unitGrid rampFlds .Hx ⟨5, 11 / 2⟩ := by
  unfold Reads Flds.interpolate
  simp only [Flds.get, Except.ok_bind]
  rw [bilinear_ok]
  · exact ⟨_, rfl⟩
  · rw [interpPos_real]
    have f1 : ⌊(9 / 2 : ℝ)⌋ = 4 := by rw [Int.floor_eq_iff]; norm_num
    have c1 : ⌈(9 / 2 : ℝ)⌉ = 5 := by rw [Int.ceil_eq_iff]; norm_num
    have e : ((11 / 2 : ℝ) / 1 - 1) = 9 / 2 := by norm_num
    simp only [Around, unitGrid, rampFlds, e, f1, c1]
    norm_num

/-- **C39 is false** for the magnetic components: at unit cell size the field `Hx = y` is interpolated at the sample position
`(5, 11/2)` as `5` instead of the stored value `11/2`. -/
theorem C39_false : rampFlds.interpolate unitGrid .Hx (Spec.samplePos unitGrid.dx .Hx 5 5) = .ok 5 ∧ rampFlds.Hx.val 5 5 = 11 / 2 := by
  constructor
  · have e : Spec.samplePos unitGrid.dx .Hx 5 5 = ⟨5, 11 / 2⟩ := by
      simp [Spec.samplePos, unitGrid]; norm_num
    rw [e, (C39_magnetic_error unitGrid (by simp [unitGrid]) rampFlds ⟨5, 11 / 2⟩ 0 0 1).1 rampFlds_affine rampFlds_reads]
    congr 1; simp [unitGrid]; norm_num
  · simp [rampFlds]; norm_num

/-- The hypotheses of `C39_affine_partial` hold for the electric field of `rampFlds`. -/
example : rampFlds.interpolate unitGrid .Ez ⟨17 / 4, 21 / 4⟩ = .ok (0 + 0 * (17 / 4) + 1 * (21 / 4)) :=
  C39_affine_partial unitGrid (by simp [unitGrid]) rampFlds .Ez rampFlds.Ez ⟨17 / 4, 21 / 4⟩ 0 0 1 (Or.inl rfl) rfl
    (by intro i j _; simp [rampFlds, Spec.samplePos, unitGrid])
    (C39_defined unitGrid (by simp [unitGrid]) rampFlds rfl rfl _ (by norm_num) (by norm_num [unitGrid]) (by norm_num)
      (by norm_num [unitGrid]))

end Qbox.Props
