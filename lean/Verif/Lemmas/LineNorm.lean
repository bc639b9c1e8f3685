import Verif.Lemmas.SpectraWave
import Verif.Spec.FluxWaveSpec
import Verif.Props.FluxProps

/-! # Root mean squares along a line -/

namespace Qbox
open Scalar Spec Props

/-- The root of the integral of the square along a line of `N` cells of length `d`. -/
noncomputable def ll (d : ℝ) (N : ℕ) (h : ℕ → ℝ) : ℝ := Real.sqrt (d * ∑ i ∈ Finset.range N, h i ^ 2)

theorem ll_nonneg (d : ℝ) (N : ℕ) (h : ℕ → ℝ) : 0 ≤ ll d N h := Real.sqrt_nonneg _

theorem ll_sq {d : ℝ} (hd : 0 ≤ d) (N : ℕ) (h : ℕ → ℝ) : ll d N h ^ 2 = d * ∑ i ∈ Finset.range N, h i ^ 2 :=
  Real.sq_sqrt (mul_nonneg hd (Finset.sum_nonneg fun _ _ => sq_nonneg _))

theorem ll_mono {d : ℝ} (hd : 0 ≤ d) {N : ℕ} {h k : ℕ → ℝ} (hk : ∀ i < N, |h i| ≤ |k i|) : ll d N h ≤ ll d N k :=
  Real.sqrt_le_sqrt (mul_le_mul_of_nonneg_left (Finset.sum_le_sum fun i hi => sq_le_sq.mpr (hk i (Finset.mem_range.mp hi))) hd)

/-- Cauchy and Schwarz. -/
theorem ll_mul {d : ℝ} (hd : 0 ≤ d) (N : ℕ) (h k : ℕ → ℝ) : d * ∑ i ∈ Finset.range N, h i * k i ≤ ll d N h * ll d N k := by
  unfold ll
  rw [Real.sqrt_mul hd, Real.sqrt_mul hd]
  have := Real.sum_mul_le_sqrt_mul_sqrt (Finset.range N) h k
  calc d * ∑ i ∈ Finset.range N, h i * k i ≤ d * (Real.sqrt (∑ i ∈ Finset.range N, h i ^ 2) * Real.sqrt (∑ i ∈ Finset.range N, k i ^ 2)) := mul_le_mul_of_nonneg_left this hd
    _ = (Real.sqrt d * Real.sqrt d) * (Real.sqrt (∑ i ∈ Finset.range N, h i ^ 2) * Real.sqrt (∑ i ∈ Finset.range N, k i ^ 2)) := by rw [Real.mul_self_sqrt hd]
    _ = _ := by ring

theorem ll_add {d : ℝ} (hd : 0 ≤ d) (N : ℕ) (h k : ℕ → ℝ) : ll d N (fun i => h i + k i) ≤ ll d N h + ll d N k := by
  have n1 := ll_nonneg d N h
  have n2 := ll_nonneg d N k
  refine abs_le_of_sq_le_sq' ?_ (by linarith) |>.2
  have e : d * ∑ i ∈ Finset.range N, (h i + k i) ^ 2 = d * (∑ i ∈ Finset.range N, h i ^ 2) + 2 * (d * ∑ i ∈ Finset.range N, h i * k i) + d * ∑ i ∈ Finset.range N, k i ^ 2 := by
    simp only [Finset.mul_sum]
    rw [← Finset.sum_add_distrib, ← Finset.sum_add_distrib]
    exact Finset.sum_congr rfl fun i _ => by ring
  rw [ll_sq hd, e, add_sq, ll_sq hd, ll_sq hd]
  have := ll_mul hd N h k
  linarith

theorem ll_zero (d : ℝ) (N : ℕ) : ll d N (fun _ => 0) = 0 := by simp [ll]

theorem ll_sum {d : ℝ} (hd : 0 ≤ d) (N : ℕ) (F : ℕ → ℕ → ℝ) : ∀ n : ℕ, ll d N (fun i => ∑ m ∈ Finset.range n, F m i) ≤ ∑ m ∈ Finset.range n, ll d N (F m)
  | 0 => by simp [ll_zero]
  | n + 1 => by
    simp only [Finset.sum_range_succ]
    exact (ll_add hd N _ _).trans (add_le_add (ll_sum hd N F n) le_rfl)

theorem ll_smul (d : ℝ) (N : ℕ) {k : ℝ} (hk : 0 ≤ k) (h : ℕ → ℝ) : ll d N (fun i => k * h i) = k * ll d N h := by
  unfold ll
  have : ∑ i ∈ Finset.range N, (k * h i) ^ 2 = k ^ 2 * ∑ i ∈ Finset.range N, h i ^ 2 := by
    rw [Finset.mul_sum]
    exact Finset.sum_congr rfl fun i _ => mul_pow ..
  rw [this, show d * (k ^ 2 * ∑ i ∈ Finset.range N, h i ^ 2) = k ^ 2 * (d * ∑ i ∈ Finset.range N, h i ^ 2) by ring, Real.sqrt_mul (sq_nonneg _), Real.sqrt_sq hk]

theorem ll_const {d : ℝ} (hd : 0 ≤ d) (N : ℕ) {k : ℝ} (hk : 0 ≤ k) {h : ℕ → ℝ} (hh : ∀ i < N, |h i| ≤ k) : ll d N h ≤ k * Real.sqrt (N * d) := by
  refine (ll_mono (k := fun _ => k * 1) hd fun i hi => by rw [mul_one, abs_of_nonneg hk]; exact hh i hi).trans (le_of_eq ?_)
  rw [ll_smul d N hk]
  unfold ll
  congr 2
  simp [mul_comm]

/-! ## Interpolation -/

/-- Bilinear interpolation between the nodes. -/
noncomputable def bilin (e : ℤ → ℤ → ℝ) (x y : ℝ) : ℝ :=
  (1 - Int.fract x) * (1 - Int.fract y) * e ⌊x⌋ ⌊y⌋ + Int.fract x * (1 - Int.fract y) * e ⌈x⌉ ⌊y⌋ + Int.fract x * Int.fract y * e ⌈x⌉ ⌈y⌉ +
    (1 - Int.fract x) * Int.fract y * e ⌊x⌋ ⌈y⌉

theorem bil_shift (e : ℤ → ℤ → ℝ) (x y : ℝ) (k l : ℤ) : bilin e (x + k) (y + l) = bilin (fun i j => e (i + k) (j + l)) x y := by
  unfold bilin
  simp only [Int.fract_add_intCast, Int.floor_add_intCast, Int.ceil_add_intCast]

/-- The four nodes around a point of the plane of the nodes. -/
def Corner (x y : ℝ) (i j : ℤ) : Prop := (i = ⌊x⌋ ∨ i = ⌈x⌉) ∧ (j = ⌊y⌋ ∨ j = ⌈y⌉)

theorem bil_close {F W : ℤ → ℤ → ℝ} {x y u D : ℝ} (h : ∀ i j, Corner x y i j → |W i j - u| ≤ D) :
    |bilin F x y - u| ≤ D + bilin (fun i j => |F i j - W i j|) x y := by
  have x0 := Int.fract_nonneg x
  have x1 := (Int.fract_lt_one x).le
  have y0 := Int.fract_nonneg y
  have y1 := (Int.fract_lt_one y).le
  have one : ∀ i j, Corner x y i j → |F i j - u| ≤ D + |F i j - W i j| := fun i j hc => by
    have := h i j hc
    calc |F i j - u| = |(F i j - W i j) + (W i j - u)| := by congr 1; ring
      _ ≤ |F i j - W i j| + |W i j - u| := abs_add_le _ _
      _ ≤ _ := by linarith
  have c1 := one ⌊x⌋ ⌊y⌋ ⟨.inl rfl, .inl rfl⟩
  have c2 := one ⌈x⌉ ⌊y⌋ ⟨.inr rfl, .inl rfl⟩
  have c3 := one ⌈x⌉ ⌈y⌉ ⟨.inr rfl, .inr rfl⟩
  have c4 := one ⌊x⌋ ⌈y⌉ ⟨.inl rfl, .inr rfl⟩
  unfold bilin
  set p := Int.fract x
  set q := Int.fract y
  set f1 := F ⌊x⌋ ⌊y⌋
  set f2 := F ⌈x⌉ ⌊y⌋
  set f3 := F ⌈x⌉ ⌈y⌉
  set f4 := F ⌊x⌋ ⌈y⌉
  have w1 : 0 ≤ (1 - p) * (1 - q) := mul_nonneg (by linarith) (by linarith)
  have w2 : 0 ≤ p * (1 - q) := mul_nonneg x0 (by linarith)
  have w3 : 0 ≤ p * q := mul_nonneg x0 y0
  have w4 : 0 ≤ (1 - p) * q := mul_nonneg (by linarith) y0
  have e : (1 - p) * (1 - q) * f1 + p * (1 - q) * f2 + p * q * f3 + (1 - p) * q * f4 - u =
      (1 - p) * (1 - q) * (f1 - u) + p * (1 - q) * (f2 - u) + p * q * (f3 - u) + (1 - p) * q * (f4 - u) := by ring
  rw [e]
  have t : |(1 - p) * (1 - q) * (f1 - u) + p * (1 - q) * (f2 - u) + p * q * (f3 - u) + (1 - p) * q * (f4 - u)| ≤
      (1 - p) * (1 - q) * |f1 - u| + p * (1 - q) * |f2 - u| + p * q * |f3 - u| + (1 - p) * q * |f4 - u| := by
    refine (abs_add_le _ _).trans (add_le_add ((abs_add_le _ _).trans (add_le_add ((abs_add_le _ _).trans (add_le_add ?_ ?_)) ?_)) ?_) <;>
      rw [abs_mul, abs_of_nonneg (by assumption)]
  have m1 := mul_le_mul_of_nonneg_left c1 w1
  have m2 := mul_le_mul_of_nonneg_left c2 w2
  have m3 := mul_le_mul_of_nonneg_left c3 w3
  have m4 := mul_le_mul_of_nonneg_left c4 w4
  have s : (1 - p) * (1 - q) * D + p * (1 - q) * D + p * q * D + (1 - p) * q * D = D := by ring
  linarith

/-- The nodes along a line are some of all nodes. -/
theorem ll_line {g : Grid ℝ} (hg : 0 < g.dx) (e : ℤ → ℤ → ℝ) (N : ℕ) (τ : V2 ℤ) (hτ : |τ.x| + |τ.y| = 1) (p q : ℤ)
    (h : ∀ i : ℕ, i < N → (updatedNodes g).Mem (p + i * τ.x) (q + i * τ.y)) :
    ll g.dx N (fun i => e (p + i * τ.x) (q + i * τ.y)) ≤ l2 g e / Real.sqrt g.dx := by
  have key : ∑ i ∈ Finset.range N, e (p + i * τ.x) (q + i * τ.y) ^ 2 ≤ (updatedNodes g).sum fun i j => e i j ^ 2 := by
    unfold Box.sum
    rw [← Finset.sum_product']
    have inj : Set.InjOn (fun i : ℕ => ((p + i * τ.x, q + i * τ.y) : ℤ × ℤ)) (Finset.range N) := by
      intro i _ k _ he
      have h1 := (Prod.mk.inj he).1
      have h2 := (Prod.mk.inj he).2
      have h1 : ((i : ℤ) - k) * τ.x = 0 := by linarith
      have h2 : ((i : ℤ) - k) * τ.y = 0 := by linarith
      rcases mul_eq_zero.mp h1 with c | c
      · omega
      · rcases mul_eq_zero.mp h2 with c' | c'
        · omega
        · rw [c, c'] at hτ; simp at hτ
    rw [← Finset.sum_image (f := fun z : ℤ × ℤ => e z.1 z.2 ^ 2) inj]
    refine Finset.sum_le_sum_of_subset_of_nonneg ?_ fun z _ _ => sq_nonneg _
    intro z hz
    obtain ⟨i, hi, rfl⟩ := Finset.mem_image.mp hz
    have := h i (Finset.mem_range.mp hi)
    simp only [Finset.mem_product, Finset.mem_Icc]
    exact this
  unfold ll l2
  rw [← Real.sqrt_div' _ hg.le]
  refine Real.sqrt_le_sqrt ?_
  rw [show g.dx ^ 2 * (updatedNodes g).sum (fun i j => e i j ^ 2) / g.dx = g.dx * (updatedNodes g).sum (fun i j => e i j ^ 2) by field_simp]
  exact mul_le_mul_of_nonneg_left key hg.le

/-- Interpolated errors along a line. -/
theorem ll_bil {g : Grid ℝ} (hg : 0 < g.dx) (e : ℤ → ℤ → ℝ) (N : ℕ) (τ : V2 ℤ) (hτ : |τ.x| + |τ.y| = 1) (x y : ℝ)
    (h : ∀ p q, Corner x y p q → ∀ i : ℕ, i < N → (updatedNodes g).Mem (p + i * τ.x) (q + i * τ.y)) :
    ll g.dx N (fun i => bilin e (x + (i * τ.x : ℤ)) (y + (i * τ.y : ℤ))) ≤ l2 g e / Real.sqrt g.dx := by
  have x0 := Int.fract_nonneg x
  have x1 : 0 ≤ 1 - Int.fract x := by linarith [Int.fract_lt_one x]
  have y0 := Int.fract_nonneg y
  have y1 : 0 ≤ 1 - Int.fract y := by linarith [Int.fract_lt_one y]
  simp only [bil_shift]
  unfold bilin
  have d0 := hg.le
  refine (ll_add d0 N _ _).trans ((add_le_add ((ll_add d0 N _ _).trans (add_le_add ((ll_add d0 N _ _).trans (add_le_add ?_ ?_)) ?_)) ?_).trans (le_of_eq
    (show (1 - Int.fract x) * (1 - Int.fract y) * (l2 g e / Real.sqrt g.dx) + Int.fract x * (1 - Int.fract y) * (l2 g e / Real.sqrt g.dx) +
      Int.fract x * Int.fract y * (l2 g e / Real.sqrt g.dx) + (1 - Int.fract x) * Int.fract y * (l2 g e / Real.sqrt g.dx) = l2 g e / Real.sqrt g.dx by ring)))
  · rw [ll_smul g.dx N (mul_nonneg x1 y1)]
    exact mul_le_mul_of_nonneg_left (ll_line hg e N τ hτ _ _ (h _ _ ⟨.inl rfl, .inl rfl⟩)) (mul_nonneg x1 y1)
  · rw [ll_smul g.dx N (mul_nonneg x0 y1)]
    exact mul_le_mul_of_nonneg_left (ll_line hg e N τ hτ _ _ (h _ _ ⟨.inr rfl, .inl rfl⟩)) (mul_nonneg x0 y1)
  · rw [ll_smul g.dx N (mul_nonneg x0 y0)]
    exact mul_le_mul_of_nonneg_left (ll_line hg e N τ hτ _ _ (h _ _ ⟨.inr rfl, .inr rfl⟩)) (mul_nonneg x0 y0)
  · rw [ll_smul g.dx N (mul_nonneg x1 y0)]
    exact mul_le_mul_of_nonneg_left (ll_line hg e N τ hτ _ _ (h _ _ ⟨.inl rfl, .inr rfl⟩)) (mul_nonneg x1 y0)

/-! ## Spectra along a line -/

/-- Recorded values along a line against the histories `v` that they should be. -/
theorem spectra_ll {d : ℝ} (hd : 0 ≤ d) {dt τ M : ℝ} (d0 : 0 ≤ dt) (hM : 0 ≤ M) (N : ℕ) (v : ℕ → ℝ → ℝ) (hv : ∀ i < N, Slow (v i) τ M) (hz : ∀ i < N, v i 0 = 0)
    (f : ℝ) (n : ℕ) (hn : n * dt ≤ τ) (r : ℕ → ℕ → ℝ) (θ : ℝ) (h0 : 0 ≤ θ) (h1 : θ ≤ 1) (B : ℝ) (hB : ∀ m < n, ll d N (fun i => r m i - v i ((m + θ) * dt)) ≤ B) :
    ll d N (fun i => ‖(dt : ℂ) * (∑ m ∈ Finset.range n, (r m i : ℂ) * wavelet f ((m + 1) * dt)) - spectrum (v i) f (n * dt)‖) ≤
      n * dt * (B + Real.sqrt (N * d) * (dt * (M + 2 * Real.pi * |f| * (M * (n * dt))))) := by
  have n0 : (0 : ℝ) ≤ n := Nat.cast_nonneg n
  have T0 : 0 ≤ n * dt := by positivity
  set κ := n * (dt * (dt * (M + 2 * Real.pi * |f| * (M * (n * dt))))) with hκ
  have κ0 : 0 ≤ κ := by positivity
  have one : ∀ i < N, ‖(dt : ℂ) * (∑ m ∈ Finset.range n, (r m i : ℂ) * wavelet f ((m + 1) * dt)) - spectrum (v i) f (n * dt)‖ ≤
        (∑ m ∈ Finset.range n, dt * |r m i - v i ((m + θ) * dt)|) + κ := fun i hi => by
    have sl := hv i hi
    have sl' : Slow (v i) (n * dt) M := fun t t' a b c => sl t t' a b (c.trans hn)
    exact sum_integral (f := f) sl' hM (A := M * (n * dt)) (fun t ht ht' => by
      have := sl 0 t le_rfl ht (ht'.trans hn)
      rw [hz i hi, sub_zero, sub_zero] at this
      exact this.trans (mul_le_mul_of_nonneg_left ht' hM)) d0 h0 h1 (fun m => r m i) n le_rfl
  refine (ll_mono (k := fun i => (∑ m ∈ Finset.range n, dt * |r m i - v i ((m + θ) * dt)|) + κ) hd fun i hi => ?_).trans ?_
  · rw [abs_of_nonneg (norm_nonneg _)]
    exact (one i hi).trans (le_abs_self _)
  · refine (ll_add hd N _ _).trans ?_
    have c1 : ll d N (fun _ => κ) ≤ κ * Real.sqrt (N * d) := ll_const hd N κ0 fun _ _ => by rw [abs_of_nonneg κ0]
    have c2 : ll d N (fun i => ∑ m ∈ Finset.range n, dt * |r m i - v i ((m + θ) * dt)|) ≤ ∑ m ∈ Finset.range n, dt * B := by
      refine (ll_sum hd N (fun m i => dt * |r m i - v i ((m + θ) * dt)|) n).trans (Finset.sum_le_sum fun m hm => ?_)
      rw [ll_smul d N d0]
      refine mul_le_mul_of_nonneg_left (le_trans (ll_mono hd fun i _ => ?_) (hB m (Finset.mem_range.mp hm))) d0
      rw [abs_abs]
    rw [Finset.sum_const, Finset.card_range, nsmul_eq_mul] at c2
    refine (add_le_add c2 c1).trans (le_of_eq ?_)
    rw [hκ]
    ring

theorem spectrum_le {v : ℝ → ℝ} {T M : ℝ} (hT : 0 ≤ T) (hM : 0 ≤ M) (hv : Slow v T M) (hz : v 0 = 0) (f : ℝ) : ‖spectrum v f T‖ ≤ M * T * T := by
  unfold Spec.spectrum
  refine (intervalIntegral.norm_integral_le_of_norm_le_const (C := M * T) fun t ht => ?_).trans (le_of_eq (by rw [sub_zero, abs_of_nonneg hT]))
  rw [Set.uIoc_of_le hT] at ht
  have := hv 0 t le_rfl ht.1.le ht.2
  rw [hz, sub_zero, sub_zero] at this
  have e : ‖Complex.exp (2 * Real.pi * f * t * Complex.I)‖ = 1 := norm_wavelet f t
  rw [norm_mul, e, mul_one, Complex.norm_real, Real.norm_eq_abs]
  exact this.trans (mul_le_mul_of_nonneg_left ht.2 hM)

/-- Spectra of histories that are close to each other. -/
theorem spectrum_dist {v u : ℝ → ℝ} {T M δ : ℝ} (hT : 0 ≤ T) (hM : 0 ≤ M) (hv : Slow v T M) (hu : Slow u T M) (h : ∀ t, 0 ≤ t → t ≤ T → |v t - u t| ≤ δ) (f : ℝ) :
    ‖spectrum v f T - spectrum u f T‖ ≤ δ * T := by
  show ‖(∫ t in (0 : ℝ)..T, (v t : ℂ) * wavelet f t) - ∫ t in (0 : ℝ)..T, (u t : ℂ) * wavelet f t‖ ≤ δ * T
  rw [← intervalIntegral.integral_sub (hv.integrable hM f le_rfl hT le_rfl) (hu.integrable hM f le_rfl hT le_rfl)]
  refine (intervalIntegral.norm_integral_le_of_norm_le_const (C := δ) fun t ht => ?_).trans (le_of_eq (by rw [sub_zero, abs_of_nonneg hT]))
  rw [Set.uIoc_of_le hT] at ht
  rw [← sub_mul, norm_mul, norm_wavelet, mul_one, ← Complex.ofReal_sub, Complex.norm_real, Real.norm_eq_abs]
  exact h t ht.1.le ht.2

/-! ## Energy flow -/

/-- The component of the magnetic field that matters for the flow through a vertical (`v`) or a horizontal line. -/
def across (v : Bool) (φ : TM) : ℂ := if v then φ.Hy else φ.Hx

theorem product_dist (a b c d : ℂ) : |(a * (starRingEnd ℂ) b).re - (c * (starRingEnd ℂ) d).re| ≤ ‖a - c‖ * ‖d‖ + ‖c‖ * ‖b - d‖ + ‖a - c‖ * ‖b - d‖ := by
  have e : (a * (starRingEnd ℂ) b).re - (c * (starRingEnd ℂ) d).re = ((a - c) * (starRingEnd ℂ) d + c * (starRingEnd ℂ) (b - d) + (a - c) * (starRingEnd ℂ) (b - d)).re := by
    rw [← Complex.sub_re]
    congr 1
    rw [map_sub]
    ring
  rw [e]
  refine (Complex.abs_re_le_norm _).trans ((norm_add_le _ _).trans (add_le_add ((norm_add_le _ _).trans (add_le_add ?_ ?_)) ?_)) <;>
    rw [norm_mul, RCLike.norm_conj]

/-- Energy flow computed from fields that are close to others. -/
theorem flow_ll {d : ℝ} (hd : 0 ≤ d) (N : ℕ) (E H E' H' : ℕ → ℂ) {S A : ℝ} (hE : ll d N (fun i => ‖E i - E' i‖) ≤ S) (hH : ll d N (fun i => ‖H i - H' i‖) ≤ S)
    (A0 : 0 ≤ A) (aE : ∀ i < N, ‖E' i‖ ≤ A) (aH : ∀ i < N, ‖H' i‖ ≤ A) :
    d * ∑ i ∈ Finset.range N, |(E i * (starRingEnd ℂ) (H i)).re - (E' i * (starRingEnd ℂ) (H' i)).re| ≤ S * (2 * A * Real.sqrt (N * d) + S) := by
  have S0 : 0 ≤ S := (ll_nonneg ..).trans hE
  have q1 : ll d N (fun i => ‖H' i‖) ≤ A * Real.sqrt (N * d) := ll_const hd N A0 fun i hi => by rw [abs_of_nonneg (norm_nonneg _)]; exact aH i hi
  have q2 : ll d N (fun i => ‖E' i‖) ≤ A * Real.sqrt (N * d) := ll_const hd N A0 fun i hi => by rw [abs_of_nonneg (norm_nonneg _)]; exact aE i hi
  have c1 := (ll_mul hd N (fun i => ‖E i - E' i‖) fun i => ‖H' i‖).trans (mul_le_mul hE q1 (ll_nonneg ..) S0)
  have c2 := (ll_mul hd N (fun i => ‖E' i‖) fun i => ‖H i - H' i‖).trans (mul_le_mul q2 hH (ll_nonneg ..) (by positivity))
  have c3 := (ll_mul hd N (fun i => ‖E i - E' i‖) fun i => ‖H i - H' i‖).trans (mul_le_mul hE hH (ll_nonneg ..) S0)
  have : d * ∑ i ∈ Finset.range N, |(E i * (starRingEnd ℂ) (H i)).re - (E' i * (starRingEnd ℂ) (H' i)).re| ≤
      d * ∑ i ∈ Finset.range N, (‖E i - E' i‖ * ‖H' i‖ + ‖E' i‖ * ‖H i - H' i‖ + ‖E i - E' i‖ * ‖H i - H' i‖) :=
    mul_le_mul_of_nonneg_left (Finset.sum_le_sum fun i _ => product_dist _ _ _ _) hd
  rw [Finset.sum_add_distrib, Finset.sum_add_distrib, mul_add, mul_add] at this
  refine this.trans ((add_le_add (add_le_add c1 c2) c3).trans (le_of_eq (by ring)))

end Qbox
