import Verif.Props.LitMetalProps
import Verif.Props.LorentzWaveProps

/-! # The order of the errors of C100 and C106 -/

namespace Qbox
open Scalar Spec
namespace Props

/-- A bound of two terms, one for the whole region and one for the cells in which the solution is not smooth. -/
theorem two_terms {k A a u c v U V h : ℝ} (hk : 0 ≤ k) (ha : 0 ≤ a) (hA : a ≤ A) (hu : 0 ≤ u) (hU : u ≤ U * h) (hc : 0 ≤ c) (hv : 0 ≤ v) (hV : v ≤ V) (hh : Real.sqrt c ≤ h) :
    Real.sqrt (k * (a * u ^ 2 + c * v ^ 2)) ≤ Real.sqrt k * (Real.sqrt A * U + V) * h := by
  refine (sqrt_two_terms ha hu hc hv hk).trans ?_
  rw [mul_assoc, add_mul]
  refine mul_le_mul_of_nonneg_left (add_le_add ?_ ?_) (Real.sqrt_nonneg _)
  · rw [mul_assoc]
    exact mul_le_mul (Real.sqrt_le_sqrt hA) hU hu (Real.sqrt_nonneg _)
  · rw [mul_comm]
    exact mul_le_mul hV hh (Real.sqrt_nonneg _) (hv.trans hV)

/-- The error of the current that the incident wave induces. -/
theorem induced_order {g : Grid ℝ} (hl : Lawful g) {R Ms τ H k : ℝ} (h1 : g.dx ≤ 1) (hR : 0 ≤ R) (hH : (R + 1) * g.dx ≤ H) (hM : 0 ≤ Ms) (hτ : 0 ≤ τ) (hk : 0 ≤ k) :
    0 ≤ inducedError Ms g.dt τ R k ∧ inducedError Ms g.dt τ R k ≤ k * (10 * τ * H + 1) * Ms * g.dx ^ 2 := by
  have hx := hl.dx
  unfold inducedError
  rw [hl.dt]
  refine ⟨by positivity, ?_⟩
  have e : 80 * τ * ((R + 1) * (Ms * (g.dx / 2) ^ 3)) = 10 * τ * Ms * g.dx ^ 2 * ((R + 1) * g.dx) := by ring
  have i := mul_le_mul_of_nonneg_left hH (by positivity : 0 ≤ 10 * τ * Ms * g.dx ^ 2)
  have j : Ms * (g.dx / 2) ^ 2 ≤ Ms * g.dx ^ 2 := by
    have : 0 ≤ Ms * g.dx ^ 2 := by positivity
    rw [div_pow]; linarith
  rw [e]
  have := mul_le_mul_of_nonneg_left (add_le_add i j) hk
  refine this.trans (le_of_eq (by ring))

section
variable {S : ℝ → ℝ → Prop} {g : Grid ℝ} {vol : Vol ℝ} {M Ms epsMax sigMax τ δ A H : ℝ} {n : ℕ}

/-- What C100 and C106 say about the start of the program. -/
theorem rest_order (hl : Lawful g) (h1 : g.dx ≤ 1) (a0 : 0 ≤ g.Lx * g.Ly) (hA : g.Lx * g.Ly ≤ A) (hM : 0 ≤ M) (he : 0 ≤ epsMax) {h : ℝ} (hx : g.dx ^ 2 ≤ h)
    (hc : Real.sqrt (crossedArea S g (updatedNodes g)) ≤ h) : restError S g M epsMax ≤ Real.sqrt (12 * (epsMax + 1)) * (Real.sqrt A * (1 / 16 * M) + 1 / 4 * M) * h := by
  have := hl.dx
  unfold restError
  exact two_terms (by positivity) a0 hA (by positivity) (mul_le_mul_of_nonneg_left hx (by positivity)) (show 0 ≤ crossedArea S g (updatedNodes g) from crossedArea_nonneg ..) (by positivity)
    (mul_le_of_le_one_right (by positivity) h1) hc

/-- What they say about the incident wave. -/
theorem incident_order (hl : Lawful g) (h1 : g.dx ≤ 1) (hA : g.Lx * g.Ly ≤ A) (hM : 0 ≤ Ms) (hy : (g.toGrid vol.a).y ≤ (g.toGrid vol.b).y) (hT : n * g.dt ≤ τ) (hH : vol.b.y - vol.a.y + 3 * g.dx ≤ H) {h : ℝ}
    (hx : g.dx ^ 2 ≤ h) (h0 : 0 ≤ (10 * τ * H + (10 * τ * H + 1 + H * (10 * (τ + 1) * H + 1))) * Ms) :
    (incidentError Ms g.dt n (rows g vol) + incidentErrorX Ms g.dt n (rows g vol)) * Real.sqrt (g.Lx * g.Ly) ≤
      (10 * τ * H + (10 * τ * H + 1 + H * (10 * (τ + 1) * H + 1))) * Ms * Real.sqrt A * h := by
  obtain ⟨e1, e2⟩ := C99_order n g hl h1 vol hy Ms τ H hM hT hH
  have e : incidentError Ms g.dt n (rows g vol) + incidentErrorX Ms g.dt n (rows g vol) ≤ (10 * τ * H + (10 * τ * H + 1 + H * (10 * (τ + 1) * H + 1))) * Ms * h := by
    refine le_trans ?_ (mul_le_mul_of_nonneg_left hx h0)
    linarith
  refine (mul_le_mul e (Real.sqrt_le_sqrt hA) (Real.sqrt_nonneg _) (mul_nonneg h0 ((sq_nonneg _).trans hx))).trans (le_of_eq (by ring))

end

/-- **C106**, the order. For media, a signal and solutions of a given size and a given duration, the bound of `C106_scattering` is at most a constant times the square of the size of the cells,
the current that the sources do not carry, and the root of the area of the cells in which the solution is not smooth. The constant does not depend on the grid or the bodies. -/
theorem C106_order (M Ms epsMax sigMax q τ A H : ℝ) (hM : 0 ≤ M) (hMs : 0 ≤ Ms) (he : 1 ≤ epsMax) (hs : 0 ≤ sigMax) (hq : 0 ≤ q) (hτ : 0 ≤ τ) :
    ∃ C, ∀ (S : ℝ → ℝ → Prop) (g : Grid ℝ) (vol : Vol ℝ) (n : ℕ) (δ : ℝ), Lawful g → g.dx ≤ 1 → 0 ≤ g.Lx * g.Ly → g.Lx * g.Ly ≤ A → (g.toGrid vol.a).y ≤ (g.toGrid vol.b).y →
      vol.b.y - vol.a.y + 3 * g.dx ≤ H → n * g.dt ≤ τ → 0 ≤ δ → δ ≤ 1 →
      metalError S g vol M Ms epsMax sigMax q τ δ n ≤ C * (g.dx ^ 2 + δ + Real.sqrt (crossedArea S g (updatedNodes g))) := by
  obtain ⟨I, hI⟩ : ∃ I, I = (epsMax - 1 + sigMax + q) * (10 * τ * H + 1) * Ms := ⟨_, rfl⟩
  refine ⟨Real.sqrt (12 * (epsMax + q ^ 2 + 1)) * (Real.sqrt A * (1 / 16 * M) + 1 / 4 * M) +
    τ * (Real.sqrt (16 * (epsMax + 2)) * (Real.sqrt A * ((epsMax + sigMax + q + 9) / 16 * (2 * M) + 1 + I) + ((epsMax + sigMax + q + 4) * (2 * M) + 1 + I))) +
    (10 * τ * H + (10 * τ * H + 1 + H * (10 * (τ + 1) * H + 1))) * Ms * Real.sqrt A, fun S g vol n δ hl h1 a0 hA hy hH hT d0 d1 => ?_⟩
  have hx := hl.dx
  have r0 : 0 ≤ rows g vol := by
    unfold rows
    have : 0 ≤ (g.toGrid vol.b).y - (g.toGrid vol.a).y + 1 := by omega
    exact_mod_cast this
  have rh := (rows_height hl vol).trans hH
  have H0 : 0 ≤ H := le_trans (by positivity) rh
  have k0 : 0 ≤ epsMax - 1 + sigMax + q := by linarith
  obtain ⟨i0, i1⟩ := induced_order hl h1 r0 rh hMs hτ k0
  rw [← hI] at i1
  have I0 : 0 ≤ I := by rw [hI]; positivity
  have t0 : 0 ≤ n * g.dt := by rw [hl.dt]; positivity
  have sc := Real.sqrt_nonneg (crossedArea S g (updatedNodes g))
  have x2 : g.dx ^ 2 ≤ 1 := pow_le_one₀ hx.le h1
  obtain ⟨h, hh⟩ : ∃ h, h = g.dx ^ 2 + δ + Real.sqrt (crossedArea S g (updatedNodes g)) := ⟨_, rfl⟩
  have xh : g.dx ^ 2 ≤ h := by rw [hh]; linarith
  have dh : δ ≤ h := by rw [hh]; have := sq_nonneg g.dx; linarith
  have ch : Real.sqrt (crossedArea S g (updatedNodes g)) ≤ h := by rw [hh]; have := sq_nonneg g.dx; linarith
  rw [← hh]
  unfold metalError
  rw [show ∀ x y z : ℝ, (x + y + z) * h = x * h + y * h + z * h from fun x y z => by ring]
  refine add_le_add (add_le_add (rest_order hl h1 a0 hA hM (by positivity) xh ch) ?_) (incident_order hl h1 hA hMs hy hT hH xh (by positivity))
  rw [mul_assoc τ]
  refine mul_le_mul hT ?_ (by unfold polarError; positivity) hτ
  unfold polarError
  refine two_terms (by linarith) a0 hA (by positivity) ?_ (show 0 ≤ crossedArea S g (updatedNodes g) from crossedArea_nonneg ..) (by positivity) ?_ ch
  · have j1 : (epsMax + sigMax + q + 9) / 16 * (2 * M) * g.dx ^ 2 ≤ (epsMax + sigMax + q + 9) / 16 * (2 * M) * h := mul_le_mul_of_nonneg_left xh (by positivity)
    have j2 := mul_le_mul_of_nonneg_left xh I0
    linarith
  · have j2 := mul_le_of_le_one_right I0 x2
    linarith

/-- **C100**, the order: the same for the bound of `C100_scattering`. -/
theorem C100_order (M Ms epsMax sigMax τ A H : ℝ) (hM : 0 ≤ M) (hMs : 0 ≤ Ms) (he : 1 ≤ epsMax) (hs : 0 ≤ sigMax) (hτ : 0 ≤ τ) :
    ∃ C, ∀ (S : ℝ → ℝ → Prop) (g : Grid ℝ) (vol : Vol ℝ) (n : ℕ) (δ : ℝ), Lawful g → g.dx ≤ 1 → 0 ≤ g.Lx * g.Ly → g.Lx * g.Ly ≤ A → (g.toGrid vol.a).y ≤ (g.toGrid vol.b).y →
      vol.b.y - vol.a.y + 3 * g.dx ≤ H → n * g.dt ≤ τ → 0 ≤ δ → δ ≤ 1 →
      litError S g vol M Ms epsMax sigMax τ δ n ≤ C * (g.dx ^ 2 + δ + Real.sqrt (crossedArea S g (updatedNodes g))) := by
  obtain ⟨I, hI⟩ : ∃ I, I = (epsMax - 1 + sigMax) * (10 * τ * H + 1) * Ms := ⟨_, rfl⟩
  refine ⟨Real.sqrt (12 * (epsMax + 1)) * (Real.sqrt A * (1 / 16 * M) + 1 / 4 * M) +
    τ * (Real.sqrt (12 * (epsMax + 1)) * (Real.sqrt A * ((epsMax + sigMax + 8) / 16 * M + 1 + I) + ((epsMax + sigMax + 3) * M + 1 + I))) +
    (10 * τ * H + (10 * τ * H + 1 + H * (10 * (τ + 1) * H + 1))) * Ms * Real.sqrt A, fun S g vol n δ hl h1 a0 hA hy hH hT d0 d1 => ?_⟩
  have hx := hl.dx
  have r0 : 0 ≤ rows g vol := by
    unfold rows
    have : 0 ≤ (g.toGrid vol.b).y - (g.toGrid vol.a).y + 1 := by omega
    exact_mod_cast this
  have rh := (rows_height hl vol).trans hH
  have H0 : 0 ≤ H := le_trans (by positivity) rh
  have k0 : 0 ≤ epsMax - 1 + sigMax := by linarith
  obtain ⟨i0, i1⟩ := induced_order hl h1 r0 rh hMs hτ k0
  rw [← hI] at i1
  have I0 : 0 ≤ I := by rw [hI]; positivity
  have t0 : 0 ≤ n * g.dt := by rw [hl.dt]; positivity
  have sc := Real.sqrt_nonneg (crossedArea S g (updatedNodes g))
  have x2 : g.dx ^ 2 ≤ 1 := pow_le_one₀ hx.le h1
  obtain ⟨h, hh⟩ : ∃ h, h = g.dx ^ 2 + δ + Real.sqrt (crossedArea S g (updatedNodes g)) := ⟨_, rfl⟩
  have xh : g.dx ^ 2 ≤ h := by rw [hh]; linarith
  have dh : δ ≤ h := by rw [hh]; have := sq_nonneg g.dx; linarith
  have ch : Real.sqrt (crossedArea S g (updatedNodes g)) ≤ h := by rw [hh]; have := sq_nonneg g.dx; linarith
  rw [← hh]
  unfold litError
  rw [show ∀ x y z : ℝ, (x + y + z) * h = x * h + y * h + z * h from fun x y z => by ring]
  refine add_le_add (add_le_add (rest_order hl h1 a0 hA hM (by positivity) xh ch) ?_) (incident_order hl h1 hA hMs hy hT hH xh (by positivity))
  rw [mul_assoc τ]
  refine mul_le_mul hT ?_ (by unfold drivenError; positivity) hτ
  unfold drivenError
  refine two_terms (by linarith) a0 hA (by positivity) ?_ (show 0 ≤ crossedArea S g (updatedNodes g) from crossedArea_nonneg ..) (by positivity) ?_ ch
  · have j1 : (epsMax + sigMax + 8) / 16 * M * g.dx ^ 2 ≤ (epsMax + sigMax + 8) / 16 * M * h := mul_le_mul_of_nonneg_left xh (by positivity)
    have j2 := mul_le_mul_of_nonneg_left xh I0
    linarith
  · have j2 := mul_le_of_le_one_right I0 x2
    linarith

/-- If every line of nodes meets the edges of the bodies in at most `k` points, the last term is at most the root of the size of the cells. -/
theorem edges_order {C k P δ e : ℝ} (hC : 0 ≤ C) (hk : 0 ≤ k) (hP : 0 ≤ P) {dx c : ℝ} (hx : 0 < dx) (h1 : dx ≤ 1) (hd : 0 ≤ δ) (hc : c ≤ k * P * dx) (he : e ≤ C * (dx ^ 2 + δ + Real.sqrt c)) :
    e ≤ C * (1 + Real.sqrt (k * P)) * (Real.sqrt dx + δ) := by
  have s1 : Real.sqrt c ≤ Real.sqrt (k * P) * Real.sqrt dx := by
    rw [← Real.sqrt_mul (by positivity)]
    exact Real.sqrt_le_sqrt hc
  have s2 : dx ^ 2 ≤ Real.sqrt dx := by
    refine Real.le_sqrt_of_sq_le ?_
    calc (dx ^ 2) ^ 2 = dx * dx ^ 3 := by ring
      _ ≤ dx * 1 := mul_le_mul_of_nonneg_left (pow_le_one₀ hx.le h1) hx.le
      _ = dx := mul_one _
  have s3 := Real.sqrt_nonneg (k * P)
  have s4 := mul_nonneg s3 hd
  refine he.trans ?_
  rw [mul_assoc]
  refine mul_le_mul_of_nonneg_left ?_ hC
  linarith [show (1 + Real.sqrt (k * P)) * (Real.sqrt dx + δ) = Real.sqrt dx + δ + Real.sqrt (k * P) * Real.sqrt dx + Real.sqrt (k * P) * δ by ring]

/-- **C106**: the error vanishes with the size of the cells. The solution need not be smooth on the edges of the bodies; if every line of nodes meets them in at most `k` points, the bound of
`C106_scattering` is at most a constant times the root of the size of the cells and the current that the sources do not carry. -/
theorem C106_vanishes (M Ms epsMax sigMax q τ A H P : ℝ) (k : ℕ) (hM : 0 ≤ M) (hMs : 0 ≤ Ms) (he : 1 ≤ epsMax) (hs : 0 ≤ sigMax) (hq : 0 ≤ q) (hτ : 0 ≤ τ) (hP : 0 ≤ P) :
    ∃ C, ∀ (S : ℝ → ℝ → Prop) (g : Grid ℝ) (vol : Vol ℝ) (n : ℕ) (δ : ℝ), g.Wide → Lawful g → g.T = 0 → g.dx ≤ 1 → 0 ≤ g.Lx * g.Ly → g.Lx * g.Ly ≤ A → g.Lx + g.Ly ≤ P → FewCrossings S g k →
      (g.toGrid vol.a).y ≤ (g.toGrid vol.b).y → vol.b.y - vol.a.y + 3 * g.dx ≤ H → n * g.dt ≤ τ → 0 ≤ δ → δ ≤ 1 →
      metalError S g vol M Ms epsMax sigMax q τ δ n ≤ C * (Real.sqrt g.dx + δ) := by
  obtain ⟨C, hC⟩ := C106_order M Ms epsMax sigMax q τ A H hM hMs he hs hq hτ
  refine ⟨max C 0 * (1 + Real.sqrt (2 * k * P)), fun S g vol n δ hw hl hT h1 a0 hA hp hf hy hH hn d0 d1 => ?_⟩
  refine edges_order (le_max_right _ _) (by positivity) hP hl.dx h1 d0 ((C71_interface S g hw hl hT k hf).trans ?_)
    ((hC S g vol n δ hl h1 a0 hA hy hH hn d0 d1).trans (mul_le_mul_of_nonneg_right (le_max_left C 0) (by positivity)))
  exact mul_le_mul_of_nonneg_right (mul_le_mul_of_nonneg_left hp (by positivity)) hl.dx.le

/-- **C100**: the same for simple media. -/
theorem C100_vanishes (M Ms epsMax sigMax τ A H P : ℝ) (k : ℕ) (hM : 0 ≤ M) (hMs : 0 ≤ Ms) (he : 1 ≤ epsMax) (hs : 0 ≤ sigMax) (hτ : 0 ≤ τ) (hP : 0 ≤ P) :
    ∃ C, ∀ (S : ℝ → ℝ → Prop) (g : Grid ℝ) (vol : Vol ℝ) (n : ℕ) (δ : ℝ), g.Wide → Lawful g → g.T = 0 → g.dx ≤ 1 → 0 ≤ g.Lx * g.Ly → g.Lx * g.Ly ≤ A → g.Lx + g.Ly ≤ P → FewCrossings S g k →
      (g.toGrid vol.a).y ≤ (g.toGrid vol.b).y → vol.b.y - vol.a.y + 3 * g.dx ≤ H → n * g.dt ≤ τ → 0 ≤ δ → δ ≤ 1 →
      litError S g vol M Ms epsMax sigMax τ δ n ≤ C * (Real.sqrt g.dx + δ) := by
  obtain ⟨C, hC⟩ := C100_order M Ms epsMax sigMax τ A H hM hMs he hs hτ
  refine ⟨max C 0 * (1 + Real.sqrt (2 * k * P)), fun S g vol n δ hw hl hT h1 a0 hA hp hf hy hH hn d0 d1 => ?_⟩
  refine edges_order (le_max_right _ _) (by positivity) hP hl.dx h1 d0 ((C71_interface S g hw hl hT k hf).trans ?_)
    ((hC S g vol n δ hl h1 a0 hA hy hH hn d0 d1).trans (mul_le_mul_of_nonneg_right (le_max_left C 0) (by positivity)))
  exact mul_le_mul_of_nonneg_right (mul_le_mul_of_nonneg_left hp (by positivity)) hl.dx.le

end Props
end Qbox
