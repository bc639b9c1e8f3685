import Verif.Lemmas.PolarWindow

/-! # Waves with complex wave numbers in media with memory -/

namespace Qbox.Props
open Qbox Scalar Spec Complex

theorem carrier_t (A kx ky w : ℂ) (x y t d : ℝ) :
    carrier A kx ky w x y (t + d) - carrier A kx ky w x y t = -(2 * I * sin (w * d / 2)) * carrier A kx ky w x y (t + d / 2) ∧
    carrier A kx ky w x y (t + d) + carrier A kx ky w x y t = 2 * cos (w * d / 2) * carrier A kx ky w x y (t + d / 2) := by
  have e1 : carrier A kx ky w x y (t + d) = carrier A kx ky w x y (t + d / 2) * exp (-(w * d / 2) * I) := by
    unfold carrier
    rw [mul_assoc, ← exp_add]
    congr 2
    push_cast
    ring
  have e2 : carrier A kx ky w x y t = carrier A kx ky w x y (t + d / 2) * exp (w * d / 2 * I) := by
    unfold carrier
    rw [mul_assoc, ← exp_add]
    congr 2
    push_cast
    ring
  rw [e1, e2]
  simp only [Complex.sin, Complex.cos]
  constructor
  · linear_combination (carrier A kx ky w x y (t + d / 2) * (exp (-(w * d / 2) * I) - exp (w * d / 2 * I))) * I_sq
  · ring

theorem carrier_x (A kx ky w : ℂ) (x y t d : ℝ) :
    carrier A kx ky w (x + d) y t - carrier A kx ky w x y t = 2 * I * sin (kx * d / 2) * carrier A kx ky w (x + d / 2) y t := by
  have e1 : carrier A kx ky w (x + d) y t = carrier A kx ky w (x + d / 2) y t * exp (kx * d / 2 * I) := by
    unfold carrier
    rw [mul_assoc, ← exp_add]
    congr 2
    push_cast
    ring
  have e2 : carrier A kx ky w x y t = carrier A kx ky w (x + d / 2) y t * exp (-(kx * d / 2) * I) := by
    unfold carrier
    rw [mul_assoc, ← exp_add]
    congr 2
    push_cast
    ring
  rw [e1, e2]
  simp only [Complex.sin]
  linear_combination (carrier A kx ky w (x + d / 2) y t * (exp (kx * d / 2 * I) - exp (-(kx * d / 2) * I))) * I_sq

theorem carrier_y (A kx ky w : ℂ) (x y t d : ℝ) :
    carrier A kx ky w x (y + d) t - carrier A kx ky w x y t = 2 * I * sin (ky * d / 2) * carrier A kx ky w x (y + d / 2) t := by
  have e1 : carrier A kx ky w x (y + d) t = carrier A kx ky w x (y + d / 2) t * exp (ky * d / 2 * I) := by
    unfold carrier
    rw [mul_assoc, ← exp_add]
    congr 2
    push_cast
    ring
  have e2 : carrier A kx ky w x y t = carrier A kx ky w x (y + d / 2) t * exp (-(ky * d / 2) * I) := by
    unfold carrier
    rw [mul_assoc, ← exp_add]
    congr 2
    push_cast
    ring
  rw [e1, e2]
  simp only [Complex.sin]
  linear_combination (carrier A kx ky w x (y + d / 2) t * (exp (ky * d / 2 * I) - exp (-(ky * d / 2) * I))) * I_sq

theorem two_sin_cell {d : ℝ} (hd : d ≠ 0) (k : ℂ) : 2 * sin (k * d / 2) = d * cellNumberC d k := by
  unfold cellNumberC
  have : (d : ℂ) ≠ 0 := by exact_mod_cast hd
  field_simp

/-- The law of a pole for complex values. -/
def _root_.Qbox.Spec.Response.LawC (E Et K Kt : ℂ) : Response → Prop
  | .plain => K = 0
  | .debye dEps tau => tau * Kt + K = dEps * Et
  | .drude gamma omega => Kt + gamma * K = omega ^ 2 * E

/-- The complex form of the laws, at all nodes. -/
structure MatterWave (g : Grid ℝ) (eps sig : ℝ) (r : Response) (E X Y K : ℕ → ℤ → ℤ → ℂ) : Prop where
  ampere : ∀ n i j, eps * ((E (n + 1) i j - E n i j) / g.dt) + sig * ((E (n + 1) i j + E n i j) / 2) + (K (n + 1) i j + K n i j) / 2 =
    (Y n i j - Y n (i - 1) j) / g.dx - (X n i j - X n i (j - 1)) / g.dx
  pole : ∀ n i j, r.LawC ((E (n + 1) i j + E n i j) / 2) ((E (n + 1) i j - E n i j) / g.dt) ((K (n + 1) i j + K n i j) / 2) ((K (n + 1) i j - K n i j) / g.dt)
  faradayX : ∀ n i j, X (n + 1) i j = X n i j - g.dt * ((E (n + 1) i (j + 1) - E (n + 1) i j) / g.dx)
  faradayY : ∀ n i j, Y (n + 1) i j = Y n i j + g.dt * ((E (n + 1) (i + 1) j - E (n + 1) i j) / g.dx)

theorem MatterWave.add {g : Grid ℝ} {eps sig : ℝ} {r : Response} {E X Y K E' X' Y' K' : ℕ → ℤ → ℤ → ℂ} (h : MatterWave g eps sig r E X Y K)
    (h' : MatterWave g eps sig r E' X' Y' K') :
    MatterWave g eps sig r (fun n i j => E n i j + E' n i j) (fun n i j => X n i j + X' n i j) (fun n i j => Y n i j + Y' n i j) (fun n i j => K n i j + K' n i j) := by
  refine ⟨fun n i j => by linear_combination h.ampere n i j + h'.ampere n i j, fun n i j => ?_, fun n i j => by linear_combination h.faradayX n i j + h'.faradayX n i j,
    fun n i j => by linear_combination h.faradayY n i j + h'.faradayY n i j⟩
  have a := h.pole n i j
  have b := h'.pole n i j
  cases r with
  | plain => simp only [Response.LawC] at *; linear_combination a + b
  | debye d t => simp only [Response.LawC] at *; linear_combination a + b
  | drude d t => simp only [Response.LawC] at *; linear_combination a + b

noncomputable def carE (g : Grid ℝ) (A kx ky w : ℂ) (t0 : ℝ) (n : ℕ) (i j : ℤ) : ℂ := carrier A kx ky w (i * g.dx) (j * g.dx) (t0 + n * g.dt)
noncomputable def carX (g : Grid ℝ) (A kx ky w : ℂ) (t0 : ℝ) (n : ℕ) (i j : ℤ) : ℂ :=
  cellNumberC g.dx ky / cellNumberC g.dt w * carrier A kx ky w (i * g.dx) ((j + 1 / 2) * g.dx) (t0 + n * g.dt + g.dt / 2)
noncomputable def carY (g : Grid ℝ) (A kx ky w : ℂ) (t0 : ℝ) (n : ℕ) (i j : ℤ) : ℂ :=
  -(cellNumberC g.dx kx / cellNumberC g.dt w) * carrier A kx ky w ((i + 1 / 2) * g.dx) (j * g.dx) (t0 + n * g.dt + g.dt / 2)
/-- The polarization current has the ratio `-i Ω χ(Ω)` to the field. -/
noncomputable def carK (g : Grid ℝ) (r : Response) (A kx ky w : ℂ) (t0 : ℝ) (n : ℕ) (i j : ℤ) : ℂ :=
  -I * warped g.dt w * r.suscept (warped g.dt w) * carrier A kx ky w (i * g.dx) (j * g.dx) (t0 + n * g.dt)

theorem MatterWave.wave {g : Grid ℝ} (hx : g.dx ≠ 0) (hd : g.dt ≠ 0) {eps sig : ℝ} {r : Response} {kx ky w : ℂ} (h0 : cellNumberC g.dt w ≠ 0)
    (hc : cos (w * g.dt / 2) ≠ 0) (hr : r.Regular (warped g.dt w))
    (disp : permittivity eps sig r (warped g.dt w) * cellNumberC g.dt w ^ 2 = cellNumberC g.dx kx ^ 2 + cellNumberC g.dx ky ^ 2) (A : ℂ) (t0 : ℝ) :
    MatterWave g eps sig r (carE g A kx ky w t0) (carX g A kx ky w t0) (carY g A kx ky w t0) (carK g r A kx ky w t0) := by
  have hx' : (g.dx : ℂ) ≠ 0 := by exact_mod_cast hx
  have hd' : (g.dt : ℂ) ≠ 0 := by exact_mod_cast hd
  have st := two_sin_cell hd w
  have sx := two_sin_cell hx kx
  have sy := two_sin_cell hx ky
  set W := cellNumberC g.dt w with hW
  set C0 := cos (w * g.dt / 2) with hC0
  set Ω := warped g.dt w with hΩ
  have wc : W = Ω * C0 := by
    rw [hW, hΩ]
    unfold cellNumberC warped
    rw [mul_assoc, Complex.tan_mul_cos (by rw [← hC0]; exact hc)]
  have Ω0 : Ω ≠ 0 := by intro h; rw [h, zero_mul] at wc; exact h0 wc
  have tm : ∀ (B : ℂ) (x y t : ℝ), (carrier B kx ky w x y (t + g.dt) - carrier B kx ky w x y t) / g.dt = -I * Ω * C0 * carrier B kx ky w x y (t + g.dt / 2) ∧
      (carrier B kx ky w x y (t + g.dt) + carrier B kx ky w x y t) / 2 = C0 * carrier B kx ky w x y (t + g.dt / 2) := by
    intro B x y t
    obtain ⟨p, q⟩ := carrier_t B kx ky w x y t g.dt
    constructor
    · rw [p, div_eq_iff hd']
      linear_combination (-I * carrier B kx ky w x y (t + g.dt / 2)) * st + (-I * g.dt * carrier B kx ky w x y (t + g.dt / 2)) * wc
    · rw [q]; ring
  have tn : ∀ n : ℕ, t0 + ((n + 1 : ℕ) : ℝ) * g.dt = t0 + n * g.dt + g.dt := fun n => by push_cast; ring
  refine ⟨fun n i j => ?_, fun n i j => ?_, fun n i j => ?_, fun n i j => ?_⟩
  · unfold carE carX carY carK
    rw [tn]
    obtain ⟨p, q⟩ := tm A (i * g.dx) (j * g.dx) (t0 + n * g.dt)
    set C := carrier A kx ky w (i * g.dx) (j * g.dx) (t0 + n * g.dt + g.dt / 2) with hC
    have kX := carrier_x A kx ky w ((i - 1 / 2) * g.dx) (j * g.dx) (t0 + n * g.dt + g.dt / 2) g.dx
    have kY := carrier_y A kx ky w (i * g.dx) ((j - 1 / 2) * g.dx) (t0 + n * g.dt + g.dt / 2) g.dx
    rw [show ((i : ℝ) - 1 / 2) * g.dx + g.dx = (i + 1 / 2) * g.dx by ring, show ((i : ℝ) - 1 / 2) * g.dx + g.dx / 2 = i * g.dx by ring, ← hC] at kX
    rw [show ((j : ℝ) - 1 / 2) * g.dx + g.dx = (j + 1 / 2) * g.dx by ring, show ((j : ℝ) - 1 / 2) * g.dx + g.dx / 2 = j * g.dx by ring, ← hC] at kY
    rw [show (((i - 1 : ℤ) : ℝ) + 1 / 2) * g.dx = ((i : ℝ) - 1 / 2) * g.dx by push_cast; ring,
      show (((j - 1 : ℤ) : ℝ) + 1 / 2) * g.dx = ((j : ℝ) - 1 / 2) * g.dx by push_cast; ring, ← mul_add, ← mul_sub, ← mul_sub, kX, kY, p, q]
    rw [show (-I * Ω * r.suscept Ω * (carrier A kx ky w (i * g.dx) (j * g.dx) (t0 + n * g.dt + g.dt) + carrier A kx ky w (i * g.dx) (j * g.dx) (t0 + n * g.dt))) / 2 =
      -I * Ω * r.suscept Ω * (C0 * C) by rw [← q]; ring]
    have sx' : 2 * I * sin (kx * g.dx / 2) * C = g.dx * (I * cellNumberC g.dx kx * C) := by linear_combination (I * C) * sx
    have sy' : 2 * I * sin (ky * g.dx / 2) * C = g.dx * (I * cellNumberC g.dx ky * C) := by linear_combination (I * C) * sy
    rw [sx', sy']
    have lhs : (eps : ℂ) * (-I * Ω * C0 * C) + sig * (C0 * C) + -I * Ω * r.suscept Ω * (C0 * C) = -I * W * permittivity eps sig r Ω * C := by
      unfold permittivity
      rw [wc]
      have hs : I * sig / Ω * Ω = I * sig := div_mul_cancel₀ _ Ω0
      linear_combination (I * C0 * C) * hs + (sig * C0 * C) * I_sq
    rw [lhs]
    have rhs : (-(cellNumberC g.dx kx / W) * (g.dx * (I * cellNumberC g.dx kx * C))) / g.dx - (cellNumberC g.dx ky / W * (g.dx * (I * cellNumberC g.dx ky * C))) / g.dx =
        -I * C * (cellNumberC g.dx kx ^ 2 + cellNumberC g.dx ky ^ 2) / W := by
      field_simp
      ring
    rw [rhs, ← disp]
    field_simp
  · unfold carE carK
    rw [tn]
    obtain ⟨p, q⟩ := tm A (i * g.dx) (j * g.dx) (t0 + n * g.dt)
    rw [← mul_add, ← mul_sub, mul_div_assoc, mul_div_assoc, p, q]
    cases r with
    | plain => simp [Response.LawC, Response.suscept]
    | debye d t =>
      have hr' : 1 - I * Ω * t ≠ 0 := hr
      simp only [Response.LawC, Response.suscept]
      have hq : (d : ℂ) / (1 - I * Ω * t) * (1 - I * Ω * t) = d := div_mul_cancel₀ _ hr'
      generalize (d : ℂ) / (1 - I * Ω * t) = q at hq ⊢
      linear_combination (-I * Ω * C0 * carrier A kx ky w (i * g.dx) (j * g.dx) (t0 + n * g.dt + g.dt / 2)) * hq
    | drude c o =>
      have hr' : Ω + I * c ≠ 0 := hr
      simp only [Response.LawC, Response.suscept]
      have hq : -(o : ℂ) ^ 2 / (Ω * (Ω + I * c)) * (Ω * (Ω + I * c)) = -(o : ℂ) ^ 2 := div_mul_cancel₀ _ (mul_ne_zero Ω0 hr')
      generalize -(o : ℂ) ^ 2 / (Ω * (Ω + I * c)) = q at hq ⊢
      linear_combination (-C0 * carrier A kx ky w (i * g.dx) (j * g.dx) (t0 + n * g.dt + g.dt / 2)) * hq +
        (Ω ^ 2 * q * C0 * carrier A kx ky w (i * g.dx) (j * g.dx) (t0 + n * g.dt + g.dt / 2)) * I_sq
  · unfold carE carX
    rw [← hW]
    have kt := (carrier_t A kx ky w (i * g.dx) ((j + 1 / 2) * g.dx) (t0 + n * g.dt + g.dt / 2) g.dt).1
    have kY := carrier_y A kx ky w (i * g.dx) (j * g.dx) (t0 + ((n + 1 : ℕ) : ℝ) * g.dt) g.dx
    rw [show ((j + 1 : ℤ) : ℝ) * g.dx = j * g.dx + g.dx by push_cast; ring, kY]
    rw [show t0 + ((n + 1 : ℕ) : ℝ) * g.dt + g.dt / 2 = t0 + n * g.dt + g.dt / 2 + g.dt by push_cast; ring]
    rw [show t0 + n * g.dt + g.dt / 2 + g.dt / 2 = t0 + ((n + 1 : ℕ) : ℝ) * g.dt by push_cast; ring] at kt
    rw [sub_eq_iff_eq_add.mp kt, show ((j : ℝ) + 1 / 2) * g.dx = j * g.dx + g.dx / 2 by ring]
    set C := carrier A kx ky w (i * g.dx) (j * g.dx + g.dx / 2) (t0 + ((n + 1 : ℕ) : ℝ) * g.dt)
    rw [show 2 * I * sin (w * g.dt / 2) = I * g.dt * W by linear_combination I * st,
      show 2 * I * sin (ky * g.dx / 2) = I * g.dx * cellNumberC g.dx ky by linear_combination I * sy]
    field_simp
    ring
  · unfold carE carY
    rw [← hW]
    have kt := (carrier_t A kx ky w ((i + 1 / 2) * g.dx) (j * g.dx) (t0 + n * g.dt + g.dt / 2) g.dt).1
    have kX := carrier_x A kx ky w (i * g.dx) (j * g.dx) (t0 + ((n + 1 : ℕ) : ℝ) * g.dt) g.dx
    rw [show ((i + 1 : ℤ) : ℝ) * g.dx = i * g.dx + g.dx by push_cast; ring, kX]
    rw [show t0 + ((n + 1 : ℕ) : ℝ) * g.dt + g.dt / 2 = t0 + n * g.dt + g.dt / 2 + g.dt by push_cast; ring]
    rw [show t0 + n * g.dt + g.dt / 2 + g.dt / 2 = t0 + ((n + 1 : ℕ) : ℝ) * g.dt by push_cast; ring] at kt
    rw [sub_eq_iff_eq_add.mp kt, show ((i : ℝ) + 1 / 2) * g.dx = i * g.dx + g.dx / 2 by ring]
    set C := carrier A kx ky w (i * g.dx + g.dx / 2) (j * g.dx) (t0 + ((n + 1 : ℕ) : ℝ) * g.dt)
    rw [show 2 * I * sin (w * g.dt / 2) = I * g.dt * W by linear_combination I * st,
      show 2 * I * sin (kx * g.dx / 2) = I * g.dx * cellNumberC g.dx kx by linear_combination I * sx]
    field_simp
    ring

theorem re_law {r : Response} {E Et K Kt : ℂ} (h : r.LawC E Et K Kt) : r.Law E.re Et.re K.re Kt.re := by
  cases r with
  | plain => simp only [Response.LawC, Response.Law] at *; rw [h]; rfl
  | debye d t =>
    simp only [Response.LawC, Response.Law] at *
    have := congrArg re h
    simpa using this
  | drude d t =>
    simp only [Response.LawC, Response.Law] at *
    have := congrArg re h
    rw [show ((t : ℂ) ^ 2 * E) = ((t ^ 2 : ℝ) : ℂ) * E by push_cast; ring] at this
    simp only [add_re, re_ofReal_mul] at this
    exact this

/-- Complex fields that satisfy the laws in a rectangle of any media. -/
structure SolvesMatterC (g : Grid ℝ) (eps sig : ℤ → ℤ → ℝ) (res : ℤ → ℤ → Response) (R : Box) (E X Y K : ℕ → ℤ → ℤ → ℂ) : Prop where
  ampere : ∀ n i j, R.Mem i j → eps i j * ((E (n + 1) i j - E n i j) / g.dt) + sig i j * ((E (n + 1) i j + E n i j) / 2) + (K (n + 1) i j + K n i j) / 2 =
    (Y n i j - Y n (i - 1) j) / g.dx - (X n i j - X n i (j - 1)) / g.dx
  pole : ∀ n i j, R.Mem i j → (res i j).LawC ((E (n + 1) i j + E n i j) / 2) ((E (n + 1) i j - E n i j) / g.dt) ((K (n + 1) i j + K n i j) / 2)
    ((K (n + 1) i j - K n i j) / g.dt)
  faradayX : ∀ n i j, R.Mem i j → X (n + 1) i j = X n i j - g.dt * ((E (n + 1) i (j + 1) - E (n + 1) i j) / g.dx)
  faradayY : ∀ n i j, R.Mem i j → Y (n + 1) i j = Y n i j + g.dt * ((E (n + 1) (i + 1) j - E (n + 1) i j) / g.dx)

theorem div_two_re (z : ℂ) : (z / 2).re = z.re / 2 := by
  rw [show (2 : ℂ) = ((2 : ℝ) : ℂ) by norm_num, div_ofReal_re]

theorem SolvesMatterC.re {g : Grid ℝ} {eps sig : ℤ → ℤ → ℝ} {res : ℤ → ℤ → Response} {R : Box} {E X Y K : ℕ → ℤ → ℤ → ℂ} (h : SolvesMatterC g eps sig res R E X Y K) :
    SolvesMatter g eps sig res R (fun n i j => (E n i j).re) (fun n i j => (X n i j).re) (fun n i j => (Y n i j).re) (fun n i j => (K n i j).re) := by
  refine ⟨fun n i j m => ?_, fun n i j m => ?_, fun n i j m => ?_, fun n i j m => ?_⟩
  · have := congrArg Complex.re (h.ampere n i j m)
    simpa only [add_re, sub_re, re_ofReal_mul, div_ofReal_re, div_two_re] using this
  · have := re_law (h.pole n i j m)
    simpa only [add_re, sub_re, div_ofReal_re, div_two_re] using this
  · have := congrArg Complex.re (h.faradayX n i j m)
    simpa only [add_re, sub_re, re_ofReal_mul, div_ofReal_re, div_two_re] using this
  · have := congrArg Complex.re (h.faradayY n i j m)
    simpa only [add_re, sub_re, re_ofReal_mul, div_ofReal_re, div_two_re] using this

theorem cellNumberC_neg (d : ℝ) (k : ℂ) : cellNumberC d (-k) = -cellNumberC d k := by
  unfold cellNumberC
  rw [show -k * d / 2 = -(k * d / 2) by ring, Complex.sin_neg]; ring

theorem carrier_shift (A kx ky w : ℂ) (x x0 y t : ℝ) : carrier A kx ky w (x - x0) y t = carrier (A * exp (-(I * kx * x0))) kx ky w x y t := by
  unfold carrier
  rw [mul_assoc, ← exp_add]
  congr 2
  push_cast
  ring

/-- The two conditions at the plane. -/
theorem mirror_match {d : ℝ} {k1 k2 : ℂ} (h : sin ((k1 + k2) * d / 2) ≠ 0) :
    (1 + mirrorBack d k1 k2) * cos (k1 * d / 2) = mirrorThrough d k1 k2 * cos (k2 * d / 2) ∧
      (1 - mirrorBack d k1 k2) * sin (k1 * d / 2) = mirrorThrough d k1 k2 * sin (k2 * d / 2) := by
  unfold mirrorThrough mirrorBack
  have e1 : (k1 + k2) * d / 2 = k1 * d / 2 + k2 * d / 2 := by ring
  have e2 : (k1 - k2) * d / 2 = k1 * d / 2 - k2 * d / 2 := by ring
  have e3 : k1 * (d : ℂ) = 2 * (k1 * d / 2) := by ring
  have e4 : sin (k1 * d) = 2 * sin (k1 * d / 2) * cos (k1 * d / 2) := by
    conv_lhs => rw [e3]
    rw [Complex.sin_two_mul]
  rw [e4]
  set a := k1 * d / 2
  set b := k2 * d / 2
  rw [e1] at h ⊢
  rw [e2]
  constructor
  · rw [one_add_div h, div_mul_eq_mul_div, div_mul_eq_mul_div]
    congr 1
    rw [Complex.sin_add, Complex.sin_sub]; ring
  · rw [one_sub_div h, div_mul_eq_mul_div, div_mul_eq_mul_div]
    congr 1
    rw [Complex.sin_add, Complex.sin_sub]; ring

/-- The field of a wave that meets a plane, at the nodes: `Ez`. -/
noncomputable def mirE (g : Grid ℝ) (A k1 k2 ky w : ℂ) (t0 : ℝ) (i0 : ℤ) (n : ℕ) (i j : ℤ) : ℂ :=
  mirrored g.dx A k1 k2 ky w ((i0 - 1 / 2) * g.dx) (i * g.dx) (j * g.dx) (t0 + n * g.dt)
/-- `Hx`, above each node, has the ratio `ky'/ω'` to `Ez`. -/
noncomputable def mirX (g : Grid ℝ) (A k1 k2 ky w : ℂ) (t0 : ℝ) (i0 : ℤ) (n : ℕ) (i j : ℤ) : ℂ :=
  cellNumberC g.dx ky / cellNumberC g.dt w * mirrored g.dx A k1 k2 ky w ((i0 - 1 / 2) * g.dx) (i * g.dx) ((j + 1 / 2) * g.dx) (t0 + n * g.dt + g.dt / 2)
/-- `Hy`, to the right of each node, has the ratio `-k'/ω'` to `Ez` in each of the three waves. -/
noncomputable def mirY (g : Grid ℝ) (A k1 k2 ky w : ℂ) (t0 : ℝ) (i0 : ℤ) (n : ℕ) (i j : ℤ) : ℂ :=
  if i < i0 then -(cellNumberC g.dx k1 / cellNumberC g.dt w) * carrier A k1 ky w ((i + 1 / 2) * g.dx - (i0 - 1 / 2) * g.dx) (j * g.dx) (t0 + n * g.dt + g.dt / 2)
    + cellNumberC g.dx k1 / cellNumberC g.dt w *
      carrier (mirrorBack g.dx k1 k2 * A) (-k1) ky w ((i + 1 / 2) * g.dx - (i0 - 1 / 2) * g.dx) (j * g.dx) (t0 + n * g.dt + g.dt / 2)
  else -(cellNumberC g.dx k2 / cellNumberC g.dt w) *
    carrier (mirrorThrough g.dx k1 k2 * A) k2 ky w ((i + 1 / 2) * g.dx - (i0 - 1 / 2) * g.dx) (j * g.dx) (t0 + n * g.dt + g.dt / 2)
/-- The polarization current has the ratio `-i Ω χ(Ω)` to `Ez`, `χ` that of the medium on this side. -/
noncomputable def mirK (g : Grid ℝ) (r1 r2 : Response) (A k1 k2 ky w : ℂ) (t0 : ℝ) (i0 : ℤ) (n : ℕ) (i j : ℤ) : ℂ :=
  -I * warped g.dt w * (if i < i0 then r1 else r2).suscept (warped g.dt w) * mirE g A k1 k2 ky w t0 i0 n i j

theorem mirror_solves {g : Grid ℝ} (hl : Lawful g) {eps sig : ℤ → ℤ → ℝ} {res : ℤ → ℤ → Response} {R : Box} {e1 e2 s1 s2 : ℝ} {r1 r2 : Response} (i0 : ℤ)
    (hm : ∀ i j, R.Mem i j → eps i j = (if i < i0 then e1 else e2) ∧ sig i j = (if i < i0 then s1 else s2) ∧ res i j = (if i < i0 then r1 else r2)) {k1 k2 ky w : ℂ}
    (h0 : cellNumberC g.dt w ≠ 0) (hc : cos (w * g.dt / 2) ≠ 0) (hr1 : r1.Regular (warped g.dt w)) (hr2 : r2.Regular (warped g.dt w))
    (hs : sin ((k1 + k2) * g.dx / 2) ≠ 0)
    (d1 : permittivity e1 s1 r1 (warped g.dt w) * cellNumberC g.dt w ^ 2 = cellNumberC g.dx k1 ^ 2 + cellNumberC g.dx ky ^ 2)
    (d2 : permittivity e2 s2 r2 (warped g.dt w) * cellNumberC g.dt w ^ 2 = cellNumberC g.dx k2 ^ 2 + cellNumberC g.dx ky ^ 2) (A : ℂ) (t0 : ℝ) :
    SolvesMatterC g eps sig res R (mirE g A k1 k2 ky w t0 i0) (mirX g A k1 k2 ky w t0 i0) (mirY g A k1 k2 ky w t0 i0) (mirK g r1 r2 A k1 k2 ky w t0 i0) := by
  have hx := hl.dx
  have hdt : g.dt ≠ 0 := by rw [hl.dt]; positivity
  set x0 := ((i0 : ℝ) - 1 / 2) * g.dx with hx0
  set ρ := mirrorBack g.dx k1 k2 with hρ
  set τ := mirrorThrough g.dx k1 k2 with hτ
  obtain ⟨m1, m2⟩ := mirror_match hs
  rw [← hρ, ← hτ] at m1 m2
  have L := (MatterWave.wave hx.ne' hdt h0 hc hr1 d1 (A * exp (-(I * k1 * x0))) t0).add
    (MatterWave.wave hx.ne' hdt h0 hc hr1 (kx := -k1) (ky := ky) (by rw [cellNumberC_neg, neg_sq]; exact d1) (ρ * A * exp (-(I * -k1 * x0))) t0)
  have Rt := MatterWave.wave hx.ne' hdt h0 hc hr2 d2 (τ * A * exp (-(I * k2 * x0))) t0
  set EL : ℕ → ℤ → ℤ → ℂ := fun n i j => carE g (A * exp (-(I * k1 * x0))) k1 ky w t0 n i j + carE g (ρ * A * exp (-(I * -k1 * x0))) (-k1) ky w t0 n i j with hEL
  set XL : ℕ → ℤ → ℤ → ℂ := fun n i j => carX g (A * exp (-(I * k1 * x0))) k1 ky w t0 n i j + carX g (ρ * A * exp (-(I * -k1 * x0))) (-k1) ky w t0 n i j with hXL
  set YL : ℕ → ℤ → ℤ → ℂ := fun n i j => carY g (A * exp (-(I * k1 * x0))) k1 ky w t0 n i j + carY g (ρ * A * exp (-(I * -k1 * x0))) (-k1) ky w t0 n i j with hYL
  set KL : ℕ → ℤ → ℤ → ℂ := fun n i j => carK g r1 (A * exp (-(I * k1 * x0))) k1 ky w t0 n i j + carK g r1 (ρ * A * exp (-(I * -k1 * x0))) (-k1) ky w t0 n i j with hKL
  set ER := carE g (τ * A * exp (-(I * k2 * x0))) k2 ky w t0 with hER
  set XR := carX g (τ * A * exp (-(I * k2 * x0))) k2 ky w t0 with hXR
  set YR := carY g (τ * A * exp (-(I * k2 * x0))) k2 ky w t0 with hYR
  set KR := carK g r2 (τ * A * exp (-(I * k2 * x0))) k2 ky w t0 with hKR
  have side : ∀ i : ℤ, ((i : ℝ) * g.dx < x0 ↔ i < i0) := by
    intro i
    rw [hx0, mul_lt_mul_iff_left₀ hx]
    constructor
    · intro h
      by_contra hn
      have : (i0 : ℝ) ≤ i := by exact_mod_cast not_lt.mp hn
      linarith
    · intro h
      have : (i : ℝ) + 1 ≤ i0 := by exact_mod_cast h
      linarith
  have eE : ∀ n i j, mirE g A k1 k2 ky w t0 i0 n i j = if i < i0 then EL n i j else ER n i j := by
    intro n i j
    unfold mirE mirrored
    rw [← hx0, ← hρ, ← hτ]
    by_cases h : i < i0
    · rw [if_pos h, if_pos ((side i).mpr h), carrier_shift, carrier_shift]; rfl
    · rw [if_neg h, if_neg (fun k => h ((side i).mp k)), carrier_shift]; rfl
  have eX : ∀ n i j, mirX g A k1 k2 ky w t0 i0 n i j = if i < i0 then XL n i j else XR n i j := by
    intro n i j
    unfold mirX mirrored
    rw [← hx0, ← hρ, ← hτ]
    by_cases h : i < i0
    · rw [if_pos h, if_pos ((side i).mpr h), carrier_shift, carrier_shift, mul_add]; rfl
    · rw [if_neg h, if_neg (fun k => h ((side i).mp k)), carrier_shift]; rfl
  have eY : ∀ n i j, mirY g A k1 k2 ky w t0 i0 n i j = if i < i0 then YL n i j else YR n i j := by
    intro n i j
    unfold mirY
    rw [← hx0, ← hρ, ← hτ]
    by_cases h : i < i0
    · rw [if_pos h, if_pos h, carrier_shift, carrier_shift]
      simp only [hYL]
      unfold carY
      rw [cellNumberC_neg]
      ring
    · rw [if_neg h, if_neg h, carrier_shift]; rfl
  have eK : ∀ n i j, mirK g r1 r2 A k1 k2 ky w t0 i0 n i j = if i < i0 then KL n i j else KR n i j := by
    intro n i j
    unfold mirK
    rw [eE]
    by_cases h : i < i0
    · simp only [h, if_true, hKL, hEL]
      unfold carK carE
      ring
    · simp only [h, if_false, hKR, hER]
      unfold carK carE
      ring
  -- the fields agree at the plane
  have at_ : ∀ (B k : ℂ) (y t : ℝ), carrier (B * exp (-(I * k * x0))) k ky w (i0 * g.dx) y t = carrier B 0 ky w 0 y t * (cos (k * g.dx / 2) + sin (k * g.dx / 2) * I) := by
    intro B k y t
    rw [← carrier_shift, show (i0 : ℝ) * g.dx - x0 = g.dx / 2 by rw [hx0]; ring, ← exp_mul_I]
    unfold carrier
    rw [mul_assoc, ← exp_add]
    congr 2
    push_cast
    ring
  have on_ : ∀ (B k : ℂ) (y t : ℝ), carrier (B * exp (-(I * k * x0))) k ky w ((((i0 - 1 : ℤ) : ℝ) + 1 / 2) * g.dx) y t = carrier B 0 ky w 0 y t := by
    intro B k y t
    rw [← carrier_shift, show (((i0 - 1 : ℤ) : ℝ) + 1 / 2) * g.dx - x0 = 0 by rw [hx0]; push_cast; ring]
    unfold carrier
    congr 2
    push_cast
    ring
  have lin : ∀ (B c : ℂ) (y t : ℝ), carrier (c * B) 0 ky w 0 y t = c * carrier B 0 ky w 0 y t := fun B c y t => by unfold carrier; ring
  have mE : ∀ n j, EL n i0 j = ER n i0 j := by
    intro n j
    simp only [hEL, hER]
    unfold carE
    rw [at_, at_, at_, lin, lin, show -k1 * (g.dx : ℂ) / 2 = -(k1 * g.dx / 2) by ring, Complex.cos_neg, Complex.sin_neg]
    linear_combination (carrier A 0 ky w 0 (j * g.dx) (t0 + n * g.dt)) * m1 + (I * carrier A 0 ky w 0 (j * g.dx) (t0 + n * g.dt)) * m2
  have mY : ∀ n j, YL n (i0 - 1) j = YR n (i0 - 1) j := by
    intro n j
    simp only [hYL, hYR]
    unfold carY
    rw [on_, on_, on_, lin, lin, cellNumberC_neg]
    have k : (1 - ρ) * cellNumberC g.dx k1 = τ * cellNumberC g.dx k2 := by
      unfold cellNumberC
      linear_combination (2 / (g.dx : ℂ)) * m2
    linear_combination (-(carrier A 0 ky w 0 (j * g.dx) (t0 + n * g.dt + g.dt / 2) / cellNumberC g.dt w)) * k
  refine ⟨fun n i j h => ?_, fun n i j h => ?_, fun n i j _ => ?_, fun n i j _ => ?_⟩
  · rw [(hm i j h).1, (hm i j h).2.1, eE, eE, eY, eY, eX, eX, eK, eK]
    by_cases h1 : i < i0
    · have h2 : i - 1 < i0 := by omega
      simp only [h1, h2, if_true]
      exact L.ampere n i j
    · simp only [h1, if_false]
      by_cases h2 : i - 1 < i0
      · obtain rfl : i = i0 := by omega
        simp only [h2, if_true]
        rw [mY]
        exact Rt.ampere n i j
      · simp only [h2, if_false]
        exact Rt.ampere n i j
  · rw [(hm i j h).2.2, eE, eE, eK, eK]
    by_cases h1 : i < i0
    · simp only [h1, if_true]
      exact L.pole n i j
    · simp only [h1, if_false]
      exact Rt.pole n i j
  · rw [eX, eX, eE, eE]
    by_cases h1 : i < i0
    · simp only [h1, if_true]; exact L.faradayX n i j
    · simp only [h1, if_false]; exact Rt.faradayX n i j
  · rw [eY, eY, eE, eE]
    by_cases h1 : i < i0
    · simp only [h1, if_true]
      by_cases h2 : i + 1 < i0
      · simp only [h2, if_true]; exact L.faradayY n i j
      · obtain rfl : i0 = i + 1 := by omega
        simp only [h2, if_false]
        rw [← mE]; exact L.faradayY n i j
    · have h2 : ¬ i + 1 < i0 := by omega
      simp only [h1, h2, if_false]; exact Rt.faradayY n i j

end Qbox.Props
