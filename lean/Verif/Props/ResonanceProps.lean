import Verif.Lemmas.Resonance
import Verif.Props.DrivenProps

/-! # Resonances of a closed domain (C86) -/

namespace Qbox.Props
open Qbox Scalar Spec

/-- Number of updated nodes in a row and in a column. -/
def rowNodes (g : Grid ℝ) : ℕ := (g.Nx - 2).toNat
def colNodes (g : Grid ℝ) : ℕ := (g.Ny - 2).toNat

/-- A sum of standing waves. -/
noncomputable def modeSum (M L : ℕ) (a : ℕ → ℕ → ℝ) (i j : ℤ) : ℝ :=
  ∑ p ∈ Finset.range M, ∑ q ∈ Finset.range L, a p q * (ripple M p i * ripple L q j)

theorem modeSum_congr {M L : ℕ} {a b : ℕ → ℕ → ℝ} (h : ∀ p q, p < M → q < L → a p q = b p q) (i j : ℤ) : modeSum M L a i j = modeSum M L b i j :=
  Finset.sum_congr rfl fun p hp => Finset.sum_congr rfl fun q hq => by rw [h p q (Finset.mem_range.mp hp) (Finset.mem_range.mp hq)]

theorem modeSum_lin {M L : ℕ} (a b : ℕ → ℕ → ℝ) (α : ℝ) (i j : ℤ) :
    modeSum M L a i j + α * modeSum M L b i j = modeSum M L (fun p q => a p q + α * b p q) i j := by
  unfold modeSum
  rw [Finset.mul_sum, ← Finset.sum_add_distrib]
  refine Finset.sum_congr rfl fun p _ => ?_
  rw [Finset.mul_sum, ← Finset.sum_add_distrib]
  exact Finset.sum_congr rfl fun q _ => by ring

/-- Four times the square of the sine of half the phase per cell. -/
noncomputable def bend (M p : ℕ) : ℝ := Real.sin ((2 * p + 1) * (Real.pi / (2 * (2 * M + 1)))) ^ 2

theorem modeSum_second (M L : ℕ) (a : ℕ → ℕ → ℝ) (i j : ℤ) :
    (modeSum M L a (i + 1) j - 2 * modeSum M L a i j + modeSum M L a (i - 1) j) + (modeSum M L a i (j + 1) - 2 * modeSum M L a i j + modeSum M L a i (j - 1)) =
      modeSum M L (fun p q => - (4 * (bend M p + bend L q)) * a p q) i j := by
  unfold modeSum
  simp only [Finset.mul_sum, ← Finset.sum_sub_distrib, ← Finset.sum_add_distrib]
  refine Finset.sum_congr rfl fun p _ => Finset.sum_congr rfl fun q _ => ?_
  have h1 := ripple_second M p i
  have h2 := ripple_second L q j
  unfold bend
  linear_combination (a p q * ripple L q j) * h1 + (a p q * ripple M p i) * h2

theorem modeSum_left (M L : ℕ) (a : ℕ → ℕ → ℝ) (j : ℤ) : modeSum M L a 0 j = modeSum M L a 1 j := by
  unfold modeSum
  simp only [ripple_even]

theorem modeSum_bottom (M L : ℕ) (a : ℕ → ℕ → ℝ) (i : ℤ) : modeSum M L a i 0 = modeSum M L a i 1 := by
  unfold modeSum
  simp only [ripple_even]

theorem modeSum_right (M L : ℕ) (a : ℕ → ℕ → ℝ) (j : ℤ) : modeSum M L a (M + 1) j = 0 := by
  unfold modeSum
  simp only [ripple_end]
  simp

theorem modeSum_top (M L : ℕ) (a : ℕ → ℕ → ℝ) (i : ℤ) : modeSum M L a i (L + 1) = 0 := by
  unfold modeSum
  simp only [ripple_end]
  simp

/-- Differences of the magnetic field around a node. -/
noncomputable def swirl (f : Flds ℝ) (i j : ℤ) : ℝ := (f.Hy.val i j - f.Hy.val (i - 1) j) - (f.Hx.val i j - f.Hx.val i (j - 1))

/-- Phase that a standing wave gains in a step. -/
noncomputable def phase (e : ℝ) (M L p q : ℕ) : ℝ := 2 * Real.arcsin (Real.sqrt (bend M p + bend L q) / (2 * Real.sqrt e))

/-- Amplitude of a standing wave after `n` steps. -/
noncomputable def swing (e : ℝ) (M L : ℕ) (A B : ℕ → ℕ → ℝ) (n : ℕ) (p q : ℕ) : ℝ :=
  A p q * Real.cos (n * phase e M L p q) + B p q * Real.sin (n * phase e M L p q)

/-- The fields after `n` steps are those of the oscillation with amplitudes `A`, `B`. -/
structure Rings (g : Grid ℝ) (e : ℝ) (A B : ℕ → ℕ → ℝ) (n : ℕ) (f : Flds ℝ) : Prop where
  ez : ∀ i j, (updatedNodes g).Mem i j → f.Ez.val i j = modeSum (rowNodes g) (colNodes g) (swing e (rowNodes g) (colNodes g) A B n) i j
  curl : ∀ i j, (updatedNodes g).Mem i j → swirl f i j = modeSum (rowNodes g) (colNodes g)
    (fun p q => (swing e (rowNodes g) (colNodes g) A B (n + 1) p q - swing e (rowNodes g) (colNodes g) A B n p q) / (1 / (2 * e))) i j

theorem bend_range (M p : ℕ) : 0 ≤ bend M p ∧ bend M p ≤ 1 := ⟨sq_nonneg _, Real.sin_sq_le_one _⟩

theorem bend_pos {M p : ℕ} (h : p < M) : 0 < bend M p := by
  have hM : (0 : ℝ) < 2 * M + 1 := by positivity
  refine pow_pos (Real.sin_pos_of_pos_of_lt_pi (by positivity) ?_) 2
  rw [mul_div_assoc', div_lt_iff₀ (by positivity)]
  have hp := Real.pi_pos
  have : (p : ℝ) < M := by exact_mod_cast h
  nlinarith

section
variable {e : ℝ} (he : 1 ≤ e)
include he

theorem phase_arg (M L p q : ℕ) : 0 ≤ Real.sqrt (bend M p + bend L q) / (2 * Real.sqrt e) ∧ Real.sqrt (bend M p + bend L q) / (2 * Real.sqrt e) < 1 ∧
    (Real.sqrt (bend M p + bend L q) / (2 * Real.sqrt e)) ^ 2 = (bend M p + bend L q) / (4 * e) := by
  obtain ⟨a0, a1⟩ := bend_range M p
  obtain ⟨b0, b1⟩ := bend_range L q
  have h3 : (Real.sqrt (bend M p + bend L q) / (2 * Real.sqrt e)) ^ 2 = (bend M p + bend L q) / (4 * e) := by
    rw [div_pow, mul_pow, Real.sq_sqrt (by linarith), Real.sq_sqrt (by linarith)]
    norm_num
  refine ⟨by positivity, ?_, h3⟩
  refine lt_of_pow_lt_pow_left₀ 2 (by norm_num) ?_
  rw [h3, one_pow, div_lt_one (by linarith)]
  linarith

theorem phase_half (M L p q : ℕ) : 1 / (2 * e) * (2 * (bend M p + bend L q)) = 4 * Real.sin (phase e M L p q / 2) ^ 2 := by
  obtain ⟨h0, h1, h2⟩ := phase_arg he M L p q
  unfold phase
  rw [mul_div_cancel_left₀ _ (by norm_num : (2 : ℝ) ≠ 0), Real.sin_arcsin (by linarith) h1.le, h2]
  have : e ≠ 0 := by linarith
  field_simp

theorem phase_sin {M L p q : ℕ} (hp : p < M) : Real.sin (phase e M L p q) ≠ 0 := by
  obtain ⟨h0, h1, h2⟩ := phase_arg he M L p q
  have pos : 0 < Real.sqrt (bend M p + bend L q) / (2 * Real.sqrt e) := by
    have := bend_pos hp
    have := (bend_range L q).1
    have : 0 < bend M p + bend L q := by linarith
    have : (0 : ℝ) < e := by linarith
    positivity
  have a0 := Real.arcsin_pos.mpr pos
  have a1 := Real.arcsin_lt_pi_div_two.mpr h1
  exact (Real.sin_pos_of_pos_of_lt_pi (by unfold phase; linarith) (by unfold phase; linarith)).ne'

/-- One step of the oscillation. -/
theorem rings_step {g : Grid ℝ} (hw : g.Wide) (hT : g.T = 0) (hl : Lawful g) {A B : ℕ → ℕ → ℝ} {n : ℕ} {f f' : Flds ℝ} {med : ℤ → ℤ → Simple ℝ}
    (hu : ∀ i j, (updatedNodes g).Mem i j → (med i j).eps = e ∧ (med i j).conduc = 0)
    (laws : ∀ i j, (updatedNodes g).Mem i j → ConductiveLaw (med i j) g.dt (f.Ez.val i j) (f'.Ez.val i j) (curlH f g.dx i j) ∧
      f'.Hx.val i j = f.Hx.val i j - g.dt * ((f'.Ez.val i (j + 1) - f'.Ez.val i j) / g.dx) ∧
      f'.Hy.val i j = f.Hy.val i j + g.dt * ((f'.Ez.val (i + 1) j - f'.Ez.val i j) / g.dx))
    (q : FrameQuiet f (updatedNodes g)) (q' : FrameQuiet f' (updatedNodes g)) (h : Rings g e A B n f) : Rings g e A B (n + 1) f' := by
  have hx := hl.dx
  have nx := hw.nx
  have ny := hw.ny
  rw [hT] at nx ny
  have eM : (rowNodes g : ℤ) = g.Nx - 2 := by unfold rowNodes; omega
  have eL : (colNodes g : ℤ) = g.Ny - 2 := by unfold colNodes; omega
  have hα : 1 / (2 * e) ≠ 0 := by positivity
  have tone := fun p q => tone_step (s := n * phase e (rowNodes g) (colNodes g) p q) (A := A p q) (B := B p q) hα (phase_half he (rowNodes g) (colNodes g) p q)
  have s1 : ∀ p q, swing e (rowNodes g) (colNodes g) A B (n + 1) p q = A p q * Real.cos (n * phase e (rowNodes g) (colNodes g) p q + phase e (rowNodes g) (colNodes g) p q) +
      B p q * Real.sin (n * phase e (rowNodes g) (colNodes g) p q + phase e (rowNodes g) (colNodes g) p q) := by
    intro p q
    unfold swing
    rw [show ((n + 1 : ℕ) : ℝ) * phase e (rowNodes g) (colNodes g) p q = n * phase e (rowNodes g) (colNodes g) p q + phase e (rowNodes g) (colNodes g) p q by push_cast; ring]
  have s2 : ∀ p q, swing e (rowNodes g) (colNodes g) A B (n + 1 + 1) p q =
      A p q * Real.cos (n * phase e (rowNodes g) (colNodes g) p q + phase e (rowNodes g) (colNodes g) p q + phase e (rowNodes g) (colNodes g) p q) +
      B p q * Real.sin (n * phase e (rowNodes g) (colNodes g) p q + phase e (rowNodes g) (colNodes g) p q + phase e (rowNodes g) (colNodes g) p q) := by
    intro p q
    unfold swing
    rw [show ((n + 1 + 1 : ℕ) : ℝ) * phase e (rowNodes g) (colNodes g) p q =
      n * phase e (rowNodes g) (colNodes g) p q + phase e (rowNodes g) (colNodes g) p q + phase e (rowNodes g) (colNodes g) p q by push_cast; ring]
  have hE : ∀ i j, (updatedNodes g).Mem i j → f'.Ez.val i j = modeSum (rowNodes g) (colNodes g) (swing e (rowNodes g) (colNodes g) A B (n + 1)) i j := by
    intro i j hm
    obtain ⟨u1, u2⟩ := hu i j hm
    have l := (laws i j hm).1
    unfold ConductiveLaw at l
    rw [u1, u2] at l
    have c1 : curlH f g.dx i j = swirl f i j / g.dx := by unfold curlH swirl; ring
    rw [c1, hl.dt] at l
    have e0 : e ≠ 0 := by linarith
    have x0 : g.dx ≠ 0 := hx.ne'
    have k : f'.Ez.val i j = f.Ez.val i j + 1 / (2 * e) * swirl f i j := by
      field_simp at l ⊢
      linarith
    rw [k, h.ez i j hm, h.curl i j hm, modeSum_lin]
    refine modeSum_congr (fun p q _ _ => ?_) i j
    rw [s1]
    exact (tone p q).1
  refine ⟨hE, fun i j hm => ?_⟩
  have half : ∀ z : ℝ, g.dt * (z / g.dx) = z / 2 := fun z => by rw [hl.dt]; field_simp
  -- the electric field one node further
  have hE1 : ∀ i j, (updatedNodes g).Mem i j → f'.Ez.val (i + 1) j = modeSum (rowNodes g) (colNodes g) (swing e (rowNodes g) (colNodes g) A B (n + 1)) (i + 1) j := by
    intro i j hm
    by_cases hi : i = g.Nx - 2
    · subst hi
      have := q'.right j
      simp only [updatedNodes] at this
      rw [this, ← eM, modeSum_right]
    · exact hE _ _ (by unfold Box.Mem updatedNodes at *; simp only at *; omega)
  have hE2 : ∀ i j, (updatedNodes g).Mem i j → f'.Ez.val i (j + 1) = modeSum (rowNodes g) (colNodes g) (swing e (rowNodes g) (colNodes g) A B (n + 1)) i (j + 1) := by
    intro i j hm
    by_cases hj : j = g.Ny - 2
    · subst hj
      have := q'.top i
      simp only [updatedNodes] at this
      rw [this, ← eL, modeSum_top]
    · exact hE _ _ (by unfold Box.Mem updatedNodes at *; simp only at *; omega)
  set W := modeSum (rowNodes g) (colNodes g) (swing e (rowNodes g) (colNodes g) A B (n + 1)) with hW
  have dY : ∀ i j, (updatedNodes g).Mem i j → f'.Hy.val i j - f.Hy.val i j = (W (i + 1) j - W i j) / 2 := by
    intro i j hm
    rw [(laws i j hm).2.2, half, hE i j hm, hE1 i j hm]; ring
  have dX : ∀ i j, (updatedNodes g).Mem i j → f'.Hx.val i j - f.Hx.val i j = - ((W i (j + 1) - W i j) / 2) := by
    intro i j hm
    rw [(laws i j hm).2.1, half, hE i j hm, hE2 i j hm]; ring
  have dY0 : f'.Hy.val (i - 1) j - f.Hy.val (i - 1) j = (W i j - W (i - 1) j) / 2 := by
    by_cases hi : i = 1
    · subst hi
      have a := q.left j
      have b := q'.left j
      simp only [updatedNodes] at a b
      rw [a, b, show (1 : ℤ) - 1 = 0 from rfl, hW, modeSum_left]
      ring
    · have := dY (i - 1) j (by unfold Box.Mem updatedNodes at *; simp only at *; omega)
      rw [this, sub_add_cancel]
  have dX0 : f'.Hx.val i (j - 1) - f.Hx.val i (j - 1) = - ((W i j - W i (j - 1)) / 2) := by
    by_cases hj : j = 1
    · subst hj
      have a := q.bottom i
      have b := q'.bottom i
      simp only [updatedNodes] at a b
      rw [a, b, show (1 : ℤ) - 1 = 0 from rfl, hW, modeSum_bottom]
      ring
    · have := dX i (j - 1) (by unfold Box.Mem updatedNodes at *; simp only at *; omega)
      rw [this, sub_add_cancel]
  have dd : swirl f' i j = swirl f i j + 1 / 2 * modeSum (rowNodes g) (colNodes g)
      (fun p q => - (4 * (bend (rowNodes g) p + bend (colNodes g) q)) * swing e (rowNodes g) (colNodes g) A B (n + 1) p q) i j := by
    rw [← modeSum_second]
    have := dY i j hm
    have := dX i j hm
    unfold swirl
    linarith
  rw [dd, h.curl i j hm, modeSum_lin]
  refine modeSum_congr (fun p q _ _ => ?_) i j
  have := (tone p q).2
  rw [← s1, ← s2, show A p q * Real.cos (n * phase e (rowNodes g) (colNodes g) p q) + B p q * Real.sin (n * phase e (rowNodes g) (colNodes g) p q) =
    swing e (rowNodes g) (colNodes g) A B n p q from rfl] at this
  rw [← this]
  ring

/-- Any number of steps of the oscillation. -/
theorem rings_run (n m : ℕ) {c : Core ℝ} {med : ℤ → ℤ → Simple ℝ} (h : Closed c med)
    (hu : ∀ i j, (updatedNodes c.g).Mem i j → (med i j).eps = e ∧ (med i j).conduc = 0) {A B : ℕ → ℕ → ℝ} (hr : Rings c.g e A B m c.f) :
    ∃ c', c.run n [] = .ok (c', []) ∧ Rings c.g e A B (m + n) c'.f := by
  induction n generalizing c m with
  | zero => exact ⟨c, rfl, hr⟩
  | succ n ih =>
    obtain ⟨c1, l1, E2, E3, E4, f, u, S⟩ := Core.update_step h.std [] (by simp)
    obtain rfl : l1 = [] := by have := S.same; cases this; rfl
    obtain ⟨h1, -⟩ := driven_step h S (by simp)
    obtain ⟨-, -, -, laws⟩ := passive_step h.std S h.media h.wave (by simp)
    have q1 := h1.frame
    rw [S.g] at q1
    have r1 := rings_step he h.std.wide h.layer h.std.law hu laws h.frame q1 hr
    obtain ⟨c2, v, r2⟩ := ih (m + 1) h1 (by rw [S.g]; exact hu) (by rw [S.g]; exact r1)
    rw [S.g, show m + 1 + n = m + (n + 1) by ring] at r2
    exact ⟨c2, by unfold Core.run; rw [u]; exact v, r2⟩

/-- Any fields are an oscillation at the start. -/
theorem rings_start (g : Grid ℝ) (f : Flds ℝ) : ∃ A B, Rings g e A B 0 f := by
  obtain ⟨a, ha⟩ := ripple_expand2 (rowNodes g) (colNodes g) f.Ez.val
  obtain ⟨d, hd⟩ := ripple_expand2 (rowNodes g) (colNodes g) (swirl f)
  have mem : ∀ i j, (updatedNodes g).Mem i j → 1 ≤ i ∧ i ≤ rowNodes g ∧ 1 ≤ j ∧ j ≤ colNodes g := by
    intro i j h
    unfold Box.Mem updatedNodes at h
    unfold rowNodes colNodes
    simp only at h
    omega
  refine ⟨a, fun p q => (1 / (2 * e) * d p q + a p q * (1 - Real.cos (phase e (rowNodes g) (colNodes g) p q))) / Real.sin (phase e (rowNodes g) (colNodes g) p q),
    fun i j h => ?_, fun i j h => ?_⟩
  · obtain ⟨h1, h2, h3, h4⟩ := mem i j h
    rw [ha i j h1 h2 h3 h4]
    exact modeSum_congr (fun p q _ _ => by simp [swing]) i j
  · obtain ⟨h1, h2, h3, h4⟩ := mem i j h
    rw [hd i j h1 h2 h3 h4]
    refine modeSum_congr (fun p q hp _ => ?_) i j
    have hs := phase_sin he (L := colNodes g) (q := q) hp
    have e0 : e ≠ 0 := by linarith
    simp only [swing, zero_add, Nat.cast_one, one_mul, Nat.cast_zero, zero_mul, Real.cos_zero, Real.sin_zero, mul_one, mul_zero, add_zero]
    rw [div_mul_cancel₀ _ hs]
    field_simp
    ring
end

/-! ## The grid -/

section
variable {g : Grid ℝ} (hw : g.Wide) (hT : g.T = 0) (hl : Lawful g)
include hw hT hl

theorem box_nodes : (rowNodes g : ℝ) = g.Nx - 2 ∧ (colNodes g : ℝ) = g.Ny - 2 ∧ g.Lx - g.dx / 2 = g.dx * (2 * rowNodes g + 1) / 2 ∧
    g.Ly - g.dx / 2 = g.dx * (2 * colNodes g + 1) / 2 := by
  have nx := hw.nx
  have ny := hw.ny
  rw [hT] at nx ny
  have eM : (rowNodes g : ℤ) = g.Nx - 2 := by unfold rowNodes; omega
  have eL : (colNodes g : ℤ) = g.Ny - 2 := by unfold colNodes; omega
  have eM' : (rowNodes g : ℝ) = g.Nx - 2 := by exact_mod_cast eM
  have eL' : (colNodes g : ℝ) = g.Ny - 2 := by exact_mod_cast eL
  refine ⟨eM', eL', ?_, ?_⟩
  · rw [hl.Lx, eM']; push_cast; ring
  · rw [hl.Ly, eL']; push_cast; ring

theorem boxX_eq (p : ℕ) : boxX g p * g.dx / 2 = (2 * p + 1) * (Real.pi / (2 * (2 * rowNodes g + 1))) := by
  have hx := hl.dx
  have : (0 : ℝ) < 2 * rowNodes g + 1 := by positivity
  unfold boxX waveNumber
  rw [(box_nodes hw hT hl).2.2.1]
  field_simp

theorem boxY_eq (q : ℕ) : boxY g q * g.dx / 2 = (2 * q + 1) * (Real.pi / (2 * (2 * colNodes g + 1))) := by
  have hx := hl.dx
  have : (0 : ℝ) < 2 * colNodes g + 1 := by positivity
  unfold boxY waveNumber
  rw [(box_nodes hw hT hl).2.2.2]
  field_simp

theorem boxWave_eq (p q : ℕ) (i j : ℤ) : boxWave g p q (i * g.dx) (j * g.dx) = ripple (rowNodes g) p i * ripple (colNodes g) q j := by
  unfold boxWave ripple
  congr 2
  · have := boxX_eq hw hT hl p
    linear_combination (2 * (i : ℝ) - 1) * this
  · have := boxY_eq hw hT hl q
    linear_combination (2 * (j : ℝ) - 1) * this

theorem gridTone_eq {e : ℝ} (he : 1 ≤ e) (p q : ℕ) : gridTone g e p q * g.dt = phase e (rowNodes g) (colNodes g) p q := by
  have hx := hl.dx
  have hs : 0 < Real.sqrt e := Real.sqrt_pos.mpr (by linarith)
  unfold gridTone phase bend
  rw [boxX_eq hw hT hl, boxY_eq hw hT hl, hl.dt]
  rw [show g.dx / 2 / (g.dx * Real.sqrt e) = 1 / (2 * Real.sqrt e) by field_simp, ← mul_div_right_comm (1 : ℝ), one_mul]
  field_simp

/-- A half phase per cell of a standing wave. -/
theorem box_angle {p : ℕ} (hp : p < rowNodes g) : 0 < boxX g p * g.dx / 2 ∧ boxX g p * g.dx / 2 ≤ Real.pi / 2 := by
  rw [boxX_eq hw hT hl]
  have h0 : (0 : ℝ) < 2 * rowNodes g + 1 := by positivity
  have hpi := Real.pi_pos
  have : (p : ℝ) + 1 ≤ rowNodes g := by exact_mod_cast hp
  refine ⟨by positivity, ?_⟩
  rw [mul_div_assoc', div_le_div_iff₀ (by positivity) (by norm_num)]
  nlinarith

theorem box_angle' {q : ℕ} (hq : q < colNodes g) : 0 < boxY g q * g.dx / 2 ∧ boxY g q * g.dx / 2 ≤ Real.pi / 2 := by
  rw [boxY_eq hw hT hl]
  have h0 : (0 : ℝ) < 2 * colNodes g + 1 := by positivity
  have hpi := Real.pi_pos
  have : (q : ℝ) + 1 ≤ colNodes g := by exact_mod_cast hq
  refine ⟨by positivity, ?_⟩
  rw [mul_div_assoc', div_le_div_iff₀ (by positivity) (by norm_num)]
  nlinarith
end

/-! ## The property -/

/-- The start of a pure tone: the standing wave, and the magnetic field half a step later. -/
noncomputable def toneX (g : Grid ℝ) (p q : ℕ) (i j : ℤ) : ℝ :=
  open Classical in if (updatedNodes g).Mem i j then - (boxWave g p q (i * g.dx) ((j + 1) * g.dx) - boxWave g p q (i * g.dx) (j * g.dx)) / 4 else 0
noncomputable def toneY (g : Grid ℝ) (p q : ℕ) (i j : ℤ) : ℝ :=
  open Classical in if (updatedNodes g).Mem i j then (boxWave g p q ((i + 1) * g.dx) (j * g.dx) - boxWave g p q (i * g.dx) (j * g.dx)) / 4 else 0
noncomputable def toneE (g : Grid ℝ) (p q : ℕ) (i j : ℤ) : ℝ :=
  open Classical in if (updatedNodes g).Mem i j then boxWave g p q (i * g.dx) (j * g.dx) else 0

/-- **C86**, the spectrum. A closed domain is made and objects are added that fill it with a dielectric of permittivity `e` (none for `e = 1`). Whatever
the fields are at the start, after any number of updates `Ez` is a sum of the standing waves between the walls, each oscillating with its frequency on the
grid. -/
theorem C86_spectrum_partial (g : Grid ℝ) (hw : g.Wide) (hl : Lawful g) (hT : g.T = 0) (objs : List (Object ℝ)) (hb : ∀ o ∈ objs, BoxSound o)
    (hc : ∀ o ∈ objs, ClearOfUnguardedEdges g o) (hp : ∀ o ∈ objs, PassiveObject o) (med : ℤ → ℤ → Simple ℝ) (hm : FilledBy g objs med) (e : ℝ) (he : 1 ≤ e)
    (hu : ∀ i j, (updatedNodes g).Mem i j → (med i j).eps = e ∧ (med i j).conduc = 0) (E X Y : ℤ → ℤ → ℝ)
    (out : ∀ i j, ¬ (updatedNodes g).Mem i j → E i j = 0 ∧ X i j = 0 ∧ Y i j = 0) :
    ∃ c0 c1, Core.make g = .ok c0 ∧ forList objs c0 (fun o c => c.insertObject o) = .ok c1 ∧ ∃ A B : ℕ → ℕ → ℝ, ∀ n : ℕ, ∃ c2,
      (withFields c1 E X Y).run n [] = .ok (c2, []) ∧ ∀ i j, (updatedNodes g).Mem i j → c2.f.Ez.val i j =
        ∑ p ∈ Finset.range (rowNodes g), ∑ q ∈ Finset.range (colNodes g),
          (A p q * Real.cos (gridTone g e p q * (n * g.dt)) + B p q * Real.sin (gridTone g e p q * (n * g.dt))) * boxWave g p q (i * g.dx) (j * g.dx) := by
  obtain ⟨c0, c1, k1, k2, k3, k4, -, k6, k7, k8, k9⟩ := objects_passive hw hl (.inl hT) objs hb hc hp med hm E X Y
  have eg : (withFields c1 E X Y).g = g := k4
  have psv : Passive (withFields c1 E X Y) med (updatedNodes g) := k9 _ fun i j h => by
    unfold Box.Mem updatedNodes at h
    simp only at h
    constructor <;> rw [hT] <;> omega
  have cl : Closed (withFields c1 E X Y) med :=
    ⟨k3, by rw [eg, hT], k8, k6, k7, by rw [eg]; exact psv, by rw [eg]; exact within_frame fun i j h => out i j h⟩
  obtain ⟨A, B, st⟩ := rings_start he g (withFields c1 E X Y).f
  refine ⟨c0, c1, k1, k2, A, B, fun n => ?_⟩
  obtain ⟨c2, v, r⟩ := rings_run he n 0 cl (by rw [eg]; exact hu) (by rw [eg]; exact st)
  rw [eg, zero_add] at r
  refine ⟨c2, v, fun i j h => ?_⟩
  rw [r.ez i j h]
  unfold modeSum swing
  refine Finset.sum_congr rfl fun p _ => Finset.sum_congr rfl fun q _ => ?_
  rw [← gridTone_eq hw hT hl he, boxWave_eq hw hT hl, show (n : ℝ) * (gridTone g e p q * g.dt) = gridTone g e p q * (n * g.dt) by ring]

/-- **C86**, every tone of the spectrum occurs: with the standing wave at the start it rings alone, for ever. -/
theorem C86_tone_partial (g : Grid ℝ) (hw : g.Wide) (hl : Lawful g) (hT : g.T = 0) (objs : List (Object ℝ)) (hb : ∀ o ∈ objs, BoxSound o)
    (hc : ∀ o ∈ objs, ClearOfUnguardedEdges g o) (hp : ∀ o ∈ objs, PassiveObject o) (med : ℤ → ℤ → Simple ℝ) (hm : FilledBy g objs med) (e : ℝ) (he : 1 ≤ e)
    (hu : ∀ i j, (updatedNodes g).Mem i j → (med i j).eps = e ∧ (med i j).conduc = 0) (p q : ℕ) (hpM : p < rowNodes g) (hqL : q < colNodes g) :
    ∃ c0 c1, Core.make g = .ok c0 ∧ forList objs c0 (fun o c => c.insertObject o) = .ok c1 ∧ ∀ n : ℕ, ∃ c2,
      (withFields c1 (toneE g p q) (toneX g p q) (toneY g p q)).run n [] = .ok (c2, []) ∧
      ∀ i j, (updatedNodes g).Mem i j → c2.f.Ez.val i j = Real.cos (gridTone g e p q * (n * g.dt)) * boxWave g p q (i * g.dx) (j * g.dx) := by
  have nx := hw.nx
  have ny := hw.ny
  rw [hT] at nx ny
  have eM : (rowNodes g : ℤ) = g.Nx - 2 := by unfold rowNodes; omega
  have eL : (colNodes g : ℤ) = g.Ny - 2 := by unfold colNodes; omega
  obtain ⟨c0, c1, k1, k2, k3, k4, -, k6, k7, k8, k9⟩ := objects_passive hw hl (.inl hT) objs hb hc hp med hm (toneE g p q) (toneX g p q) (toneY g p q)
  have eg : (withFields c1 (toneE g p q) (toneX g p q) (toneY g p q)).g = g := k4
  have psv : Passive (withFields c1 (toneE g p q) (toneX g p q) (toneY g p q)) med (updatedNodes g) := k9 _ fun i j h => by
    unfold Box.Mem updatedNodes at h
    simp only at h
    constructor <;> rw [hT] <;> omega
  have cl : Closed (withFields c1 (toneE g p q) (toneX g p q) (toneY g p q)) med :=
    ⟨k3, by rw [eg, hT], k8, k6, k7, by rw [eg]; exact psv, by rw [eg]; exact within_frame fun i j h => ⟨if_neg h, if_neg h, if_neg h⟩⟩
  have pick : ∀ (a : ℝ) (i j : ℤ), modeSum (rowNodes g) (colNodes g) (fun p' q' => if p' = p ∧ q' = q then a else 0) i j =
      a * (ripple (rowNodes g) p i * ripple (colNodes g) q j) := by
    intro a i j
    unfold modeSum
    rw [Finset.sum_eq_single_of_mem p (Finset.mem_range.mpr hpM) fun p' _ hne => Finset.sum_eq_zero fun q' _ => by simp [hne],
      Finset.sum_eq_single_of_mem q (Finset.mem_range.mpr hqL) fun q' _ hne => by simp [hne]]
    simp
  have sw : ∀ n, swing e (rowNodes g) (colNodes g) (fun p' q' => if p' = p ∧ q' = q then 1 else 0) (fun _ _ => 0) n =
      fun p' q' => if p' = p ∧ q' = q then Real.cos (n * phase e (rowNodes g) (colNodes g) p q) else 0 := by
    intro n
    funext p' q'
    unfold swing
    by_cases h : p' = p ∧ q' = q
    · obtain ⟨rfl, rfl⟩ := h; simp
    · simp [h]
  have wv := boxWave_eq hw hT hl p q
  have wv1 : ∀ i j : ℤ, boxWave g p q (((i : ℝ) + 1) * g.dx) (j * g.dx) = ripple (rowNodes g) p (i + 1) * ripple (colNodes g) q j := by
    intro i j
    have := wv (i + 1) j
    push_cast at this
    exact this
  have wv2 : ∀ i j : ℤ, boxWave g p q (i * g.dx) (((j : ℝ) + 1) * g.dx) = ripple (rowNodes g) p i * ripple (colNodes g) q (j + 1) := by
    intro i j
    have := wv i (j + 1)
    push_cast at this
    exact this
  have st : Rings g e (fun p' q' => if p' = p ∧ q' = q then 1 else 0) (fun _ _ => 0) 0 (withFields c1 (toneE g p q) (toneX g p q) (toneY g p q)).f := by
    refine ⟨fun i j h => ?_, fun i j h => ?_⟩
    · rw [sw, pick]
      show toneE g p q i j = _
      unfold toneE
      rw [if_pos h, wv]
      simp
    · have e1 : (fun p' q' => (swing e (rowNodes g) (colNodes g) (fun p' q' => if p' = p ∧ q' = q then 1 else 0) (fun _ _ => 0) (0 + 1) p' q' -
          swing e (rowNodes g) (colNodes g) (fun p' q' => if p' = p ∧ q' = q then 1 else 0) (fun _ _ => 0) 0 p' q') / (1 / (2 * e))) =
          fun p' q' => if p' = p ∧ q' = q then (Real.cos (phase e (rowNodes g) (colNodes g) p q) - 1) / (1 / (2 * e)) else 0 := by
        funext p' q'
        rw [sw, sw]
        simp only
        split_ifs with h
        · simp
        · simp
      rw [e1, pick]
      have hy : toneY g p q i j - toneY g p q (i - 1) j =
          (ripple (rowNodes g) p (i + 1) - 2 * ripple (rowNodes g) p i + ripple (rowNodes g) p (i - 1)) * ripple (colNodes g) q j / 4 := by
        have a1 : toneY g p q i j = (ripple (rowNodes g) p (i + 1) - ripple (rowNodes g) p i) * ripple (colNodes g) q j / 4 := by
          unfold toneY
          rw [if_pos h, wv1, wv]; ring
        have a2 : toneY g p q (i - 1) j = (ripple (rowNodes g) p i - ripple (rowNodes g) p (i - 1)) * ripple (colNodes g) q j / 4 := by
          unfold toneY
          by_cases hi : i = 1
          · subst hi
            rw [if_neg (by unfold Box.Mem updatedNodes; simp), show (1 : ℤ) - 1 = 0 from rfl, ripple_even]
            ring
          · rw [if_pos (by unfold Box.Mem updatedNodes at *; simp only at *; omega), wv1, wv, sub_add_cancel]; ring
        rw [a1, a2]; ring
      have hx : toneX g p q i j - toneX g p q i (j - 1) =
          - (ripple (colNodes g) q (j + 1) - 2 * ripple (colNodes g) q j + ripple (colNodes g) q (j - 1)) * ripple (rowNodes g) p i / 4 := by
        have a1 : toneX g p q i j = - (ripple (colNodes g) q (j + 1) - ripple (colNodes g) q j) * ripple (rowNodes g) p i / 4 := by
          unfold toneX
          rw [if_pos h, wv2, wv]; ring
        have a2 : toneX g p q i (j - 1) = - (ripple (colNodes g) q j - ripple (colNodes g) q (j - 1)) * ripple (rowNodes g) p i / 4 := by
          unfold toneX
          by_cases hj : j = 1
          · subst hj
            rw [if_neg (by unfold Box.Mem updatedNodes; simp), show (1 : ℤ) - 1 = 0 from rfl, ripple_even]
            ring
          · rw [if_pos (by unfold Box.Mem updatedNodes at *; simp only at *; omega), wv2, wv, sub_add_cancel]; ring
        rw [a1, a2]; ring
      show (toneY g p q i j - toneY g p q (i - 1) j) - (toneX g p q i j - toneX g p q i (j - 1)) = _
      rw [hy, hx, ripple_second, ripple_second]
      have hh := phase_half he (rowNodes g) (colNodes g) p q
      have h2 : Real.cos (phase e (rowNodes g) (colNodes g) p q) = 1 - 2 * Real.sin (phase e (rowNodes g) (colNodes g) p q / 2) ^ 2 := by
        have := Real.cos_two_mul (phase e (rowNodes g) (colNodes g) p q / 2)
        rw [mul_div_cancel₀ _ (by norm_num : (2 : ℝ) ≠ 0)] at this
        have := Real.sin_sq_add_cos_sq (phase e (rowNodes g) (colNodes g) p q / 2)
        linarith
      have e0 : e ≠ 0 := by linarith
      have h3 : (Real.cos (phase e (rowNodes g) (colNodes g) p q) - 1) / (1 / (2 * e)) = - (bend (rowNodes g) p + bend (colNodes g) q) := by
        rw [h2]
        field_simp at hh ⊢
        linarith
      rw [h3]
      unfold bend
      ring
  refine ⟨c0, c1, k1, k2, fun n => ?_⟩
  obtain ⟨c2, v, r⟩ := rings_run he n 0 cl (by rw [eg]; exact hu) (by rw [eg]; exact st)
  rw [eg, zero_add] at r
  refine ⟨c2, v, fun i j h => ?_⟩
  rw [r.ez i j h, sw, pick, wv, ← gridTone_eq hw hT hl he, show (n : ℝ) * (gridTone g e p q * g.dt) = gridTone g e p q * (n * g.dt) by ring]

/-- **C86**, the frequencies. The frequency on the grid is never above the one of Maxwell's equations, and below it by a part of at most `(k dx)² / 24`. -/
theorem C86_frequency (g : Grid ℝ) (hw : g.Wide) (hl : Lawful g) (hT : g.T = 0) (e : ℝ) (he : 1 ≤ e) (p q : ℕ) (hpM : p < rowNodes g) (hqL : q < colNodes g) :
    gridTone g e p q ≤ trueTone g e p q ∧
      trueTone g e p q * (1 - (boxX g p ^ 2 + boxY g q ^ 2) * g.dx ^ 2 / 24) ≤ gridTone g e p q := by
  have hx := hl.dx
  obtain ⟨a0, a1⟩ := box_angle hw hT hl hpM
  obtain ⟨b0, b1⟩ := box_angle' hw hT hl hqL
  set a := boxX g p * g.dx / 2 with ha
  set b := boxY g q * g.dx / 2 with hb
  have hpi := Real.pi_pos
  have se1 : 1 ≤ Real.sqrt e := Real.one_le_sqrt.mpr he
  have se : 0 < Real.sqrt e := by linarith
  set r := Real.sqrt (a ^ 2 + b ^ 2) with hr
  have r0 : 0 ≤ r := Real.sqrt_nonneg _
  have r1 : r ≤ Real.pi := by
    rw [hr, Real.sqrt_le_left hpi.le]
    have := pow_le_pow_left₀ a0.le a1 2
    have := pow_le_pow_left₀ b0.le b1 2
    nlinarith
  have ks : Real.sqrt (boxX g p ^ 2 + boxY g q ^ 2) = 2 * r / g.dx := by
    rw [show boxX g p ^ 2 + boxY g q ^ 2 = (2 / g.dx) ^ 2 * (a ^ 2 + b ^ 2) by rw [ha, hb]; field_simp, Real.sqrt_mul (sq_nonneg _),
      Real.sqrt_sq (by positivity)]
    ring
  have kk : (boxX g p ^ 2 + boxY g q ^ 2) * g.dx ^ 2 / 24 = (a ^ 2 + b ^ 2) / 6 := by rw [ha, hb]; ring
  have tt : trueTone g e p q = 4 / g.dx * (r / (2 * Real.sqrt e)) := by
    unfold trueTone
    rw [ks]
    field_simp
    ring
  set s := Real.sqrt (Real.sin a ^ 2 + Real.sin b ^ 2) with hs
  have gt : gridTone g e p q = 4 / g.dx * Real.arcsin (s / (2 * Real.sqrt e)) := by
    unfold gridTone
    rw [← ha, ← hb, ← hs, hl.dt, show g.dx / 2 / (g.dx * Real.sqrt e) * s = s / (2 * Real.sqrt e) by field_simp]
    congr 1
    field_simp
    ring
  have s0 : 0 ≤ s := Real.sqrt_nonneg _
  have q0 : 0 ≤ 4 / g.dx := by positivity
  rw [tt, gt, kk]
  constructor
  · refine mul_le_mul_of_nonneg_left ?_ q0
    have top : r / (2 * Real.sqrt e) ≤ Real.pi / 2 := by
      rw [div_le_div_iff₀ (by positivity) (by norm_num)]
      nlinarith
    have sr0 : 0 ≤ Real.sin (r / 2) := Real.sin_nonneg_of_nonneg_of_le_pi (by linarith) (by linarith)
    have up : s ≤ 2 * Real.sin (r / 2) := by
      rw [hs, Real.sqrt_le_left (by linarith)]
      exact sin_pair a0.le a1 b0.le b1
    have sc := sin_scaled (r := r / 2) (c := 1 / Real.sqrt e) (by linarith) (by linarith) (by positivity) ((div_le_one se).mpr se1)
    have e1 : 1 / Real.sqrt e * (r / 2) = r / (2 * Real.sqrt e) := by field_simp
    rw [e1] at sc
    have le : s / (2 * Real.sqrt e) ≤ Real.sin (r / (2 * Real.sqrt e)) := by
      refine le_trans ?_ sc
      rw [div_le_iff₀ (by positivity)]
      have : 1 / Real.sqrt e * Real.sin (r / 2) * (2 * Real.sqrt e) = 2 * Real.sin (r / 2) := by field_simp
      rw [this]; exact up
    have := Real.arcsin_le_arcsin le
    rwa [Real.arcsin_sin (le_trans (by linarith) (div_nonneg r0 (by positivity) : (0 : ℝ) ≤ r / (2 * Real.sqrt e))) top] at this
  · rw [mul_assoc]
    refine mul_le_mul_of_nonneg_left ?_ q0
    have low := sin_pair_low a0.le a1 b0.le b1
    have arg : s / (2 * Real.sqrt e) ≤ 1 := by
      rw [div_le_one (by positivity)]
      have : s ≤ 2 := by
        rw [hs, Real.sqrt_le_left (by norm_num)]
        have := Real.sin_sq_le_one a
        have := Real.sin_sq_le_one b
        linarith
      linarith
    have arg0 : 0 ≤ s / (2 * Real.sqrt e) := by positivity
    have : s / (2 * Real.sqrt e) ≤ Real.arcsin (s / (2 * Real.sqrt e)) := by
      have := Real.sin_le (Real.arcsin_nonneg.mpr arg0)
      rwa [Real.sin_arcsin (by linarith) arg] at this
    refine le_trans ?_ this
    rw [div_mul_eq_mul_div]
    exact div_le_div_of_nonneg_right low (by positivity)

/-- **C86 is false for a box of metal.** An empty closed domain can ring for ever at a frequency below the lowest resonance of a box of its size with four
conducting walls. -/
theorem C86_false (g : Grid ℝ) (hw : g.Wide) (hl : Lawful g) (hT : g.T = 0) (hx : 3 ≤ g.Nx) (hy : 3 ≤ g.Ny) :
    ∃ (ω : ℝ) (E X Y : ℤ → ℤ → ℝ) (c0 : Core ℝ), 0 < ω ∧ ω < metalTone g ∧ E 1 1 ≠ 0 ∧ Core.make g = .ok c0 ∧ ∀ n : ℕ, ∃ c2,
      (withFields c0 E X Y).run n [] = .ok (c2, []) ∧ ∀ i j, (updatedNodes g).Mem i j → c2.f.Ez.val i j = Real.cos (ω * (n * g.dt)) * E i j := by
  have hpi := Real.pi_pos
  have dx := hl.dx
  have hp : 0 < rowNodes g := by unfold rowNodes; omega
  have hq : 0 < colNodes g := by unfold colNodes; omega
  obtain ⟨c0, c1, k1, k2, k3⟩ := C86_tone_partial g hw hl hT [] (by simp) (by simp) (by simp) (fun _ _ => Qbox.vacuum)
    ⟨fun i j o h => by obtain ⟨b, a, e, -⟩ := h; simp at e, fun _ _ _ => rfl⟩ 1 le_rfl (fun i j _ => by simp [Qbox.vacuum]) 0 0 hp hq
  obtain rfl : c0 = c1 := Except.ok.inj k2
  obtain ⟨up, -⟩ := C86_frequency g hw hl hT 1 le_rfl 0 0 hp hq
  have m11 : (updatedNodes g).Mem 1 1 := by unfold Box.Mem updatedNodes; simp only; omega
  have d1 : g.dx < g.Lx := by
    rw [hl.Lx]
    have : (2 : ℝ) ≤ ((g.Nx - 1 : ℤ) : ℝ) := by exact_mod_cast (by omega : (2 : ℤ) ≤ g.Nx - 1)
    nlinarith
  have d2 : g.dx < g.Ly := by
    rw [hl.Ly]
    have : (2 : ℝ) ≤ ((g.Ny - 1 : ℤ) : ℝ) := by exact_mod_cast (by omega : (2 : ℤ) ≤ g.Ny - 1)
    nlinarith
  refine ⟨gridTone g 1 0 0, toneE g 0 0, toneX g 0 0, toneY g 0 0, c0, ?_, up.trans_lt ?_, ?_, k1, fun n => ?_⟩
  · have := phase_sin le_rfl (L := colNodes g) (q := 0) hp
    have h0 : 0 ≤ phase 1 (rowNodes g) (colNodes g) 0 0 := by
      unfold phase
      have := Real.arcsin_nonneg.mpr (phase_arg le_rfl (rowNodes g) (colNodes g) 0 0).1
      linarith
    have h1 : phase 1 (rowNodes g) (colNodes g) 0 0 ≠ 0 := fun h => this (by rw [h, Real.sin_zero])
    have h2 := gridTone_eq hw hT hl le_rfl 0 0
    have hdt : 0 < g.dt := by rw [hl.dt]; positivity
    have : 0 < gridTone g 1 0 0 * g.dt := by rw [h2]; exact lt_of_le_of_ne h0 (Ne.symm h1)
    exact pos_of_mul_pos_left this hdt.le
  · unfold trueTone metalTone boxX boxY waveNumber
    rw [Real.sqrt_one, div_one, ← Real.sqrt_sq hpi.le, ← Real.sqrt_mul (sq_nonneg _), Real.sqrt_sq hpi.le]
    refine Real.sqrt_lt_sqrt (by positivity) ?_
    have one : ∀ {L : ℝ}, g.dx < L → (((0 : ℕ) + 1 / 2 : ℝ) * Real.pi / (L - g.dx / 2)) ^ 2 < Real.pi ^ 2 * (1 / L ^ 2) := by
      intro L h
      have hL : 0 < L := dx.trans h
      rw [show Real.pi ^ 2 * (1 / L ^ 2) = (Real.pi / L) ^ 2 by ring]
      refine pow_lt_pow_left₀ ?_ (div_nonneg (by positivity) (by linarith)) (by norm_num)
      rw [div_lt_div_iff₀ (by linarith) hL]
      push_cast
      nlinarith
    have := one d1
    have := one d2
    linarith
  · unfold toneE
    rw [if_pos m11, boxWave_eq hw hT hl]
    have pos : ∀ {M : ℕ}, 0 < M → ripple M 0 1 ≠ 0 := by
      intro M hM
      unfold ripple
      have : (1 : ℝ) ≤ M := by exact_mod_cast hM
      have e1 : (2 * ((0 : ℕ) : ℝ) + 1) * (2 * ((1 : ℤ) : ℝ) - 1) * (Real.pi / (2 * (2 * M + 1))) = Real.pi / (2 * (2 * M + 1)) := by push_cast; ring
      rw [e1]
      refine (Real.cos_pos_of_mem_Ioo ⟨lt_of_lt_of_le (by linarith : -(Real.pi / 2) < 0) (by positivity), ?_⟩).ne'
      exact div_lt_div_of_pos_left hpi (by norm_num) (by linarith)
    exact mul_ne_zero (pos hp) (pos hq)
  · obtain ⟨c2, v, r⟩ := k3 n
    refine ⟨c2, v, fun i j h => ?_⟩
    rw [r i j h]
    unfold toneE
    rw [if_pos h]

end Qbox.Props
