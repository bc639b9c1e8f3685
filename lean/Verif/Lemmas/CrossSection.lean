import Verif.Spec.CrossSpec
import Verif.Lemmas.SpectraWave
import Verif.Lemmas.LineError
import Verif.Lemmas.Lit
import Verif.Props.IncidentFluxProps
import Verif.Props.IncidentProps

/-!
# The recorded spectra of the incident wave
-/

namespace Qbox
open Scalar Spec Props

theorem update_tfsf {K : Type} [Scalar K] {c c' : Core K} {l l' : List (Source K)} (h : c.update l = .ok (c', l')) : optPulse c.tfsf = .ok c'.tfsf ∧ c'.g = c.g := by
  unfold Core.update at h
  obtain ⟨c1, h1, h⟩ := (Except.bind_ok ..).mp h
  obtain ⟨⟨l1, f1⟩, -, h⟩ := (Except.bind_ok ..).mp h
  obtain ⟨c2, h2, h⟩ := (Except.bind_ok ..).mp h
  obtain ⟨rfl, -⟩ := Prod.mk.inj (Except.ok.inj h)
  have e1 : c1.tfsf = c.tfsf ∧ c1.g = c.g := by
    unfold Core.stageE at h1
    obtain ⟨_, -, h1⟩ := (Except.bind_ok ..).mp h1
    obtain ⟨_, -, h1⟩ := (Except.bind_ok ..).mp h1
    obtain ⟨_, -, h1⟩ := (Except.bind_ok ..).mp h1
    obtain ⟨_, -, h1⟩ := (Except.bind_ok ..).mp h1
    obtain ⟨_, -, h1⟩ := (Except.bind_ok ..).mp h1
    obtain ⟨_, -, h1⟩ := (Except.bind_ok ..).mp h1
    rw [← Except.ok.inj h1]
    exact ⟨rfl, rfl⟩
  unfold Core.stageH at h2
  obtain ⟨o, ho, h2⟩ := (Except.bind_ok ..).mp h2
  obtain ⟨_, -, h2⟩ := (Except.bind_ok ..).mp h2
  obtain ⟨_, -, h2⟩ := (Except.bind_ok ..).mp h2
  obtain ⟨_, -, h2⟩ := (Except.bind_ok ..).mp h2
  rw [← Except.ok.inj h2]
  dsimp only at ho ⊢
  rw [e1.1] at ho
  exact ⟨ho, e1.2⟩

theorem make_grid {K : Type} [Scalar K] {g : Grid K} {c : Core K} (h : Core.make g = .ok c) : c.g = g := by
  unfold Core.make at h
  obtain ⟨f, -, h⟩ := (Except.bind_ok ..).mp h
  obtain ⟨p, h1, h⟩ := (Except.bind_ok ..).mp h
  obtain ⟨sc, -, h⟩ := (Except.bind_ok ..).mp h
  cases h
  rfl

theorem insertAll_grid {K : Type} [Scalar K] : ∀ (l : List (Object K)) {c c' : Core K}, forList l c (fun o c => c.insertObject o) = .ok c' → c'.g = c.g
  | [], c, c', h => by cases h; rfl
  | o :: l, c, c', h => by
    rw [forList_cons] at h
    obtain ⟨c1, h1, h⟩ := (Except.bind_ok ..).mp h
    refine (insertAll_grid l h).trans ?_
    unfold Core.insertObject at h1
    obtain ⟨f, -, h1⟩ := (Except.bind_ok ..).mp h1
    cases hk : o.mat.kind with
    | simple m => rw [hk] at h1; cases h1; rfl
    | debye m => rw [hk] at h1; obtain ⟨_, -, h1⟩ := (Except.bind_ok ..).mp h1; cases h1; rfl
    | drude m => rw [hk] at h1; obtain ⟨_, -, h1⟩ := (Except.bind_ok ..).mp h1; cases h1; rfl
    | lorentz m => rw [hk] at h1; obtain ⟨_, -, h1⟩ := (Except.bind_ok ..).mp h1; cases h1; rfl

/-- The region of a simulation takes its steps whatever else there is. -/
theorem run_tfsf {K : Type} [Scalar K] : ∀ (n : ℕ) {c c' : Core K} {l l' : List (Source K)} {x : Tfsf K}, c.run n l = .ok (c', l') → c.tfsf = some x →
    ∃ y, pulses n x = .ok y ∧ c'.tfsf = some y
  | 0, c, c', l, l', x, h, hx => by
    obtain ⟨rfl, -⟩ := Prod.mk.inj (Except.ok.inj h)
    exact ⟨x, rfl, hx⟩
  | n + 1, c, c', l, l', x, h, hx => by
    unfold Core.run at h
    obtain ⟨⟨c1, l1⟩, h1, h⟩ := (Except.bind_ok ..).mp h
    have u := (update_tfsf h1).1
    rw [hx] at u
    unfold optPulse at u
    obtain ⟨x1, p, u⟩ := (Except.bind_ok ..).mp u
    obtain ⟨y, r1, r2⟩ := run_tfsf n h (Except.ok.inj u).symm
    exact ⟨y, by unfold pulses; rw [p]; exact r1, r2⟩

/-- Calls that only look or advance the time, as steps of the simulation. -/
theorem runOk_core {now : ℕ → ℝ} : ∀ (ops : List (Op ℝ)) {s s' : Sim ℝ}, Advances ops → s.runOk now ops = .ok s' →
    s.core.run (ops.countP isUpdate) s.srcs = .ok (s'.core, s'.srcs)
  | [], s, s', _, h => by cases h; rfl
  | op :: l, s, s', ha, h => by
    unfold Sim.runOk at h
    cases e : s.step now op with
    | threw m s1 => simp only [e] at h; cases h
    | ub u => simp only [e] at h; cases h
    | ok s1 =>
      simp only [e] at h
      have ih := runOk_core l (fun o ho => ha o (List.mem_cons_of_mem _ ho)) h
      rcases ha op (List.mem_cons_self ..) with ob | rfl
      · have p := Sim.step_phys e
        rw [Phys.step_observes _ ob] at p
        have p := Except.ok.inj p
        rw [show s.core = s1.core from congrArg Phys.core p, show s.srcs = s1.srcs from congrArg Phys.srcs p, List.countP_cons_of_neg (by cases op <;> first | cases ob; done | simp [isUpdate])]
        exact ih
      · rw [List.countP_cons_of_pos (by rfl)]
        unfold Core.run
        have u : s.core.update s.srcs = .ok (s1.core, s1.srcs) := Sim.update_core e
        rw [u]
        exact ih

theorem mul_close {z u v : ℂ} {η A : ℝ} (hz : ‖z‖ ≤ A) (hu : ‖u - z‖ ≤ η) (hv : ‖v - z‖ ≤ η) :
    |u.re * v.re + u.im * v.im - ‖z‖ ^ 2| ≤ η * (2 * A + η) := by
  have e : u.re * v.re + u.im * v.im = (u * (starRingEnd ℂ) v).re := by
    simp [Complex.mul_re]
  have e2 : ‖z‖ ^ 2 = (z * (starRingEnd ℂ) z).re := by
    rw [Complex.mul_conj, ← Complex.normSq_eq_norm_sq, Complex.ofReal_re]
  rw [e, e2, ← Complex.sub_re]
  refine (Complex.abs_re_le_norm _).trans ?_
  rw [show u * (starRingEnd ℂ) v - z * (starRingEnd ℂ) z = (u - z) * (starRingEnd ℂ) z + z * (starRingEnd ℂ) (v - z) + (u - z) * (starRingEnd ℂ) (v - z) by
    rw [map_sub]; ring]
  have n0 : 0 ≤ η := (norm_nonneg _).trans hu
  refine (norm_add₃_le).trans ?_
  rw [norm_mul, norm_mul, norm_mul, Complex.norm_conj, Complex.norm_conj]
  have a := mul_le_mul hu hz (norm_nonneg _) n0
  have b := mul_le_mul hz hv (norm_nonneg _) ((norm_nonneg _).trans hz)
  have c := mul_le_mul hu hv (norm_nonneg _) n0
  linarith

theorem spec_complex (v : ℕ → ℝ) (f dt : ℝ) : ∀ n : ℕ, (∑ m ∈ Finset.range n, (v m : ℂ) * wavelet f ((m + 1) * dt)) = ⟨cosSpec v f dt n, sinSpec v f dt n⟩
  | 0 => by simp [cosSpec, sinSpec]; rfl
  | n + 1 => by
    rw [Finset.sum_range_succ, spec_complex v f dt n]
    have c : cosSpec v f dt (n + 1) = cosSpec v f dt n + v n * Real.cos (2 * Real.pi * f * (((n : ℝ) + 1) * dt)) := by
      unfold cosSpec; rw [List.range_succ, List.map_append, List.sum_append]; simp
    have s : sinSpec v f dt (n + 1) = sinSpec v f dt n + v n * Real.sin (2 * Real.pi * f * (((n : ℝ) + 1) * dt)) := by
      unfold sinSpec; rw [List.range_succ, List.map_append, List.sum_append]; simp
    rw [c, s, wavelet_eq]
    apply Complex.ext
    · simp only [Complex.add_re, Complex.mul_re, Complex.ofReal_re, Complex.ofReal_im, zero_mul, sub_zero, Complex.exp_ofReal_mul_I_re]
    · simp only [Complex.add_im, Complex.mul_im, Complex.ofReal_re, Complex.ofReal_im, zero_mul, add_zero, Complex.exp_ofReal_mul_I_im]

variable {s : ℝ → ℝ} {Ms : ℝ}

theorem signal_slow (hs : SmoothStart s Ms) {τ : ℝ} (hτ : 0 ≤ τ) : Slow s τ (Ms * τ) := fun t t' _ h h' => by
  have := hs.change_le hτ (a := t) (b := t') (h.trans h') h'
  rwa [abs_of_nonneg (sub_nonneg.mpr h)] at this

/-- Recorded values close to the signal have a sum close to the spectrum. -/
theorem near_spectrum (hs : SmoothStart s Ms) {dt : ℝ} (hd : 0 ≤ dt) (f : ℝ) (n : ℕ) (v : ℕ → ℝ) {ε : ℝ} (hv : ∀ m < n, |v m - s ((m + 1 / 2) * dt)| ≤ ε) :
    ‖(⟨dt * cosSpec v f dt n, dt * sinSpec v f dt n⟩ : ℂ) - spectrum s f (n * dt)‖ ≤
      n * dt * (ε + dt * (Ms * (n * dt) + 2 * Real.pi * |f| * (Ms * (n * dt) ^ 2))) := by
  have τ0 : 0 ≤ n * dt := mul_nonneg (Nat.cast_nonneg n) hd
  have M0 := hs.nonneg
  have key := sum_integral (f := f) (signal_slow hs τ0) (mul_nonneg M0 τ0) (fun t _ h => hs.size_le τ0 h) hd (θ := 1 / 2) (by norm_num) (by norm_num) v n le_rfl
  rw [spec_complex] at key
  have e : (dt : ℂ) * ⟨cosSpec v f dt n, sinSpec v f dt n⟩ = ⟨dt * cosSpec v f dt n, dt * sinSpec v f dt n⟩ := by
    apply Complex.ext <;> simp
  rw [e] at key
  refine key.trans ?_
  have : ∑ m ∈ Finset.range n, dt * |v m - s ((m + 1 / 2) * dt)| ≤ ∑ m ∈ Finset.range n, dt * ε :=
    Finset.sum_le_sum fun m hm => mul_le_mul_of_nonneg_left (hv m (Finset.mem_range.mp hm)) hd
  rw [Finset.sum_const, Finset.card_range, nsmul_eq_mul] at this
  linarith

theorem signal_spectrum_le (hs : SmoothStart s Ms) {T : ℝ} (hT : 0 ≤ T) (f : ℝ) : ‖spectrum s f T‖ ≤ Ms * T ^ 3 := by
  unfold Spec.spectrum
  have := intervalIntegral.norm_integral_le_of_norm_le_const (a := 0) (b := T) (f := fun t => (s t : ℂ) * Complex.exp (2 * Real.pi * f * t * Complex.I)) (C := Ms * T ^ 2) fun t ht => by
    rw [Set.uIoc_of_le hT] at ht
    have := norm_wavelet f t
    unfold wavelet at this
    rw [norm_mul, this, mul_one, Complex.norm_real]
    exact hs.size_le hT ht.2
  rw [sub_zero, abs_of_nonneg hT] at this
  refine this.trans (le_of_eq (by ring))

theorem incidentErrorX_mono {M dt : ℝ} (hM : 0 ≤ M) (hd : 0 ≤ dt) {m n : ℕ} (h : m ≤ n) {R : ℝ} (hR : 0 ≤ R) : incidentErrorX M dt m R ≤ incidentErrorX M dt n R := by
  have : (m : ℝ) ≤ n := by exact_mod_cast h
  unfold incidentErrorX incidentError
  have a : 0 ≤ (R + 1) * (M * dt ^ 4) := by positivity
  have b : 0 ≤ (R + 1) * (M * dt ^ 5) := by positivity
  have c := mul_le_mul_of_nonneg_left (mul_le_mul_of_nonneg_right (show 160 * ((m : ℝ) + 1) ≤ 160 * (n + 1) by linarith) b) hR
  have d := mul_le_mul_of_nonneg_right (show 80 * (m : ℝ) ≤ 80 * n by linarith) a
  linarith

variable {dt : ℝ} {e h : ℕ → ℤ → ℝ}

theorem avg_close {a b u v z E p q : ℝ} (h1 : |a - u| ≤ E) (h2 : |b - v| ≤ E) (h3 : |u - z| ≤ p) (h4 : |v - z| ≤ q) : |(a + b) / 2 - z| ≤ E + (p + q) / 2 := by
  rw [abs_le] at *
  constructor <;> linarith [h1.1, h1.2, h2.1, h2.2, h3.1, h3.2, h4.1, h4.2]

/-- The line at the two places where the region records. -/
theorem line_records {R : ℤ} (hR : 1 ≤ R) (W : LineWave s dt (R + 4) e h) (hd : 0 ≤ dt) (hs : SmoothStart s Ms) {n m : ℕ} (hm : m < n) :
    |(e (m + 1) 2 + e m 2) / 2 - s ((m + 1 / 2) * dt)| ≤ incidentErrorX Ms dt n (R + 1) + dt * (2 * (Ms * (n * dt))) ∧
    |(h m 2 + h m 1) / 2 - s ((m + 1 / 2) * dt)| ≤ incidentErrorX Ms dt n (R + 1) + dt * (2 * (Ms * (n * dt))) := by
  have M0 := hs.nonneg
  have R1 : (1 : ℝ) ≤ R := by exact_mod_cast hR
  have τ0 : 0 ≤ n * dt := mul_nonneg (Nat.cast_nonneg n) hd
  have mn : (m : ℝ) + 1 ≤ n := by exact_mod_cast hm
  have at' : ∀ z : ℝ, z ≤ n → z * dt ≤ n * dt := fun z hz => mul_le_mul_of_nonneg_right hz hd
  have move : ∀ z : ℝ, z ≤ m + 1 / 2 → |s (z * dt) - s ((m + 1 / 2) * dt)| ≤ Ms * (n * dt) * ((m + 1 / 2 - z) * dt) := fun z hz => by
    have := hs.change_le τ0 (at' (m + 1 / 2) (by linarith)) (at' z (by linarith))
    rwa [show z * dt - (m + 1 / 2) * dt = - ((m + 1 / 2 - z) * dt) by ring, abs_neg, abs_of_nonneg (mul_nonneg (by linarith) hd)] at this
  have B0 : ∀ k : ℕ, k ≤ n → 80 * (k : ℝ) * (((R + 4 : ℤ) - 3) * (Ms * dt ^ 4)) ≤ incidentErrorX Ms dt n (R + 1) := fun k hk => by
    have kn : (k : ℝ) ≤ n := by exact_mod_cast hk
    unfold incidentErrorX incidentError
    push_cast
    have p : 0 ≤ (Ms * dt ^ 4) := by positivity
    have a : 80 * (k : ℝ) * (((R : ℝ) + 4 - 3) * (Ms * dt ^ 4)) ≤ 80 * n * ((R + 1 + 1) * (Ms * dt ^ 4)) :=
      mul_le_mul (by linarith) (mul_le_mul_of_nonneg_right (by linarith) p) (mul_nonneg (by linarith) p) (by positivity)
    have b : 0 ≤ Ms * dt ^ 2 := by positivity
    have c : 0 ≤ ((R : ℝ) + 1) * (160 * (n + 1) * ((R + 1 + 1) * (Ms * dt ^ 5)) + 5 * (Ms * dt ^ 3)) := by positivity
    linarith
  constructor
  · have e1 := (W.close (by omega) hd hs.four hs.before (m + 1) (k := 2) (by omega) (by omega)).trans (B0 (m + 1) hm)
    have e2 := (W.close (by omega) hd hs.four hs.before m (k := 2) (by omega) (by omega)).trans (B0 m hm.le)
    have m1 := move (((m + 1 : ℕ) : ℝ) - 2 * ((2 : ℤ) - 1)) (by push_cast; linarith)
    have m2 := move ((m : ℝ) - 2 * ((2 : ℤ) - 1)) (by push_cast; linarith)
    push_cast at e1 e2 m1 m2
    have d1 : Ms * (n * dt) * ((m + 1 / 2 - (m + 1 - 2 * (2 - 1))) * dt) = 3 / 2 * (dt * (Ms * (n * dt))) := by ring
    have d2 : Ms * (n * dt) * ((m + 1 / 2 - (m - 2 * (2 - 1))) * dt) = 5 / 2 * (dt * (Ms * (n * dt))) := by ring
    rw [d1] at m1
    rw [d2] at m2
    exact (avg_close e1 e2 m1 m2).trans (le_of_eq (by ring))
  · have X : ∀ k : ℤ, 1 ≤ k → k ≤ 2 → |h m k - s (((m : ℝ) - 2 * (k - 1) - 1 / 2) * dt)| ≤ incidentErrorX Ms dt n (R + 1) := fun k k1 k2 => by
      obtain ⟨d, hd'⟩ : ∃ d : ℕ, (d : ℤ) = R + 2 - k := ⟨(R + 2 - k).toNat, by omega⟩
      have key := W.close_h (by omega) hd hs m d (by omega)
      rw [show (R + 4 - 2 - (d : ℤ)) = k by omega] at key
      refine key.trans (le_trans ?_ (incidentErrorX_mono M0 hd hm.le (by linarith)))
      have dr : (d : ℝ) ≤ R + 1 := by
        have : (d : ℤ) ≤ R + 1 := by omega
        exact_mod_cast this
      unfold incidentErrorX incidentError
      push_cast
      have p4 : 0 ≤ Ms * dt ^ 4 := by positivity
      have p5 : 0 ≤ Ms * dt ^ 5 := by positivity
      have a : 80 * (m : ℝ) * (((R : ℝ) + 4 - 3) * (Ms * dt ^ 4)) ≤ 80 * m * ((R + 1 + 1) * (Ms * dt ^ 4)) :=
        mul_le_mul_of_nonneg_left (mul_le_mul_of_nonneg_right (by linarith) p4) (by positivity)
      have b : 160 * ((m : ℝ) + 1) * (((R : ℝ) + 4 - 3) * (Ms * dt ^ 5)) ≤ 160 * (m + 1) * ((R + 1 + 1) * (Ms * dt ^ 5)) :=
        mul_le_mul_of_nonneg_left (mul_le_mul_of_nonneg_right (by linarith) p5) (by positivity)
      have c : (d : ℝ) * (160 * ((m : ℝ) + 1) * (((R : ℝ) + 4 - 3) * (Ms * dt ^ 5)) + 5 * (Ms * dt ^ 3)) ≤
          (R + 1) * (160 * (m + 1) * ((R + 1 + 1) * (Ms * dt ^ 5)) + 5 * (Ms * dt ^ 3)) :=
        mul_le_mul dr (by linarith) (add_nonneg (mul_nonneg (by positivity) (mul_nonneg (by linarith) p5)) (by positivity)) (by linarith)
      linarith
    have e1 := X 2 (by omega) le_rfl
    have e2 := X 1 le_rfl (by omega)
    have m1 := move ((m : ℝ) - 2 * ((2 : ℤ) - 1) - 1 / 2) (by push_cast; linarith)
    have m2 := move ((m : ℝ) - 2 * ((1 : ℤ) - 1) - 1 / 2) (by push_cast; linarith)
    push_cast at e1 e2 m1 m2
    have d1 : Ms * (n * dt) * ((m + 1 / 2 - (m - 2 * (2 - 1) - 1 / 2)) * dt) = 3 * (dt * (Ms * (n * dt))) := by ring
    have d2 : Ms * (n * dt) * ((m + 1 / 2 - (m - 2 * (1 - 1) - 1 / 2)) * dt) = dt * (Ms * (n * dt)) := by ring
    rw [d1] at m1
    rw [d2] at m2
    exact (avg_close e1 e2 m1 m2).trans (le_of_eq (by ring))

end Qbox
