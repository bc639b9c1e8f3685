import Verif.Spec.SpectraWaveSpec
import Verif.Lemmas.LorentzRun
import Verif.Lemmas.SimPhys
import Verif.Lemmas.CurrentsMake
import Verif.Props.SpectraFileProps
import Verif.Props.RoundedDrivenProps
import Verif.Props.RoundedGridProps
import Mathlib.MeasureTheory.Integral.IntervalIntegral.Basic
import Mathlib.Analysis.SpecialFunctions.Trigonometric.Bounds

/-! # Fourier sums of a program and Fourier integrals of a wave -/

namespace Qbox
open Scalar Spec Props

/-! ## One signal -/

theorem cis_dist (a b : ℝ) : ‖Complex.exp (a * Complex.I) - Complex.exp (b * Complex.I)‖ ≤ |a - b| := by
  have e : Complex.exp (a * Complex.I) - Complex.exp (b * Complex.I) =
      Complex.exp (b * Complex.I) * (Complex.exp (Complex.I * ((a - b : ℝ) : ℂ)) - 1) := by
    rw [mul_sub, mul_one, ← Complex.exp_add]
    congr 2
    push_cast
    ring
  rw [e, norm_mul, Complex.norm_exp_ofReal_mul_I, one_mul]
  exact Real.norm_exp_I_mul_ofReal_sub_one_le

/-- The summand for one frequency. -/
noncomputable def wavelet (f t : ℝ) : ℂ := Complex.exp (2 * Real.pi * f * t * Complex.I)

theorem wavelet_eq (f t : ℝ) : wavelet f t = Complex.exp (((2 * Real.pi * f * t : ℝ) : ℂ) * Complex.I) := by
  unfold wavelet; push_cast; rfl

theorem norm_wavelet (f t : ℝ) : ‖wavelet f t‖ = 1 := by rw [wavelet_eq, Complex.norm_exp_ofReal_mul_I]

theorem wavelet_dist (f s t : ℝ) : ‖wavelet f s - wavelet f t‖ ≤ 2 * Real.pi * |f| * |s - t| := by
  rw [wavelet_eq, wavelet_eq]
  refine (cis_dist _ _).trans (le_of_eq ?_)
  rw [show 2 * Real.pi * f * s - 2 * Real.pi * f * t = 2 * Real.pi * f * (s - t) by ring, abs_mul, abs_mul, abs_of_pos (by positivity)]

/-- A signal that changes by at most `M` per unit of time. -/
def Slow (v : ℝ → ℝ) (τ M : ℝ) : Prop := ∀ t t', 0 ≤ t → t ≤ t' → t' ≤ τ → |v t' - v t| ≤ M * (t' - t)

theorem Slow.dist {v : ℝ → ℝ} {τ M : ℝ} (h : Slow v τ M) {s t : ℝ} (hs : 0 ≤ s) (hs' : s ≤ τ) (ht : 0 ≤ t) (ht' : t ≤ τ) : |v s - v t| ≤ M * |s - t| := by
  rcases le_total s t with c | c
  · rw [abs_sub_comm, abs_sub_comm s t, abs_of_nonneg (by linarith : 0 ≤ t - s)]
    exact h s t hs c ht'
  · rw [abs_of_nonneg (by linarith : 0 ≤ s - t)]
    exact h t s ht c hs'

theorem Slow.continuousOn {v : ℝ → ℝ} {τ M : ℝ} (h : Slow v τ M) (hM : 0 ≤ M) : ContinuousOn v (Set.Icc 0 τ) := by
  have : LipschitzOnWith ⟨M, hM⟩ v (Set.Icc 0 τ) := by
    refine LipschitzOnWith.of_dist_le_mul fun s hs t ht => ?_
    rw [Real.dist_eq, Real.dist_eq]
    exact h.dist hs.1 hs.2 ht.1 ht.2
  exact this.continuousOn

theorem wavelet_continuous (f : ℝ) : Continuous (wavelet f) := by
  unfold wavelet
  fun_prop

theorem Slow.integrable {v : ℝ → ℝ} {τ M : ℝ} (h : Slow v τ M) (hM : 0 ≤ M) (f : ℝ) {a b : ℝ} (ha : 0 ≤ a) (hab : a ≤ b) (hb : b ≤ τ) :
    IntervalIntegrable (fun t => (v t : ℂ) * wavelet f t) MeasureTheory.volume a b := by
  refine ContinuousOn.intervalIntegrable ?_
  rw [Set.uIcc_of_le hab]
  refine ContinuousOn.mul ?_ (wavelet_continuous f).continuousOn
  exact Complex.continuous_ofReal.comp_continuousOn ((h.continuousOn hM).mono (Set.Icc_subset_Icc ha hb))

/-- One step of the sum: the signal taken at `s` somewhere in the step, the wavelet at the end of the step. -/
theorem step_integral {v : ℝ → ℝ} {τ M A f a dt s : ℝ} (h : Slow v τ M) (hM : 0 ≤ M) (hA : ∀ t, 0 ≤ t → t ≤ τ → |v t| ≤ A) (hd : 0 ≤ dt) (ha : 0 ≤ a) (hb : a + dt ≤ τ)
    (hs : a ≤ s) (hs' : s ≤ a + dt) :
    ‖(dt : ℂ) * ((v s : ℂ) * wavelet f (a + dt)) - ∫ t in a..(a + dt), (v t : ℂ) * wavelet f t‖ ≤ dt * (dt * (M + 2 * Real.pi * |f| * A)) := by
  have i1 := h.integrable hM f ha (by linarith : a ≤ a + dt) hb
  have e : (dt : ℂ) * ((v s : ℂ) * wavelet f (a + dt)) - ∫ t in a..(a + dt), (v t : ℂ) * wavelet f t =
      ∫ t in a..(a + dt), ((v s : ℂ) * wavelet f (a + dt) - (v t : ℂ) * wavelet f t) := by
    rw [intervalIntegral.integral_sub (by simp) i1, intervalIntegral.integral_const]
    simp
  rw [e]
  have A0 : 0 ≤ A := (abs_nonneg _).trans (hA a ha (by linarith))
  refine (intervalIntegral.norm_integral_le_of_norm_le_const (C := dt * (M + 2 * Real.pi * |f| * A)) fun t ht => ?_).trans (le_of_eq ?_)
  · rw [Set.uIoc_of_le (by linarith)] at ht
    have ht1 := ht.1
    have ht2 := ht.2
    have e2 : (v s : ℂ) * wavelet f (a + dt) - (v t : ℂ) * wavelet f t = ((v s - v t : ℝ) : ℂ) * wavelet f (a + dt) +
        (v t : ℂ) * (wavelet f (a + dt) - wavelet f t) := by push_cast; ring
    rw [e2]
    refine (norm_add_le _ _).trans ?_
    rw [norm_mul, norm_mul, norm_wavelet, mul_one, Complex.norm_real, Complex.norm_real, Real.norm_eq_abs, Real.norm_eq_abs]
    have b1 : |v s - v t| ≤ M * dt := (h.dist (by linarith) (by linarith) (by linarith) (by linarith)).trans
      (mul_le_mul_of_nonneg_left (by rw [abs_le]; constructor <;> linarith) hM)
    have b2 : ‖wavelet f (a + dt) - wavelet f t‖ ≤ 2 * Real.pi * |f| * dt := (wavelet_dist _ _ _).trans
      (mul_le_mul_of_nonneg_left (by rw [abs_le]; constructor <;> linarith) (by positivity))
    have b3 : |v t| * ‖wavelet f (a + dt) - wavelet f t‖ ≤ A * (2 * Real.pi * |f| * dt) :=
      mul_le_mul (hA t (by linarith) (by linarith)) b2 (norm_nonneg _) A0
    calc |v s - v t| + |v t| * ‖wavelet f (a + dt) - wavelet f t‖ ≤ M * dt + A * (2 * Real.pi * |f| * dt) := add_le_add b1 b3
      _ = dt * (M + 2 * Real.pi * |f| * A) := by ring
  · rw [add_sub_cancel_left, abs_of_nonneg hd]; ring

/-- The Fourier sum of recorded values `r` against the Fourier integral of the signal that they should be. -/
theorem sum_integral {v : ℝ → ℝ} {τ M A f dt θ : ℝ} (h : Slow v τ M) (hM : 0 ≤ M) (hA : ∀ t, 0 ≤ t → t ≤ τ → |v t| ≤ A) (hd : 0 ≤ dt) (h0 : 0 ≤ θ) (h1 : θ ≤ 1)
    (r : ℕ → ℝ) : ∀ n : ℕ, n * dt ≤ τ →
    ‖(dt : ℂ) * (∑ m ∈ Finset.range n, (r m : ℂ) * wavelet f ((m + 1) * dt)) - ∫ t in (0 : ℝ)..(n * dt), (v t : ℂ) * wavelet f t‖ ≤
      (∑ m ∈ Finset.range n, dt * |r m - v ((m + θ) * dt)|) + n * (dt * (dt * (M + 2 * Real.pi * |f| * A)))
  | 0, _ => by simp
  | n + 1, hn => by
    have n0 : (0 : ℝ) ≤ n := Nat.cast_nonneg n
    push_cast at hn
    have hn' : n * dt ≤ τ := by linarith
    have ih := sum_integral (f := f) h hM hA hd h0 h1 r n hn'
    have a0 : 0 ≤ n * dt := mul_nonneg n0 hd
    have st := step_integral (f := f) (a := n * dt) (dt := dt) (s := (n + θ) * dt) h hM hA hd a0 (by linarith) (by nlinarith) (by nlinarith)
    have e0 : ((n + 1 : ℕ) : ℝ) * dt = n * dt + dt := by push_cast; ring
    have sp := intervalIntegral.integral_add_adjacent_intervals (h.integrable hM f le_rfl a0 hn') (h.integrable hM f a0 (by linarith : n * dt ≤ n * dt + dt) (by linarith))
    rw [e0, ← sp, Finset.sum_range_succ, Finset.sum_range_succ]
    have e1 : ((n : ℝ) + 1) * dt = n * dt + dt := by ring
    rw [e1]
    set I1 := ∫ t in (0 : ℝ)..(n * dt), (v t : ℂ) * wavelet f t with hI1
    set I2 := ∫ t in (n * dt)..(n * dt + dt), (v t : ℂ) * wavelet f t with hI2
    set S := ∑ m ∈ Finset.range n, (r m : ℂ) * wavelet f ((m + 1) * dt) with hS
    have e2 : (dt : ℂ) * (S + (r n : ℂ) * wavelet f (n * dt + dt)) - (I1 + I2) = ((dt : ℂ) * S - I1) +
        ((dt : ℂ) * ((v ((n + θ) * dt) : ℂ) * wavelet f (n * dt + dt)) - I2) + ((dt * (r n - v ((n + θ) * dt)) : ℝ) : ℂ) * wavelet f (n * dt + dt) := by
      push_cast; ring
    rw [e2]
    refine (norm_add_le _ _).trans ((add_le_add (norm_add_le _ _) le_rfl).trans ?_)
    have e3 : ‖((dt * (r n - v ((n + θ) * dt)) : ℝ) : ℂ) * wavelet f (n * dt + dt)‖ = dt * |r n - v ((n + θ) * dt)| := by
      rw [norm_mul, norm_wavelet, mul_one, Complex.norm_real, Real.norm_eq_abs, abs_mul, abs_of_nonneg hd]
    rw [e3]
    push_cast
    linarith

/-! ## All nodes -/

theorem l2_zero (g : Grid ℝ) : l2 g (fun _ _ => 0) = 0 := by
  unfold l2
  simp [Box.sum]

theorem l2_sum (g : Grid ℝ) (F : ℕ → ℤ → ℤ → ℝ) : ∀ n : ℕ, l2 g (fun i j => ∑ m ∈ Finset.range n, F m i j) ≤ ∑ m ∈ Finset.range n, l2 g (F m)
  | 0 => by simp [l2_zero]
  | n + 1 => by
    simp only [Finset.sum_range_succ]
    exact (l2_add g _ _).trans (add_le_add (l2_sum g F n) le_rfl)

/-! ## Programs -/

/-- To set an incident wave and to add an object does not depend on the order. -/
theorem insert_wave {c c' : Core ℝ} {o : Object ℝ} (w : Option (Vol ℝ × TimeProfile ℝ)) (h : (putWave w c).insertObject o = .ok c') :
    ∃ d, c.insertObject o = .ok d ∧ c' = putWave w d := by
  cases w with
  | none => exact ⟨c', h, rfl⟩
  | some w =>
    unfold Core.insertObject at h ⊢
    obtain ⟨f, hf, h⟩ := (Except.bind_ok ..).mp h
    rw [show paintObject c.g o c.f = .ok f from hf, Except.ok_bind]
    cases hk : o.mat.kind with
    | simple m => rw [hk] at h; exact ⟨_, rfl, (Except.ok.inj h).symm⟩
    | debye m =>
      rw [hk] at h
      obtain ⟨l, hl, h⟩ := (Except.bind_ok ..).mp h
      refine ⟨_, (Except.bind_ok ..).mpr ⟨l, hl, rfl⟩, (Except.ok.inj h).symm⟩
    | drude m =>
      rw [hk] at h
      obtain ⟨l, hl, h⟩ := (Except.bind_ok ..).mp h
      refine ⟨_, (Except.bind_ok ..).mpr ⟨l, hl, rfl⟩, (Except.ok.inj h).symm⟩
    | lorentz m =>
      rw [hk] at h
      obtain ⟨l, hl, h⟩ := (Except.bind_ok ..).mp h
      refine ⟨_, (Except.bind_ok ..).mpr ⟨l, hl, rfl⟩, (Except.ok.inj h).symm⟩

theorem putWave_again (v : Vol ℝ) (tp : TimeProfile ℝ) (w : Option (Vol ℝ × TimeProfile ℝ)) (c : Core ℝ) : (putWave w c).setTfsf v tp = putWave (some (v, tp)) c := by
  cases w <;> rfl

/-- What calls that add objects and sources and set incident waves have done. -/
theorem furnished {now : ℕ → ℝ} : ∀ (ops : List (Op ℝ)) {s s' : Sim ℝ} {w : Option (Vol ℝ × TimeProfile ℝ)} {c0 : Core ℝ}, Lights ops → s.runOk now ops = .ok s' → s.core = putWave w c0 →
    ∃ c, forList (objectsOf ops) c0 (fun o c => c.insertObject o) = .ok c ∧ s'.core = putWave ((incidentOf ops).or w) c ∧ s'.srcs = s.srcs ++ sourcesOf ops
  | [], s, s', w, c0, _, h, hc => by cases h; exact ⟨c0, rfl, hc, by simp [sourcesOf]⟩
  | op :: l, s, s', w, c0, hf, h, hc => by
    unfold Sim.runOk at h
    cases e : s.step now op with
    | threw m s1 => simp only [e] at h; cases h
    | ub u => simp only [e] at h; cases h
    | ok s1 =>
      simp only [e] at h
      have ih := fun w c1 h1 => furnished l (w := w) (c0 := c1) (fun o ho => hf o (List.mem_cons_of_mem _ ho)) h h1
      have p := Sim.step_phys e
      have ob : observes op = true → s1.core = s.core ∧ s1.srcs = s.srcs := fun ho => by
        rw [Phys.step_observes _ ho] at p
        have p := Except.ok.inj p
        exact ⟨(congrArg Phys.core p).symm, (congrArg Phys.srcs p).symm⟩
      rcases hf op (List.mem_cons_self ..) with ho | ⟨o, rfl⟩ | ⟨x, rfl⟩ | ⟨v, tp, rfl⟩
      · obtain ⟨e1, e2⟩ := ob ho
        obtain ⟨c, h1, h2, h3⟩ := ih w c0 (e1.trans hc)
        rw [e2] at h3
        have e3 : objectsOf (op :: l) = objectsOf l := by cases op <;> first | rfl | cases ho
        have e4 : sourcesOf (op :: l) = sourcesOf l := by cases op <;> first | rfl | cases ho
        have e5 : incidentOf (op :: l) = incidentOf l := by cases op <;> first | rfl | cases ho
        rw [e3, e4, e5]
        exact ⟨c, h1, h2, h3⟩
      · obtain ⟨c, hc', p⟩ := (Except.bind_ok ..).mp p
        have p := Except.ok.inj p
        have e1 : s1.core = c := (congrArg Phys.core p).symm
        have e2 : s1.srcs = s.srcs := (congrArg Phys.srcs p).symm
        rw [show s.phys.core = s.core from rfl, hc] at hc'
        obtain ⟨d, hd, rfl⟩ := insert_wave w hc'
        obtain ⟨c', h1, h2, h3⟩ := ih w d e1
        refine ⟨c', ?_, h2, by rw [h3, e2]; rfl⟩
        show forList (o :: objectsOf l) c0 _ = _
        rw [forList_cons, hd, Except.ok_bind]
        exact h1
      · have p := Except.ok.inj p
        have e1 : s1.core = s.core := (congrArg Phys.core p).symm
        have e2 : s1.srcs = s.srcs ++ [x] := (congrArg Phys.srcs p).symm
        obtain ⟨c, h1, h2, h3⟩ := ih w c0 (e1.trans hc)
        refine ⟨c, h1, h2, ?_⟩
        rw [h3, e2]
        show _ = s.srcs ++ (x :: sourcesOf l)
        simp
      · have p := Except.ok.inj p
        have e1 : s1.core = s.core.setTfsf v tp := (congrArg Phys.core p).symm
        have e2 : s1.srcs = s.srcs := (congrArg Phys.srcs p).symm
        rw [hc, putWave_again] at e1
        obtain ⟨c, h1, h2, h3⟩ := ih _ c0 e1
        refine ⟨c, h1, ?_, by rw [h3, e2]; rfl⟩
        rw [h2]
        show _ = putWave ((some ((incidentOf l).getD (v, tp))).or w) c
        cases incidentOf l <;> rfl

theorem lights_of_furnishes {ops : List (Op ℝ)} (h : Furnishes ops) : Lights ops := fun op ho => by
  rcases h op ho with h | h | h
  · exact .inl h
  · exact .inr (.inl h)
  · exact .inr (.inr (.inl h))

theorem incidentOf_furnishes : ∀ {ops : List (Op ℝ)}, Furnishes ops → incidentOf ops = none
  | [], _ => rfl
  | op :: l, h => by
    have ih := incidentOf_furnishes (ops := l) fun o ho => h o (List.mem_cons_of_mem _ ho)
    rcases h op (List.mem_cons_self ..) with ho | ⟨o, rfl⟩ | ⟨x, rfl⟩
    · have e5 : incidentOf (op :: l) = incidentOf l := by cases op <;> first | rfl | cases ho
      rw [e5, ih]
    · exact ih
    · exact ih

/-- What a program shows that does nothing but step. -/
theorem watch_run {now : ℕ → ℝ} {s s' : Sim ℝ} {ops : List (Op ℝ)} {qs : List (Flds ℝ × ℝ)} (h : Watch now s ops qs s') (ha : Advances ops) :
    ∀ (m : ℕ) (hm : m < qs.length), ∃ c l c' l', s.core.run m s.srcs = .ok (c, l) ∧ s.core.run (m + 1) s.srcs = .ok (c', l') ∧
      (qs[m]).2 = c'.t ∧ (qs[m]).1.Ez = c'.f.Ez ∧ (∀ i j, (qs[m]).1.Hx.val i j = c.f.Hx.val i j + totalContrib c.g c'.t l .Hx ⟨i, j⟩) ∧
      (∀ i j, (qs[m]).1.Hy.val i j = c.f.Hy.val i j + totalContrib c.g c'.t l .Hy ⟨i, j⟩) := by
  induction h with
  | nil s => intro m hm; simp at hm
  | @update s s1 s' l qs q e sh w ih =>
    intro m hm
    have u : s.core.update s.srcs = .ok (s1.core, s1.srcs) := Sim.update_core e
    cases m with
    | zero =>
      refine ⟨s.core, s.srcs, s1.core, s1.srcs, rfl, ?_, sh.time, sh.ez, sh.hx, sh.hy⟩
      unfold Core.run
      rw [u]
      rfl
    | succ m =>
      obtain ⟨c, l', c', l'', h1, h2, h3⟩ := ih (fun o ho => ha o (List.mem_cons_of_mem _ ho)) m (by simpa using hm)
      refine ⟨c, l', c', l'', ?_, ?_, h3⟩
      · unfold Core.run; rw [u]; exact h1
      · unfold Core.run; rw [u]; exact h2
  | @other s s1 s' op l qs hu e w ih =>
    have ob : observes op = true := by
      rcases ha op (List.mem_cons_self ..) with h | rfl
      · exact h
      · cases hu
    have p := Sim.step_phys e
    rw [Phys.step_observes _ ob] at p
    have p := Except.ok.inj p
    have e1 : s.core = s1.core := congrArg Phys.core p
    have e2 : s.srcs = s1.srcs := congrArg Phys.srcs p
    rw [e1, e2]
    exact ih fun o ho => ha o (List.mem_cons_of_mem _ ho)

theorem ticks_real (dt : ℝ) : ∀ (n : ℕ) (t : ℝ), ticks dt n t = t + n * dt
  | 0, t => by simp [ticks]
  | n + 1, t => by rw [ticks, ticks_real dt n]; push_cast; ring

/-- Sources of `Ez` add nothing to the magnetic field. -/
theorem electric_only {g : Grid ℝ} {l : List (Source ℝ)} (h : ∀ s ∈ l, ∀ C i j, Drives g s C ⟨i, j⟩ → C = .Ez) {t : ℝ} {C : Fields} (hC : C ≠ .Ez) (i j : ℤ) :
    totalContrib g t l C ⟨i, j⟩ = 0 := by
  unfold totalContrib
  refine List.sum_eq_zero fun x hx => ?_
  obtain ⟨s, hs, rfl⟩ := List.mem_map.mp hx
  unfold contrib
  rw [if_neg fun d => hC (h s hs C i j d)]

end Qbox
