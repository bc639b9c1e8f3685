import Verif.Props.RoundedDrivenProps
import Verif.Props.RoundedGridProps
import Mathlib.Analysis.Real.Pi.Bounds
import Mathlib.Analysis.SpecialFunctions.Trigonometric.Bounds

/-! # Rounding errors: the signal of a continuous source (C73, C74) -/

namespace Qbox.Props
open Qbox Scalar Spec

theorem toneError_nonneg (A : Arith) {η f T : ℝ} (h : 0 ≤ η) (hT : 0 ≤ T) (n : ℕ) : 0 ≤ toneError A η f T n := by
  have := A.u_nonneg; have := A.tiny_nonneg
  unfold toneError; positivity

theorem toneError_mono (A : Arith) {η f f' T T' : ℝ} (hf : |f| ≤ |f'|) (h0 : 0 ≤ T) (hT : T ≤ T') {n n' : ℕ} (hn : n ≤ n') :
    toneError A η f T n ≤ toneError A η f' T' n' := by
  have := A.u_nonneg; have := A.tiny_nonneg
  have hn' : (n : ℝ) ≤ n' := by exact_mod_cast hn
  have : 0 ≤ T' := h0.trans hT
  unfold toneError
  gcongr

/-- The phase `2*M_PI*f*t`. -/
theorem phase_error {A : Arith} (hpi : A.pi = Real.pi) (f t : Rnd A) {T E : ℝ} (hT : 0 ≤ T) (hE : |t.val - T| ≤ E) :
    |(ofInt 2 * Scalar.pi * f * t : Rnd A).val - 2 * Real.pi * f.val * T| ≤
      ((25 * A.u * |f.val| + A.tiny) * (T + E) + 7 * |f.val| * E) * (1 + A.u) + 7 * A.u * |f.val| * T + A.tiny := by
  have u0 := A.u_nonneg
  have ul := A.u_le
  have t0 := A.tiny_nonneg
  have tl := A.tiny_le
  have p3 := Real.pi_gt_three
  have p4 := Real.pi_lt_d2
  have f0 := abs_nonneg f.val
  have E0 : 0 ≤ E := (abs_nonneg _).trans hE
  have uu : A.u * A.u ≤ A.u * (1 / 1000) := mul_le_mul_of_nonneg_left ul u0
  -- π
  have a1 : |A.r A.pi - Real.pi| ≤ 5 * A.u := by
    have := A.near A.pi
    rw [hpi, abs_of_pos Real.pi_pos] at this
    rw [hpi]
    have := mul_le_mul_of_nonneg_left p4.le u0
    linarith
  -- 2π
  have a2 : |A.r (A.r ((2 : ℤ) : ℝ) * A.r A.pi) - 2 * Real.pi| ≤ 18 * A.u := by
    rw [Int.cast_ofNat, A.two]
    have := A.near' (x := 2 * Real.pi) (y := 2 * A.r A.pi) (B := 6.3) (e := 10 * A.u) (by rw [abs_of_pos (by linarith)]; linarith) (by
      rw [← mul_sub, abs_mul, abs_two]; linarith)
    refine this.trans ?_
    linarith
  -- 2πf
  have a3 : |A.r (A.r (A.r ((2 : ℤ) : ℝ) * A.r A.pi) * f.val) - 2 * Real.pi * f.val| ≤ 25 * A.u * |f.val| + A.tiny := by
    have := A.near' (x := 2 * Real.pi * f.val) (y := A.r (A.r ((2 : ℤ) : ℝ) * A.r A.pi) * f.val) (B := 6.3 * |f.val|) (e := 18 * A.u * |f.val|)
      (by rw [abs_mul, abs_of_pos (by linarith)]; exact mul_le_mul_of_nonneg_right (by linarith) f0)
      (by rw [← sub_mul, abs_mul]; exact mul_le_mul_of_nonneg_right a2 f0)
    refine this.trans ?_
    have := mul_le_mul_of_nonneg_right uu f0
    have := mul_nonneg u0 f0
    linarith
  -- 2πft
  have tb : |t.val| ≤ T + E := by
    have := abs_add_le T (t.val - T)
    rw [add_sub_cancel, abs_of_nonneg hT] at this
    linarith
  have f7 : |2 * Real.pi * f.val| ≤ 7 * |f.val| := by
    rw [abs_mul, abs_of_pos (by linarith)]; exact mul_le_mul_of_nonneg_right (by linarith) f0
  have d : |A.r (A.r (A.r ((2 : ℤ) : ℝ) * A.r A.pi) * f.val) * t.val - 2 * Real.pi * f.val * T| ≤ (25 * A.u * |f.val| + A.tiny) * (T + E) + 7 * |f.val| * E := by
    rw [show ∀ a : ℝ, a * t.val - 2 * Real.pi * f.val * T = (a - 2 * Real.pi * f.val) * t.val + 2 * Real.pi * f.val * (t.val - T) by intro a; ring]
    refine (abs_add_le _ _).trans (add_le_add ?_ ?_)
    · rw [abs_mul]; exact mul_le_mul a3 tb (abs_nonneg _) (by positivity)
    · rw [abs_mul]; exact mul_le_mul f7 hE (abs_nonneg _) (by positivity)
  have B : |2 * Real.pi * f.val * T| ≤ 7 * |f.val| * T := by
    rw [abs_mul, abs_of_nonneg hT]; exact mul_le_mul_of_nonneg_right f7 hT
  have k := A.near' B d
  refine (show |A.r (A.r (A.r (A.r ((2 : ℤ) : ℝ) * A.r A.pi) * f.val) * t.val) - 2 * Real.pi * f.val * T| ≤ _ from k).trans (le_of_eq (by ring))

/-- **C73**, the signal. After `n` updates the signal of a continuous source is the sine wave at the time `n` time steps up to `toneError`: the accuracy of
the sine of the library and of one rounding, and a phase error that grows with the square of the number of updates because the clock is a sum. -/
theorem C73_tone {A : Arith} (hpi : A.pi = Real.pi) (η : ℝ) (hsin : ∀ x, |A.sin x - Real.sin x| ≤ η) (f dt : Rnd A) (hd : 0 ≤ dt.val) (n : ℕ) (few : A.u * n ≤ 1) :
    |((TimeProfile.continuous f).resp (ticks dt n 0)).val - Real.sin (2 * Real.pi * f.val * (n * dt.val))| ≤ toneError A η f.val (n * dt.val) n := by
  have u0 := A.u_nonneg
  have ul := A.u_le
  have t0 := A.tiny_nonneg
  have tl := A.tiny_le
  have n0 := Nat.cast_nonneg (α := ℝ) n
  have f0 := abs_nonneg f.val
  have h0 : 0 ≤ η := (abs_nonneg _).trans (hsin 0)
  obtain ⟨T, hT⟩ : ∃ T, T = n * dt.val := ⟨_, rfl⟩
  have T0 : 0 ≤ T := by rw [hT]; positivity
  have clock : |(ticks dt n 0).val - T| ≤ 3 * (A.u * n) * T + 3 * n * A.tiny := by
    rw [hT]
    refine (ticks_error dt hd n).trans ?_
    have := mul_le_mul_of_nonneg_right (pow_bounds u0 few).2 (by positivity : 0 ≤ A.u * (n : ℝ) ^ 2 * dt.val + n * A.tiny)
    linarith
  rw [← hT]
  have ph := phase_error hpi f (ticks dt n 0) T0 clock
  obtain ⟨φ, hφ⟩ : ∃ φ, φ = (ofInt 2 * Scalar.pi * f * ticks dt n 0 : Rnd A).val := ⟨_, rfl⟩
  have e : ((TimeProfile.continuous f).resp (ticks dt n 0)).val = A.r (A.sin φ) := by rw [hφ]; rfl
  rw [← hφ] at ph
  rw [e]
  have s1 := A.near' (x := Real.sin φ) (y := A.sin φ) (Real.abs_sin_le_one φ) (hsin φ)
  have s2 : |Real.sin φ - Real.sin (2 * Real.pi * f.val * T)| ≤ |φ - 2 * Real.pi * f.val * T| := Real.abs_sin_sub_sin_le _ _
  have s3 := abs_sub_le (A.r (A.sin φ)) (Real.sin φ) (Real.sin (2 * Real.pi * f.val * T))
  have uη := mul_le_mul_of_nonneg_right ul h0
  -- numbers
  have nt : n * A.tiny ≤ 1 := by
    have := mul_le_mul_of_nonneg_left tl n0
    linarith
  obtain ⟨E, hE⟩ : ∃ E, E = 3 * (A.u * n) * T + 3 * n * A.tiny := ⟨_, rfl⟩
  rw [← hE] at ph
  have E0 : 0 ≤ E := by rw [hE]; positivity
  have E1 : E ≤ 3 * T + 3 * n * A.tiny := by
    have := mul_le_mul_of_nonneg_right few T0
    rw [hE]; linarith
  have w0 : 0 ≤ 25 * A.u * |f.val| + A.tiny := by positivity
  have x1 : (25 * A.u * |f.val| + A.tiny) * (T + E) ≤ (25 * A.u * |f.val| + A.tiny) * (4 * T + 3 * n * A.tiny) := mul_le_mul_of_nonneg_left (by linarith) w0
  have x2 : (25 * A.u * |f.val| + A.tiny) * (3 * n * A.tiny) ≤ A.tiny * (75 * |f.val| + 3) := by
    have y1 : 25 * A.u * |f.val| * (3 * n * A.tiny) ≤ A.tiny * (75 * |f.val|) := by
      have := mul_le_mul_of_nonneg_right few (mul_nonneg f0 t0)
      linarith
    have y2 := mul_le_mul_of_nonneg_left nt t0
    linarith
  have x3 : 7 * |f.val| * E = 21 * A.u * n * |f.val| * T + 21 * n * |f.val| * A.tiny := by rw [hE]; ring
  have x4 : (25 * A.u * |f.val| + A.tiny) * (T + E) + 7 * |f.val| * E ≤ A.u * |f.val| * T * (100 + 21 * n) + A.tiny * (3 + 4 * T + (75 + 21 * n) * |f.val|) := by linarith
  have x5 : 0 ≤ A.u * |f.val| * T * (100 + 21 * n) + A.tiny * (3 + 4 * T + (75 + 21 * n) * |f.val|) := by positivity
  have x6 := mul_le_mul x4 (by linarith : 1 + A.u ≤ 1001 / 1000) (by linarith) x5
  have x7 : 0 ≤ A.u * |f.val| * T := by positivity
  have x8 : 0 ≤ A.u * |f.val| * T * n := by positivity
  have x9 : 0 ≤ A.tiny * T := by positivity
  have x10 : 0 ≤ A.tiny * |f.val| := by positivity
  have x11 : 0 ≤ A.tiny * |f.val| * n := by positivity
  unfold toneError
  linarith

theorem mishear_tone {A : Arith} {t : Rnd A} {t' F e : ℝ} {srcs : List (Source (Rnd A))} {srcs' : List (Source ℝ)} (h : List.Forall₂ (SameTone F) srcs srcs')
    (H : ∀ f : Rnd A, |f.val| ≤ F → |((TimeProfile.continuous f).resp t).val - (TimeProfile.continuous f.val).resp t'| ≤ e) :
    mishear srcs srcs' t t' ≤ srcs.length * e := by
  induction h with
  | nil => simp [mishear]
  | cons a _ ih =>
    obtain ⟨f, hf, e1, e2⟩ := a
    unfold mishear
    rw [e1, e2, List.length_cons]
    push_cast
    have := H f hf
    linarith

theorem loudness_tone {A : Arith} {t F : ℝ} {srcs : List (Source (Rnd A))} {srcs' : List (Source ℝ)} (h : List.Forall₂ (SameTone F) srcs srcs') :
    loudness srcs' t ≤ srcs.length := by
  induction h with
  | nil => simp [loudness]
  | cons a _ ih =>
    obtain ⟨f, hf, e1, e2⟩ := a
    simp only [loudness, List.map_cons, List.sum_cons, List.length_cons] at ih ⊢
    rw [e2]
    push_cast
    have : |(TimeProfile.continuous f.val).resp t| ≤ 1 := Real.abs_sin_le_one _
    linarith

theorem emitted_tone {A : Arith} {F dt : ℝ} {srcs : List (Source (Rnd A))} {srcs' : List (Source ℝ)} (h : List.Forall₂ (SameTone F) srcs srcs') :
    ∀ (n : ℕ) (t : ℝ), emittedBy srcs' t dt n ≤ n * srcs.length
  | 0, t => by simp [emittedBy]
  | n + 1, t => by
    have := emitted_tone (dt := dt) h n (t + dt)
    rw [emittedBy_succ]
    have := loudness_tone (t := t + dt) h
    push_cast
    linarith

theorem misheard_tone {A : Arith} (hpi : A.pi = Real.pi) {η F : ℝ} (hsin : ∀ x, |A.sin x - Real.sin x| ≤ η) {dt : Rnd A} (hd : 0 ≤ dt.val)
    {srcs : List (Source (Rnd A))} {srcs' : List (Source ℝ)} (h : List.Forall₂ (SameTone F) srcs srcs') {N : ℕ} (few : A.u * N ≤ 1) :
    ∀ (n m : ℕ), m + n ≤ N → misheard srcs srcs' dt dt.val (ticks dt m 0) (m * dt.val) n ≤ n * (srcs.length * toneError A η F (N * dt.val) N)
  | 0, m, _ => by simp [misheard]
  | n + 1, m, le => by
    unfold misheard
    have a := misheard_tone hpi hsin hd h few n (m + 1) (by omega)
    rw [ticks_last] at a
    push_cast at a ⊢
    rw [add_mul (m : ℝ) 1, one_mul] at a
    have lm : ((m + 1 : ℕ) : ℝ) ≤ N := by exact_mod_cast (by omega : m + 1 ≤ N)
    have b := mishear_tone (t := ticks dt m 0 + dt) (t' := m * dt.val + dt.val) (e := toneError A η F (N * dt.val) N) h (fun f hf => by
      have k := C73_tone hpi η hsin f dt hd (m + 1) ((mul_le_mul_of_nonneg_left lm A.u_nonneg).trans few)
      rw [ticks_last] at k
      refine le_trans (le_of_eq ?_) (k.trans (toneError_mono A (hf.trans (le_abs_self F)) (by positivity) (mul_le_mul_of_nonneg_right lm hd) (by omega)))
      have e : (TimeProfile.continuous f.val).resp (m * dt.val + dt.val) = Real.sin (2 * Real.pi * f.val * ((m + 1 : ℕ) * dt.val)) := by
        push_cast
        rw [add_mul (m : ℝ) 1, one_mul]
        simp [TimeProfile.continuous]
      rw [e])
    linarith

/-- **C74** with continuous sources: everything in numbers. The number of updates is `n`, the number of sources `K`, their frequencies are at most `F`, the sine of
the library is right up to `η`, and `u` is the unit roundoff. The difference of the fields of the program and of the exact simulation after `n` updates is at
most the right side: the start field and all that was emitted times `n u (1 + K)` times a constant, plus the number of updates times the error of the
signals. Overflow is not represented, nor are the absorbing layer, incident plane waves and dispersive media. -/
theorem C74_tone_partial {A : Arith} (n : ℕ) (g : Grid (Rnd A)) (hw : g.Wide) (hT : g.T = 0) (hx : 0 < g.dx.val) (hdt : g.dt.val = g.dx.val / 2)
    (objs : List (Object (Rnd A))) (objs' : List (Object ℝ)) (same : List.Forall₂ (SameObject g) objs objs') (hs : ∀ o ∈ objs, o.Safe g)
    (hs' : ∀ o ∈ objs', o.Safe (exactGrid g)) (hc : ∀ o ∈ objs, o.Covered g) (hc' : ∀ o ∈ objs', o.Covered (exactGrid g)) (epsMax : ℝ)
    (hv : RoundPassive g.dx.val epsMax (vacuum : Simple (Rnd A))) (hp : ∀ o ∈ objs, ∀ m, o.mat.kind = .simple m → RoundPassive g.dx.val epsMax m)
    (e x y : ℤ → ℤ → Rnd A) (out : ∀ i j, ¬ (updatedNodes (exactGrid g)).Mem i j → (e i j).val = 0 ∧ (x i j).val = 0 ∧ (y i j).val = 0)
    (srcs : List (Source (Rnd A))) (srcs' : List (Source ℝ)) (sameS : List.Forall₂ (SameSource g) srcs srcs')
    (fits : ∀ s ∈ srcs, Fits g s) (fits' : ∀ s ∈ srcs', Fits (exactGrid g) s) (inner : ∀ s ∈ srcs', DrivesIn (exactGrid g) (updatedNodes (exactGrid g)) s)
    (hpi : A.pi = Real.pi) (η F : ℝ) (hsin : ∀ x, |A.sin x - Real.sin x| ≤ η) (tones : List.Forall₂ (SameTone F) srcs srcs')
    (few : srcs.length * A.u ≤ 1 / 1000) (short : roundGrowth epsMax * ((1 + srcs.length) * A.u) * n ≤ 1) :
    ∃ c0 c1 c2 r0 r1 r2 l l', Core.make g = .ok c0 ∧ forList objs c0 (fun o c => c.insertObject o) = .ok c1 ∧ (setFields c1 e x y).run n srcs = .ok (c2, l) ∧
      Core.make (exactGrid g) = .ok r0 ∧ forList objs' r0 (fun o c => c.insertObject o) = .ok r1 ∧
      (setFields r1 (fun i j => (e i j).val) (fun i j => (x i j).val) (fun i j => (y i j).val)).run n srcs' = .ok (r2, l') ∧
      Real.sqrt (roundGap g.dx.val c2.f r2.f (updatedNodes (exactGrid g))) ≤ 2 * Real.sqrt (epsMax + 1) * ((1 + srcs.length) * A.u) *
          (2 * roundGrowth epsMax * n * (Real.sqrt (roundSize g.dx.val (setFields c1 e x y).f (updatedNodes (exactGrid g))) +
            2 * rootArea g * (n * srcs.length)) + 117 * rootArea g * (n * srcs.length)) +
        6 * Real.sqrt (epsMax + 1) * (n * ((1 + srcs.length) * roundFloor g) +
          6 * rootArea g * (n * (srcs.length * toneError A η F (n * (g.dx.val / 2)) n))) := by
  obtain ⟨c0, c1, c2, r0, r1, r2, l, l', k1, k2, k3, k4, k5, k6, k7⟩ := C74_driven_linear_partial n g hw hT hx hdt objs objs' same hs hs' hc hc' epsMax hv hp e x y out
    srcs srcs' sameS fits fits' inner few short
  refine ⟨c0, c1, c2, r0, r1, r2, l, l', k1, k2, k3, k4, k5, k6, k7.trans ?_⟩
  have u0 := A.u_nonneg
  have n0 := Nat.cast_nonneg (α := ℝ) n
  have K0 := Nat.cast_nonneg (α := ℝ) srcs.length
  have h0 : 1 ≤ epsMax := hv.eps.trans hv.top
  have gr : 1 ≤ roundGrowth epsMax := by
    have : 1 ≤ Real.sqrt (epsMax + 1) := Real.one_le_sqrt.mpr (by linarith)
    unfold roundGrowth; linarith
  have un : A.u * n ≤ 1 := by
    refine le_trans ?_ short
    have a := mul_nonneg u0 n0
    have b : 0 ≤ srcs.length * (A.u * n) := mul_nonneg K0 a
    have c := mul_le_mul_of_nonneg_right gr (add_nonneg a b)
    linarith
  have L := emitted_tone (dt := g.dx.val / 2) tones n 0
  have D := misheard_tone hpi hsin (dt := g.dt) (by rw [hdt]; linarith) tones un n 0 (by omega)
  rw [hdt, Nat.cast_zero, zero_mul] at D
  have D' : misheard srcs srcs' g.dt (g.dx.val / 2) 0 0 n ≤ n * (srcs.length * toneError A η F (n * (g.dx.val / 2)) n) := D
  have r0' : 0 ≤ rootArea g := Real.sqrt_nonneg _
  have g0 : 0 ≤ roundGrowth epsMax := by linarith
  gcongr

end Qbox.Props
