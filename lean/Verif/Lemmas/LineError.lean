import Verif.Spec.ScatterSpec
import Verif.Lemmas.LineStable
import Verif.Lemmas.Converge
import Mathlib.Analysis.Calculus.ContDiff.Basic
import Mathlib.Analysis.Calculus.IteratedDeriv.Lemmas

/-! # The line of the incident wave carries the plane wave -/

namespace Qbox
open Spec

/-- A signal with four derivatives, the last one at most `M`. -/
def Four (s : ℝ → ℝ) (M : ℝ) : Prop :=
  ∃ a b c d : ℝ → ℝ, ∀ t, HasDerivAt s (a t) t ∧ HasDerivAt a (b t) t ∧ HasDerivAt b (c t) t ∧ HasDerivAt c (d t) t ∧ |d t| ≤ M

theorem iter_deriv {s : ℝ → ℝ} {m k : ℕ} (h : ContDiff ℝ m s) (hk : k < m) (t : ℝ) : HasDerivAt (iteratedDeriv k s) (iteratedDeriv (k + 1) s t) t := by
  rw [iteratedDeriv_succ]
  exact ((h.differentiable_iteratedDeriv k (by exact_mod_cast hk)) t).hasDerivAt

theorem Spec.SmoothStart.deriv0 {s : ℝ → ℝ} {M : ℝ} (h : SmoothStart s M) (k : ℕ) (hk : k < 5) (t : ℝ) :
    HasDerivAt (iteratedDeriv k s) (iteratedDeriv (k + 1) s t) t := iter_deriv (m := 5) h.smooth hk t

theorem Spec.SmoothStart.four {s : ℝ → ℝ} {M : ℝ} (h : SmoothStart s M) : Four s M :=
  ⟨iteratedDeriv 1 s, iteratedDeriv 2 s, iteratedDeriv 3 s, iteratedDeriv 4 s, fun t => ⟨by have := h.deriv0 0 (by norm_num) t; rwa [iteratedDeriv_zero] at this,
    h.deriv0 1 (by norm_num) t, h.deriv0 2 (by norm_num) t, h.deriv0 3 (by norm_num) t, h.bound 4 (by norm_num) (by norm_num) t⟩⟩

/-- The difference over one step. -/
theorem Spec.SmoothStart.four_diff {s : ℝ → ℝ} {M : ℝ} (h : SmoothStart s M) {r : ℝ} (hr : 0 ≤ r) : Four (fun t => s t - s (t - r)) (M * r) := by
  have sh : ∀ k < 5, ∀ t, HasDerivAt (fun t => iteratedDeriv k s t - iteratedDeriv k s (t - r)) (iteratedDeriv (k + 1) s t - iteratedDeriv (k + 1) s (t - r)) t := by
    intro k hk t
    have a := h.deriv0 k hk t
    have b := (h.deriv0 k hk (t - r)).comp_sub_const t r
    exact a.sub b
  refine ⟨fun t => iteratedDeriv 1 s t - iteratedDeriv 1 s (t - r), fun t => iteratedDeriv 2 s t - iteratedDeriv 2 s (t - r),
    fun t => iteratedDeriv 3 s t - iteratedDeriv 3 s (t - r), fun t => iteratedDeriv 4 s t - iteratedDeriv 4 s (t - r), fun t =>
      ⟨by have := sh 0 (by norm_num) t; rwa [iteratedDeriv_zero] at this, sh 1 (by norm_num) t, sh 2 (by norm_num) t, sh 3 (by norm_num) t, ?_⟩⟩
  have := small_of_deriv (f := fun u => iteratedDeriv 4 s (t - r + u) - iteratedDeriv 4 s (t - r)) (f' := fun u => iteratedDeriv 5 s (t - r + u)) (C := M) (δ := r)
    (fun u _ _ => ⟨(hasDerivAt_fwd (h.deriv0 4 (by norm_num) _)).sub_const _, h.bound 5 (by norm_num) (by norm_num) _⟩) (by simp) hr le_rfl
  simpa using this

/-- The second difference of a signal. -/
theorem Four.second {s : ℝ → ℝ} {M : ℝ} (h : Four s M) : ∃ b : ℝ → ℝ, ∀ t δ, 0 ≤ δ → |s (t + δ) + s (t - δ) - 2 * s t - δ ^ 2 * b t| ≤ 2 * M * δ ^ 4 := by
  obtain ⟨a, b, c, d, h⟩ := h
  have M0 : 0 ≤ M := (abs_nonneg _).trans (h 0).2.2.2.2
  refine ⟨b, fun t δ hδ => ?_⟩
  have k3 : ∀ u, 0 ≤ u → u ≤ δ → |c (t + u) - c (t - u)| ≤ 2 * M * u := fun u u0 u1 =>
    small_of_deriv (f := fun u => c (t + u) - c (t - u)) (f' := fun u => d (t + u) - -d (t - u)) (δ := δ)
      (fun v _ _ => ⟨(hasDerivAt_fwd (h _).2.2.2.1).sub (hasDerivAt_bwd (h _).2.2.2.1), by
        have a1 := (h (t + v)).2.2.2.2
        have a2 := (h (t - v)).2.2.2.2
        rw [abs_le] at a1 a2 ⊢
        constructor <;> linarith [a1.1, a1.2, a2.1, a2.2]⟩) (by simp) u0 u1
  have k2 : ∀ u, 0 ≤ u → u ≤ δ → |b (t + u) + b (t - u) - 2 * b t| ≤ 2 * M * δ * u := fun u u0 u1 =>
    small_of_deriv (f := fun u => b (t + u) + b (t - u) - 2 * b t) (f' := fun u => c (t + u) + -c (t - u)) (δ := δ)
      (fun v v0 v1 => ⟨((hasDerivAt_fwd (h _).2.2.1).add (hasDerivAt_bwd (h _).2.2.1)).sub_const _, by
        rw [← sub_eq_add_neg]
        exact (k3 v v0 v1).trans (mul_le_mul_of_nonneg_left v1 (by positivity))⟩) (by ring) u0 u1
  have k1 : ∀ u, 0 ≤ u → u ≤ δ → |a (t + u) - a (t - u) - 2 * u * b t| ≤ 2 * M * δ ^ 2 * u := fun u u0 u1 =>
    small_of_deriv (f := fun u => a (t + u) - a (t - u) - 2 * u * b t) (f' := fun u => b (t + u) - -b (t - u) - 2 * b t) (δ := δ)
      (fun v v0 v1 => ⟨((hasDerivAt_fwd (h _).2.1).sub (hasDerivAt_bwd (h _).2.1)).sub (by
          have := ((hasDerivAt_id v).const_mul 2).mul_const (b t)
          simpa using this), by
        rw [sub_neg_eq_add]
        refine (k2 v v0 v1).trans ?_
        have := mul_le_mul_of_nonneg_left v1 (show 0 ≤ 2 * M * δ by positivity)
        linarith⟩) (by ring_nf) u0 u1
  have k0 := small_of_deriv (f := fun u => s (t + u) + s (t - u) - 2 * s t - u ^ 2 * b t) (f' := fun u => a (t + u) + -a (t - u) - 2 * u * b t) (δ := δ) (C := 2 * M * δ ^ 3)
      (fun v v0 v1 => ⟨(((hasDerivAt_fwd (h _).1).add (hasDerivAt_bwd (h _).1)).sub_const _).sub (by
          have := ((hasDerivAt_id v).mul (hasDerivAt_id v)).mul_const (b t)
          refine (this.congr_deriv ?_).congr_of_eventuallyEq (.of_forall fun x => ?_)
          · simp only [id]; ring
          · show x ^ 2 * b t = _
            simp only [Pi.mul_apply, id]; ring), by
        rw [← sub_eq_add_neg]
        refine (k1 v v0 v1).trans ?_
        have := mul_le_mul_of_nonneg_left v1 (show 0 ≤ 2 * M * δ ^ 2 by positivity)
        linarith⟩) (by ring_nf) hδ le_rfl
  refine k0.trans (le_of_eq ?_)
  ring

/-- How much the plane wave violates the scheme of the line. -/
noncomputable def defect (s : ℝ → ℝ) (dt t : ℝ) : ℝ := s (t + dt) + s (t - dt) - 2 * s t - 1 / 4 * (s (t - 2 * dt) - 2 * s t + s (t + 2 * dt))

theorem Four.defect_le {s : ℝ → ℝ} {M : ℝ} (h : Four s M) {dt : ℝ} (hd : 0 ≤ dt) (t : ℝ) : |defect s dt t| ≤ 10 * (M * dt ^ 4) := by
  obtain ⟨b, hb⟩ := h.second
  have a1 := hb t dt hd
  have a2 := hb t (2 * dt) (by positivity)
  unfold defect
  rw [abs_le] at a1 a2 ⊢
  constructor <;> nlinarith [a1.1, a1.2, a2.1, a2.2]

section
variable {s : ℝ → ℝ} {dt : ℝ} {N : ℤ} {e h : ℕ → ℤ → ℝ}

/-- The scheme of the line for the electric values alone. -/
theorem Spec.LineWave.second (W : LineWave s dt N e h) (n : ℕ) {k : ℤ} (k1 : 2 ≤ k) (k2 : k ≤ N - 2) :
    e (n + 2) k + e n k - 2 * e (n + 1) k = 1 / 4 * (e (n + 1) (k + 1) - 2 * e (n + 1) k + e (n + 1) (k - 1)) := by
  have a := W.ampere (n + 1) k k1 k2
  have b := W.ampere n k k1 k2
  have c := W.faraday n k (by omega) k2
  have d := W.faraday n (k - 1) (by omega) (by omega)
  rw [show k - 1 + 1 = k by ring] at d
  linarith

theorem Spec.LineWave.first (W : LineWave s dt N e h) {k : ℤ} (k1 : 2 ≤ k) (k2 : k ≤ N - 2) : e 1 k = 0 := by
  have := W.ampere 0 k k1 k2
  simp only [W.e0, W.h0] at this
  simpa using this

/-- The end in terms of its neighbour. -/
theorem Spec.LineWave.end_ (W : LineWave s dt N e h) : ∀ n : ℕ, e (n + 1) (N - 1) = if n = 0 then 0 else e (n - 1) (N - 2)
  | 0 => by simp [W.end1]
  | n + 1 => by simp [W.open_]

/-- The difference between the line and the plane wave, at node `k + 1` of the line; the time starts two steps early. -/
noncomputable def lineErr (s : ℝ → ℝ) (dt : ℝ) (e : ℕ → ℤ → ℝ) (n k : ℕ) : ℝ :=
  if n < 2 then 0 else e (n - 2) (k + 1) - s (((n - 2 : ℕ) - 2 * k : ℝ) * dt)

theorem lineErr_succ (n k : ℕ) : lineErr s dt e (n + 2) k = e n (k + 1) - s (((n : ℝ) - 2 * k) * dt) := by
  unfold lineErr
  simp

/-- **The line carries the plane wave.** -/
theorem Spec.LineWave.close (W : LineWave s dt N e h) (hN : 4 ≤ N) (hd : 0 ≤ dt) {M : ℝ} (hs : Four s M) (hb : ∀ t ≤ 0, s t = 0) (n : ℕ) {k : ℤ} (k1 : 1 ≤ k)
    (k2 : k ≤ N - 2) : |e n k - s (((n : ℝ) - 2 * (k - 1)) * dt)| ≤ 80 * n * ((N - 3) * (M * dt ^ 4)) := by
  obtain ⟨j, hj⟩ : ∃ j : ℕ, N = j + 4 := ⟨(N - 4).toNat, by omega⟩
  set u := lineErr s dt e with hu
  set r : ℕ → ℕ → ℝ := fun n k => if n < 4 then 0 else - defect s dt (((n : ℝ) - 3 - 2 * k) * dt) with hr
  have M0 : 0 ≤ M := by obtain ⟨a, b, c, d, h⟩ := hs; exact (abs_nonneg _).trans (h 0).2.2.2.2
  have neg : ∀ z : ℝ, z ≤ 0 → s (z * dt) = 0 := fun z hz => hb _ (mul_nonpos_of_nonpos_of_nonneg hz hd)
  have u0 : ∀ k, u 0 k = 0 := fun k => by simp [hu, lineErr]
  have u1 : ∀ k, u 1 k = 0 := fun k => by simp [hu, lineErr]
  have u2 : ∀ k, u 2 k = 0 := fun k => by
    have := lineErr_succ (s := s) (dt := dt) (e := e) 0 k
    rw [hu, this, W.e0, neg _ (by push_cast; have := Nat.cast_nonneg (α := ℝ) k; linarith)]
    simp
  have u3 : ∀ k, 1 ≤ k → k ≤ j + 1 → u 3 k = 0 := fun k k1 k2 => by
    have := lineErr_succ (s := s) (dt := dt) (e := e) 1 k
    have k0 : (1 : ℝ) ≤ k := by exact_mod_cast k1
    rw [hu, this, W.first (by omega) (by omega), neg _ (by push_cast; linarith)]
    simp
  have fixed : ∀ n, u n 0 = 0 := by
    intro n
    rcases n with _ | _ | n
    · exact u0 0
    · exact u1 0
    · rw [hu, lineErr_succ]
      rcases n with _ | n
      · rw [W.e0, neg _ (by simp)]; simp
      · have := W.drive n
        simp only [Nat.cast_zero, zero_add, mul_zero, sub_zero]
        rw [this]; push_cast; simp
  have key := LineStable.bounded_value (j := j) (u := u) (r := r) (R := 10 * (M * dt ^ 4))
    (fun n hn k _ => by
      rcases n with _ | _ | _ | n
      · exact u0 k
      · exact u1 k
      · exact u2 k
      · omega)
    fixed
    (fun n k hk => by
      rcases n with _ | _ | n
      · rw [u0, u1, u2]; simp [LineStable.lap, u1, hr]
      · rw [u3 _ (by omega) (by omega), u1, u2]; simp [LineStable.lap, u2, hr]
      · have := W.second n (k := k + 2) (by omega) (by omega)
        unfold LineStable.lap
        rw [hu, lineErr_succ (n + 2), lineErr_succ n, show n + 2 + 1 = (n + 1) + 2 by ring, lineErr_succ (n + 1), lineErr_succ (n + 1), lineErr_succ (n + 1)]
        have c1 : ((k + 1 : ℕ) : ℤ) + 1 = k + 2 := by push_cast; ring
        have c2 : ((k + 2 : ℕ) : ℤ) + 1 = (k + 2 : ℤ) + 1 := by push_cast; ring
        have c3 : (k : ℤ) + 1 = (k + 2 : ℤ) - 1 := by ring
        rw [c1, c2, c3]
        have rr : r (n + 1 + 1 + 2) (k + 1) = - defect s dt (((n : ℝ) + 1 - 2 * (k + 1)) * dt) := by
          simp only [hr]
          rw [if_neg (by omega)]
          push_cast
          ring_nf
        rw [show n + 1 + 1 = n + 2 from rfl, show n + 2 + 2 = n + 1 + 1 + 2 by ring, rr]
        unfold defect
        push_cast
        rw [show ((n : ℝ) + 2 - 2 * (k + 1)) * dt = (((n : ℝ) + 1 - 2 * (k + 1)) * dt + dt) by ring,
          show ((n : ℝ) - 2 * (k + 1)) * dt = (((n : ℝ) + 1 - 2 * (k + 1)) * dt - dt) by ring,
          show ((n : ℝ) + 1 - 2 * (k + 2)) * dt = (((n : ℝ) + 1 - 2 * (k + 1)) * dt - 2 * dt) by ring,
          show ((n : ℝ) + 1 - 2 * k) * dt = (((n : ℝ) + 1 - 2 * (k + 1)) * dt + 2 * dt) by ring]
        linarith)
    (fun n => by
      rcases n with _ | n
      · rw [u3 _ (by omega) (by omega), u1, u2, u0, u2]; simp [hr]
      · have := W.second n (k := N - 2) (by omega) (by omega)
        rw [show N - 2 + 1 = N - 1 by ring, W.end_ n] at this
        rw [hu, show n + 1 + 3 = (n + 2) + 2 by ring, lineErr_succ (n + 2), show n + 1 + 1 = n + 2 by ring, lineErr_succ n, show n + 1 + 2 = (n + 1) + 2 by ring,
          lineErr_succ (n + 1), lineErr_succ (n + 1)]
        have c1 : ((j + 1 : ℕ) : ℤ) + 1 = N - 2 := by push_cast; omega
        have c2 : (j : ℤ) + 1 = N - 2 - 1 := by omega
        rw [c1, c2]
        have rr : r (n + 2 + 2) (j + 1) = - defect s dt (((n : ℝ) + 1 - 2 * (j + 1)) * dt) := by
          simp only [hr]
          rw [if_neg (by omega)]
          push_cast
          ring_nf
        have ee : lineErr s dt e (n + 1) (j + 1) = (if n = 0 then 0 else e (n - 1) (N - 2)) - s (((n : ℝ) + 1 - 2 * (j + 2)) * dt) := by
          rcases n with _ | n
          · rw [show 0 + 1 = 1 from rfl, ← hu, u1, neg _ (by push_cast; have := Nat.cast_nonneg (α := ℝ) j; linarith)]; simp
          · rw [show n + 1 + 1 = n + 2 by ring, lineErr_succ, c1]
            simp only [Nat.add_eq_zero_iff, one_ne_zero, and_false, if_false, Nat.add_sub_cancel]
            push_cast
            ring_nf
        rw [rr, ee]
        unfold defect
        push_cast
        rw [show ((n : ℝ) + 2 - 2 * (j + 1)) * dt = (((n : ℝ) + 1 - 2 * (j + 1)) * dt + dt) by ring,
          show ((n : ℝ) - 2 * (j + 1)) * dt = (((n : ℝ) + 1 - 2 * (j + 1)) * dt - dt) by ring,
          show ((n : ℝ) + 1 - 2 * (j + 2)) * dt = (((n : ℝ) + 1 - 2 * (j + 1)) * dt - 2 * dt) by ring,
          show ((n : ℝ) + 1 - 2 * j) * dt = (((n : ℝ) + 1 - 2 * (j + 1)) * dt + 2 * dt) by ring]
        linarith)
    (fun n k _ => by
      simp only [hr]
      split
      · rw [abs_zero]; positivity
      · rw [abs_neg]; exact hs.defect_le hd _)
    n (k - 1).toNat (by omega)
  rw [hu, lineErr_succ] at key
  have c : ((k - 1).toNat : ℤ) = k - 1 := by omega
  have c' : (((k - 1).toNat : ℕ) : ℝ) = k - 1 := by
    have := congrArg (Int.cast : ℤ → ℝ) c
    push_cast at this
    exact this
  rw [c, c', show k - 1 + 1 = k by ring] at key
  refine key.trans (le_of_eq ?_)
  rw [hj]
  push_cast
  ring

/-- The line of a delayed signal is the delayed line. -/
theorem Spec.LineWave.delay (W : LineWave s dt N e h) (s0 : s 0 = 0) :
    LineWave (fun t => s (t - dt)) dt N (fun n => if n = 0 then fun _ => 0 else e (n - 1)) (fun n => if n = 0 then fun _ => 0 else h (n - 1)) where
  e0 := fun _ => rfl
  h0 := fun _ => rfl
  drive := fun n => by
    show e n 1 = _
    rcases n with _ | n
    · rw [W.e0]; simp [s0]
    · rw [W.drive]; congr 1; push_cast; ring
  ampere := fun n k k1 k2 => by
    show e n k = _
    rcases n with _ | n
    · simp [W.e0]
    · simp only [Nat.add_eq_zero_iff, one_ne_zero, and_false, if_false, Nat.add_sub_cancel]
      exact W.ampere n k k1 k2
  end1 := W.e0 _
  open_ := fun n => by
    show e (n + 1) (N - 1) = _
    rw [W.end_ n]
    split <;> rfl
  faraday := fun n k k1 k2 => by
    show h n k = _ + (e n k - e n (k + 1)) / 2
    rcases n with _ | n
    · simp [W.e0, W.h0]
    · simp only [Nat.add_eq_zero_iff, one_ne_zero, and_false, if_false, Nat.add_sub_cancel]
      exact W.faraday n k k1 k2

theorem Spec.LineWave.sub {s' : ℝ → ℝ} {e' h' : ℕ → ℤ → ℝ} (W : LineWave s dt N e h) (W' : LineWave s' dt N e' h') :
    LineWave (fun t => s t - s' t) dt N (fun n k => e n k - e' n k) (fun n k => h n k - h' n k) where
  e0 := fun k => by rw [W.e0, W'.e0]; ring
  h0 := fun k => by rw [W.h0, W'.h0]; ring
  drive := fun n => by rw [W.drive, W'.drive]
  ampere := fun n k k1 k2 => by rw [W.ampere n k k1 k2, W'.ampere n k k1 k2]; ring
  end1 := by rw [W.end1, W'.end1]; ring
  open_ := fun n => by rw [W.open_, W'.open_]
  faraday := fun n k k1 k2 => by rw [W.faraday n k k1 k2, W'.faraday n k k1 k2]; ring

/-- **So does its change over one step.** -/
theorem Spec.LineWave.close_step (W : LineWave s dt N e h) (hN : 4 ≤ N) (hd : 0 ≤ dt) {M : ℝ} (hs : SmoothStart s M) (n : ℕ) {k : ℤ} (k1 : 1 ≤ k)
    (k2 : k ≤ N - 2) :
    |(e (n + 1) k - e n k) - (s (((n : ℝ) + 1 - 2 * (k - 1)) * dt) - s (((n : ℝ) - 2 * (k - 1)) * dt))| ≤ 80 * (n + 1) * ((N - 3) * (M * dt ^ 5)) := by
  have D := W.sub (W.delay (hs.before 0 le_rfl))
  have c := D.close hN hd (hs.four_diff hd) (fun t ht => by rw [hs.before t ht, hs.before (t - dt) (by linarith)]; ring) (n + 1) k1 k2
  simp only [Nat.add_eq_zero_iff, one_ne_zero, and_false, if_false, Nat.add_sub_cancel] at c
  push_cast at c
  rw [show ((n : ℝ) + 1 - 2 * (k - 1)) * dt - dt = ((n : ℝ) - 2 * (k - 1)) * dt by ring] at c
  refine c.trans (le_of_eq ?_)
  ring

/-! ## The magnetic values -/

theorem Spec.SmoothStart.central {M : ℝ} (h : SmoothStart s M) (t δ : ℝ) (hδ : 0 ≤ δ) : |s (t + δ) - s (t - δ) - 2 * δ * deriv s t| ≤ 2 * M * δ ^ 3 := by
  have M0 : 0 ≤ M := (abs_nonneg _).trans (h.bound 2 le_rfl (by norm_num) 0)
  have d0 : ∀ t, HasDerivAt s (iteratedDeriv 1 s t) t := fun t => by have := h.deriv0 0 (by norm_num) t; rwa [iteratedDeriv_zero] at this
  have d1 := h.deriv0 1 (by norm_num)
  have d2 := h.deriv0 2 (by norm_num)
  rw [show deriv s t = iteratedDeriv 1 s t by rw [iteratedDeriv_one]]
  have k2 : ∀ u, 0 ≤ u → u ≤ δ → |iteratedDeriv 2 s (t + u) - iteratedDeriv 2 s (t - u)| ≤ 2 * M * u := fun u u0 u1 =>
    small_of_deriv (f := fun u => iteratedDeriv 2 s (t + u) - iteratedDeriv 2 s (t - u)) (f' := fun u => iteratedDeriv 3 s (t + u) - -iteratedDeriv 3 s (t - u)) (δ := δ)
      (fun v _ _ => ⟨(hasDerivAt_fwd (d2 _)).sub (hasDerivAt_bwd (d2 _)), by
        have a1 := h.bound 3 (by norm_num) (by norm_num) (t + v)
        have a2 := h.bound 3 (by norm_num) (by norm_num) (t - v)
        rw [abs_le] at a1 a2 ⊢
        constructor <;> linarith [a1.1, a1.2, a2.1, a2.2]⟩) (by simp) u0 u1
  have k1 : ∀ u, 0 ≤ u → u ≤ δ → |iteratedDeriv 1 s (t + u) + iteratedDeriv 1 s (t - u) - 2 * iteratedDeriv 1 s t| ≤ 2 * M * δ * u := fun u u0 u1 =>
    small_of_deriv (f := fun u => iteratedDeriv 1 s (t + u) + iteratedDeriv 1 s (t - u) - 2 * iteratedDeriv 1 s t)
      (f' := fun u => iteratedDeriv 2 s (t + u) + -iteratedDeriv 2 s (t - u)) (δ := δ)
      (fun v v0 v1 => ⟨((hasDerivAt_fwd (d1 _)).add (hasDerivAt_bwd (d1 _))).sub_const _, by
        rw [← sub_eq_add_neg]
        exact (k2 v v0 v1).trans (mul_le_mul_of_nonneg_left v1 (by positivity))⟩) (by ring) u0 u1
  have k0 := small_of_deriv (f := fun u => s (t + u) - s (t - u) - 2 * u * iteratedDeriv 1 s t)
      (f' := fun u => iteratedDeriv 1 s (t + u) - -iteratedDeriv 1 s (t - u) - 2 * iteratedDeriv 1 s t) (δ := δ) (C := 2 * M * δ ^ 2)
      (fun v v0 v1 => ⟨((hasDerivAt_fwd (d0 _)).sub (hasDerivAt_bwd (d0 _))).sub (by
          have := ((hasDerivAt_id v).const_mul 2).mul_const (iteratedDeriv 1 s t)
          simpa using this), by
        rw [sub_neg_eq_add]
        refine (k1 v v0 v1).trans ?_
        have := mul_le_mul_of_nonneg_left v1 (show 0 ≤ 2 * M * δ by positivity)
        linarith⟩) (by ring_nf) hδ le_rfl
  refine k0.trans (le_of_eq ?_)
  ring

theorem Spec.SmoothStart.mean {M : ℝ} (h : SmoothStart s M) (t δ : ℝ) (hδ : 0 ≤ δ) : |s (t + δ) + s (t - δ) - 2 * s t| ≤ 2 * M * δ ^ 2 := by
  have M0 : 0 ≤ M := (abs_nonneg _).trans (h.bound 2 le_rfl (by norm_num) 0)
  have d0 : ∀ t, HasDerivAt s (iteratedDeriv 1 s t) t := fun t => by have := h.deriv0 0 (by norm_num) t; rwa [iteratedDeriv_zero] at this
  have d1 := h.deriv0 1 (by norm_num)
  have k1 : ∀ u, 0 ≤ u → u ≤ δ → |iteratedDeriv 1 s (t + u) - iteratedDeriv 1 s (t - u)| ≤ 2 * M * u := fun u u0 u1 =>
    small_of_deriv (f := fun u => iteratedDeriv 1 s (t + u) - iteratedDeriv 1 s (t - u)) (f' := fun u => iteratedDeriv 2 s (t + u) - -iteratedDeriv 2 s (t - u)) (δ := δ)
      (fun v _ _ => ⟨(hasDerivAt_fwd (d1 _)).sub (hasDerivAt_bwd (d1 _)), by
        have a1 := h.bound 2 (by norm_num) (by norm_num) (t + v)
        have a2 := h.bound 2 (by norm_num) (by norm_num) (t - v)
        rw [abs_le] at a1 a2 ⊢
        constructor <;> linarith [a1.1, a1.2, a2.1, a2.2]⟩) (by simp) u0 u1
  have k0 := small_of_deriv (f := fun u => s (t + u) + s (t - u) - 2 * s t)
      (f' := fun u => iteratedDeriv 1 s (t + u) + -iteratedDeriv 1 s (t - u)) (δ := δ) (C := 2 * M * δ)
      (fun v v0 v1 => ⟨((hasDerivAt_fwd (d0 _)).add (hasDerivAt_bwd (d0 _))).sub_const _, by
        rw [← sub_eq_add_neg]
        exact (k1 v v0 v1).trans (mul_le_mul_of_nonneg_left v1 (by positivity))⟩) (by ring) hδ le_rfl
  refine k0.trans (le_of_eq ?_)
  ring

theorem Spec.SmoothStart.nonneg {M : ℝ} (h : SmoothStart s M) : 0 ≤ M := (abs_nonneg _).trans (h.bound 2 le_rfl (by norm_num) 0)

/-- The magnetic value at the end is the mean of two electric values. -/
theorem Spec.LineWave.h_end (W : LineWave s dt N e h) (hN : 4 ≤ N) : ∀ n, h (n + 1) (N - 2) = (e (n + 1) (N - 2) + e n (N - 2)) / 2
  | 0 => by
    rw [W.faraday 0 (N - 2) (by omega) le_rfl, W.h0, W.first (by omega) le_rfl, show N - 2 + 1 = N - 1 by ring, W.end1, W.e0]; ring
  | n + 1 => by
    rw [W.faraday (n + 1) (N - 2) (by omega) le_rfl, W.h_end hN n, show N - 2 + 1 = N - 1 by ring, W.open_]; ring

/-- The magnetic values `d` nodes before the end. -/
theorem Spec.LineWave.close_h (W : LineWave s dt N e h) (hN : 4 ≤ N) (hd : 0 ≤ dt) {M : ℝ} (hs : SmoothStart s M) (n : ℕ) : ∀ d : ℕ, (d : ℤ) ≤ N - 3 →
    |h n (N - 2 - d) - s (((n : ℝ) - 2 * ((N - 2 - d : ℤ) - 1) - 1 / 2) * dt)| ≤
      80 * n * ((N - 3) * (M * dt ^ 4)) + M * dt ^ 2 + d * (160 * (n + 1) * ((N - 3) * (M * dt ^ 5)) + 5 * (M * dt ^ 3))
  | 0, _ => by
    have M0 := hs.nonneg
    have n4 : (4 : ℝ) ≤ N := by exact_mod_cast hN
    have p4 : 0 ≤ (N - 3 : ℝ) * (M * dt ^ 4) := mul_nonneg (by linarith) (by positivity)
    rcases n with _ | n
    · rw [W.h0, hs.before _ (mul_nonpos_of_nonpos_of_nonneg (by push_cast; linarith) hd)]
      simp only [sub_zero, abs_zero]
      push_cast
      have : 0 ≤ M * dt ^ 2 := by positivity
      simpa using this
    · have a1 := W.close hN hd hs.four hs.before (n + 1) (k := N - 2) (by omega) le_rfl
      have a0 := W.close hN hd hs.four hs.before n (k := N - 2) (by omega) le_rfl
      have m := hs.mean (((n : ℝ) + 1 - 2 * ((N - 2 : ℤ) - 1) - 1 / 2) * dt) (dt / 2) (by positivity)
      rw [show ((n : ℝ) + 1 - 2 * ((N - 2 : ℤ) - 1) - 1 / 2) * dt + dt / 2 = ((n : ℝ) + 1 - 2 * ((N - 2 : ℤ) - 1)) * dt by ring,
        show ((n : ℝ) + 1 - 2 * ((N - 2 : ℤ) - 1) - 1 / 2) * dt - dt / 2 = ((n : ℝ) - 2 * ((N - 2 : ℤ) - 1)) * dt by ring] at m
      simp only [Nat.cast_zero, sub_zero, zero_mul, add_zero]
      rw [W.h_end hN n]
      push_cast at a1 a0 m ⊢
      rw [abs_le] at a1 a0 m ⊢
      constructor <;> nlinarith [a1.1, a1.2, a0.1, a0.2, m.1, m.2, sq_nonneg dt, mul_nonneg M0 (sq_nonneg dt)]
  | d + 1, hd1 => by
    have ih := W.close_h hN hd hs n d (by push_cast at hd1; omega)
    have M0 := hs.nonneg
    set k : ℤ := N - 2 - d with hk
    have k' : N - 2 - ((d + 1 : ℕ) : ℤ) = k - 1 := by push_cast; omega
    have k2 : 2 ≤ k := by push_cast at hd1; omega
    rw [k']
    have am := W.ampere n k k2 (by omega)
    have st := W.close_step hN hd hs n (k := k) (by omega) (by omega)
    have c1 := hs.central (((n : ℝ) - 2 * (k - 1) + 1 / 2) * dt) dt hd
    have c2 := hs.central (((n : ℝ) - 2 * (k - 1) + 1 / 2) * dt) (dt / 2) (by positivity)
    rw [show ((n : ℝ) - 2 * (k - 1) + 1 / 2) * dt + dt = ((n : ℝ) - 2 * ((k - 1 : ℤ) - 1) - 1 / 2) * dt by push_cast; ring,
      show ((n : ℝ) - 2 * (k - 1) + 1 / 2) * dt - dt = ((n : ℝ) - 2 * (k - 1) - 1 / 2) * dt by ring] at c1
    rw [show ((n : ℝ) - 2 * (k - 1) + 1 / 2) * dt + dt / 2 = ((n : ℝ) + 1 - 2 * (k - 1)) * dt by ring,
      show ((n : ℝ) - 2 * (k - 1) + 1 / 2) * dt - dt / 2 = ((n : ℝ) - 2 * (k - 1)) * dt by ring] at c2
    have p3 : 0 ≤ M * dt ^ 3 := by positivity
    push_cast
    push_cast at c1
    rw [abs_le] at ih st c1 c2 ⊢
    constructor <;> nlinarith [ih.1, ih.2, st.1, st.2, c1.1, c1.2, c2.1, c2.2]

end

end Qbox
