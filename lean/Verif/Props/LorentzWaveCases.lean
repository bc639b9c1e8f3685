import Verif.Props.LorentzWaveProps
import Verif.Props.PolarCases

/-! # A non-trivial case of the theorem about Lorentz media (C93) -/

namespace Qbox.Props
open Qbox Scalar Spec

theorem tame_scale {f f1 : ℝ → ℝ} {a b M : ℝ} (c : ℝ) (t : Tame f f1 a b M) : Tame (fun s => c * f s) (fun s => c * f1 s) a b (|c| * M) := by
  obtain ⟨f2, f3, h⟩ := t
  refine ⟨fun s => c * f2 s, fun s => c * f3 s, fun s h1 h2 => ?_⟩
  obtain ⟨k1, k2, k3, k4, k5⟩ := h s h1 h2
  refine ⟨k1.const_mul c, k2.const_mul c, k3.const_mul c, ?_, ?_⟩ <;> rw [abs_mul]
  · exact mul_le_mul_of_nonneg_left k4 (abs_nonneg _)
  · exact mul_le_mul_of_nonneg_left k5 (abs_nonneg _)

theorem tame_add {f f1 h h1 : ℝ → ℝ} {a b M N L : ℝ} (s : Tame f f1 a b M) (t : Tame h h1 a b N) (hL : M + N ≤ L) :
    Tame (fun s => f s + h s) (fun s => f1 s + h1 s) a b L := by
  obtain ⟨f2, f3, k⟩ := s
  obtain ⟨h2, h3, l⟩ := t
  refine ⟨fun s => f2 s + h2 s, fun s => f3 s + h3 s, fun s a1 a2 => ?_⟩
  obtain ⟨k1, k2, k3, k4, k5⟩ := k s a1 a2
  obtain ⟨l1, l2, l3, l4, l5⟩ := l s a1 a2
  exact ⟨k1.add l1, k2.add l2, k3.add l3, (abs_add_le _ _).trans (by linarith), (abs_add_le _ _).trans (by linarith)⟩

/-- The profile of the field. -/
noncomputable def bellC (x y : ℝ) : ℝ := Real.cos (modeK * (x - 1 / 2)) * Real.cos (modeK * (y - 1 / 2))
/-- The polarization that the field of `lamp` makes in a medium whose charges swing with half its frequency, its rate of change, and the rate of change of that. -/
noncomputable def bellP (t x y : ℝ) : ℝ := - (1 / 24) * (bellC x y * Real.sin (1 * (t - 0))) + 1 / 12 * (bellC x y * Real.sin (1 / 2 * (t - 0)))
noncomputable def bellK (t x y : ℝ) : ℝ := - (1 / 24) * (bellC x y * Real.cos (1 * (t - 0))) + 1 / 24 * (bellC x y * Real.cos (1 / 2 * (t - 0)))
noncomputable def bellKt (t x y : ℝ) : ℝ := 1 / 24 * (bellC x y * Real.sin (1 * (t - 0))) - 1 / 48 * (bellC x y * Real.sin (1 / 2 * (t - 0)))

/-- The disc and its pole. -/
noncomputable def bellPole : LorentzPole ℝ := { omega := 1 / 2, gamma := 0, dEps := 1 }
noncomputable def bellDisc : Object ℝ := disc ⟨"l", .lorentz ⟨1, [bellPole]⟩⟩ 10 10

theorem bellC_le (x y : ℝ) : |bellC x y| ≤ 1 := prod_le_one (Real.abs_cos_le_one _) (Real.abs_cos_le_one _)

theorem bell_inside (x y : ℝ) : bellDisc.inside ⟨x, y⟩ = true ↔ (x - 10) ^ 2 + (y - 10) ^ 2 < 4 := by
  rw [bellDisc, disc_inside]

theorem small_sum {u v a b : ℝ} (ha : |a| ≤ 1 / 24) (hb : |b| ≤ 1 / 12) (hu : |u| ≤ 1) (hv : |v| ≤ 1) : |a * u + b * v| ≤ 1 / 8 := by
  refine (abs_add_le _ _).trans ?_
  rw [abs_mul, abs_mul]
  have h1 := mul_le_mul ha hu (abs_nonneg _) (by norm_num)
  have h2 := mul_le_mul hb hv (abs_nonneg _) (by norm_num)
  linarith

theorem bellK_le (t x y : ℝ) : |bellK t x y| ≤ 1 / 8 := by
  have h := bellC_le x y
  exact small_sum (by norm_num [abs_le]) (by norm_num [abs_le]) (prod_le_one h (Real.abs_cos_le_one _)) (prod_le_one h (Real.abs_cos_le_one _))

theorem bellP_le (t x y : ℝ) : |bellP t x y| ≤ 1 / 8 := by
  have h := bellC_le x y
  exact small_sum (by norm_num [abs_le]) (by norm_num [abs_le]) (prod_le_one h (Real.abs_sin_le_one _)) (prod_le_one h (Real.abs_sin_le_one _))

theorem half_one : |(1 / 2 : ℝ)| ≤ 1 := by norm_num [abs_le]

theorem small_change {u v a b L : ℝ} (ha : |a| ≤ 1 / 24) (hb : |b| ≤ 1 / 12) (hu : |u| ≤ 1 * L) (hv : |v| ≤ 1 * L) : |a * u + b * v| ≤ 1 * L := by
  have L0 : 0 ≤ L := by have := (abs_nonneg u).trans hu; linarith
  refine (abs_add_le _ _).trans ?_
  rw [abs_mul, abs_mul]
  have h1 := mul_le_mul ha hu (abs_nonneg _) (by norm_num)
  have h2 := mul_le_mul hb hv (abs_nonneg _) (by norm_num)
  linarith

theorem bell_swinging (g : Grid ℝ) (τ : ℝ) : lamp.Swinging (inDisc bellP) (inDisc bellK) (inDisc bellKt) (fun _ _ => True) (fun x y => bellDisc.inside ⟨x, y⟩ = true) bellPole g τ 1 := by
  have one : |(1 : ℝ)| ≤ 1 := by simp
  refine ⟨fun t x y _ _ _ _ h => ?_, fun t x y _ _ _ h => ?_, fun x y _ _ => ?_, fun x y _ _ => ?_, fun t x y _ _ _ => ?_, fun t x y _ _ _ => ?_, fun t t' x y _ h _ _ => ?_, fun t t' x y _ h _ _ => ?_⟩
  · rw [bell_inside] at h
    unfold inDisc
    rw [if_pos h, if_pos h, if_pos h]
    simp only [bellKt, bellK, bellP, bellPole, lamp, bellC]
    ring
  · rw [bell_inside] at h
    unfold inDisc
    rw [if_neg h]
  · have c := bellC_le x y
    by_cases h : (x - 10) ^ 2 + (y - 10) ^ 2 < 4
    · refine tame_of_eq (tame_add (tame_scale (-(1 / 24)) (tame_sin c one 0 0 τ)) (tame_scale (1 / 12) (tame_sin c half_one 0 0 τ)) (by norm_num [abs_of_pos])) (fun t => ?_) fun t => ?_
      · unfold inDisc
        rw [if_pos h]
        rfl
      · unfold inDisc
        rw [if_pos h]
        simp only [bellK]
        ring
    · refine tame_of_eq (tame_zero 0 τ) (fun t => ?_) fun t => ?_
      · unfold inDisc
        rw [if_neg h]
      · unfold inDisc
        rw [if_neg h]
  · have c := bellC_le x y
    by_cases h : (x - 10) ^ 2 + (y - 10) ^ 2 < 4
    · refine tame_of_eq (tame_add (tame_scale (-(1 / 24)) (tame_cos c one 0 0 τ)) (tame_scale (1 / 24) (tame_cos c half_one 0 0 τ)) (by norm_num [abs_of_pos])) (fun t => ?_) fun t => ?_
      · unfold inDisc
        rw [if_pos h]
        rfl
      · unfold inDisc
        rw [if_pos h]
        simp only [bellKt]
        ring
    · refine tame_of_eq (tame_zero 0 τ) (fun t => ?_) fun t => ?_
      · unfold inDisc
        rw [if_neg h]
      · unfold inDisc
        rw [if_neg h]
  · unfold inDisc
    split
    · exact (bellP_le ..).trans (by norm_num)
    · simp
  · unfold inDisc
    split
    · exact (bellK_le ..).trans (by norm_num)
    · simp
  · unfold inDisc
    split
    · have c := bellC_le x y
      exact (le_of_eq (congrArg _ (by simp only [bellP]; ring))).trans
        (small_change (a := - (1 / 24)) (b := 1 / 12) (by norm_num [abs_le]) (by norm_num [abs_le]) (lip_sin c one 0 h) (lip_sin c half_one 0 h))
    · simpa using h
  · unfold inDisc
    split
    · have c := bellC_le x y
      exact (le_of_eq (congrArg _ (by simp only [bellK]; ring))).trans
        (small_change (a := - (1 / 24)) (b := 1 / 24) (by norm_num [abs_le]) (by norm_num [abs_le]) (lip_cos c one 0 h) (lip_cos c half_one 0 h))
    · simpa using h

/-- The current of sources that switch this field on. -/
noncomputable def bellI (t x y : ℝ) : ℝ :=
  - bellC x y / 8 * (Real.cos (1 * (t - 0)) + 2 * modeK ^ 2 * (1 - Real.cos (1 * (t - 0)))) - inDisc bellK t x y

theorem bellI_le (t x y : ℝ) : |bellI t x y| ≤ 2 / 5 := by
  have p := bellC_le x y
  have k1 : modeK ^ 2 ≤ 1 / 25 := by nlinarith [modeK_pos, modeK_le]
  have k0 : 0 ≤ modeK ^ 2 := sq_nonneg _
  have c1 := Real.neg_one_le_cos (1 * (t - 0))
  have c2 := Real.cos_le_one (1 * (t - 0))
  have q0 : 0 ≤ modeK ^ 2 * (1 - Real.cos (1 * (t - 0))) := mul_nonneg k0 (by linarith)
  have q : modeK ^ 2 * (1 - Real.cos (1 * (t - 0))) ≤ 1 / 25 * 2 := mul_le_mul k1 (by linarith) (by linarith) (by norm_num)
  have r : |(Real.cos (1 * (t - 0)) + 2 * modeK ^ 2 * (1 - Real.cos (1 * (t - 0)))) / 2| ≤ 1 := by
    rw [abs_le]
    constructor <;> linarith
  have s := prod_le_one p r
  have i : |inDisc bellK t x y| ≤ 1 / 8 := by
    unfold inDisc
    split
    · exact bellK_le ..
    · norm_num
  unfold bellI
  rw [abs_le] at s i ⊢
  constructor <;> linarith [s.1, s.2, i.1, i.2]

/-- **The hypotheses of C93 are met**: sources outside a disc of bound charges switch a field on. In the disc the solution has a current that no source carries. Any
number of updates. -/
example (n : ℕ) : ∃ c, (⟨[] ++ [bellDisc], radiators gOpen (fun _ _ => 1) (fun _ _ => 0) (offDisc bellI) (- (gOpen.dt / 2)), none⟩ : Scene).run gOpen n = .ok c ∧
    Real.sqrt (gap lamp gOpen n c.f (updatedNodes gOpen)) ≤ 3 * (Real.exp (swingRate bellPole 1 0 gOpen.dt * (n * gOpen.dt)) *
      (swingStart (fun _ _ => True) gOpen bellPole 1 1 + n * gOpen.dt * swingError (fun _ _ => True) gOpen bellPole 1 1 0 (2 / 5))) := by
  have hl := gOpen_lawful
  have hd : gOpen.dt = 1 / 2 := by rw [hl.dt, gOpen_dx]
  have ce : coated bellDisc 1 (fun _ _ => 1) = fun _ _ => 1 := by funext x y; unfold coated; split <;> rfl
  have cs : coated bellDisc 0 (fun _ _ => 0) = fun _ _ => 0 := by funext x y; unfold coated; split <;> rfl
  have k := radiators_carry hl (eps := fun _ _ => 1) (sig := fun _ _ => 0) (offDisc bellI) (a := - (gOpen.dt / 2)) (τ := n + 1) (δ := 0) (fun i j _ => ⟨le_rfl, le_rfl⟩)
    fun m i j _ _ => by rw [show ((m : ℝ) + 1) * gOpen.dt + - (gOpen.dt / 2) = (m + 1 / 2) * gOpen.dt by ring, sub_self, abs_zero]
  have gapI : ∀ t x y, |bellI t x y - offDisc bellI t x y| ≤ 2 / 5 := by
    intro t x y
    unfold offDisc
    split
    · rw [sub_zero]; exact bellI_le t x y
    · norm_num
  refine C93_solves n gOpen ⟨by rw [gOpen_T, gOpen_Nx]; norm_num, by rw [gOpen_T, gOpen_Ny]; norm_num⟩ hl gOpen_T [] (by simp) (by simp) (by simp) 1 0 ⟨le_rfl, by simp⟩
    ⟨le_rfl, by simp⟩ (fun _ _ => 1) (fun _ _ => 0) ⟨fun p o m h => ?_, fun _ _ => ⟨rfl, rfl⟩⟩ bellDisc 1 bellPole rfl (disc_sound _ _ _) (fun p h => ?_) le_rfl le_rfl
    (by norm_num [bellPole]) (by norm_num [bellPole]) (by norm_num [bellPole]) lamp (fun _ _ => True) (inDisc bellP) (inDisc bellK) (inDisc bellKt) bellI (n + 1) 1 (2 / 5) (lamp_smooth _ _)
    (lamp_steady _ _) ?_ (bell_swinging _ _) (fun t x y _ _ _ => (bellI_le t x y).trans (by norm_num)) (lamp_walls _) (lamp_rest _) (fun x y _ => ?_) _ (radiators_fit hl _ _ _ _)
    (by norm_num) ?_ ?_ (by rw [hd]; linarith [Nat.cast_nonneg (α := ℝ) n])
  · obtain ⟨b, a, e, -⟩ := h
    simp at e
  · rw [bellDisc, disc_inside] at h
    rw [gOpen_Lx]
    constructor <;> nlinarith [sq_nonneg (p.x - 10), sq_nonneg (p.y - 10)]
  · rw [ce, cs]
    refine ⟨fun t x y _ _ _ _ => ?_, fun t x y _ _ _ _ => by simp only [lamp]; ring, fun t x y _ _ _ _ => by simp only [lamp]; ring⟩
    unfold bellI
    simp only [lamp, bellC]
    ring
  · unfold inDisc
    split
    · simp [bellP, bellK]
    · exact ⟨rfl, rfl⟩
  · rw [ce, cs]
    refine ⟨k.electric, fun m i j a1 a2 a3 a4 a5 => ?_⟩
    have b1 := k.node m i j a1 a2 a3 a4 a5
    have b2 := gapI ((m + 1 / 2) * gOpen.dt) (i * gOpen.dx) (j * gOpen.dx)
    rw [abs_le] at b1 b2 ⊢
    constructor <;> linarith [b1.1, b1.2, b2.1, b2.2]
  · intro t i j h
    have z : ∀ t, offDisc bellI t (i * gOpen.dx) (j * gOpen.dx) = 0 := fun t => by
      rw [bell_inside] at h
      unfold offDisc
      rw [if_pos h]
    exact radiators_outside hl (objs := [bellDisc]) (fun _ _ => 1) (fun _ _ => 0) (- (gOpen.dt / 2)) (fun t p o ho _ => by
      obtain ⟨b, a, e, h, -⟩ := ho
      have : o = bellDisc := List.mem_singleton.mp (by rw [e]; simp)
      subst this
      have h' : bellDisc.inside ⟨p.x, p.y⟩ = true := h
      rw [bell_inside] at h'
      unfold offDisc
      rw [if_pos h']) t i j bellDisc ⟨[], [], rfl, by simpa [Grid.toReal, mul_comm] using h, by simp⟩ trivial

/-- The polarization of this case is not zero. -/
example : inDisc bellP Real.pi 10 10 ≠ 0 := by
  have c : Real.cos (modeK * (10 - 1 / 2)) ≠ 0 := by
    refine (Real.cos_pos_of_mem_Ioo ⟨?_, ?_⟩).ne' <;> unfold modeK <;> linarith [Real.pi_pos]
  unfold inDisc
  rw [if_pos (by norm_num)]
  have h : 1 / 2 * (Real.pi - 0) = Real.pi / 2 := by ring
  unfold bellP bellC
  rw [one_mul, sub_zero, Real.sin_pi, show 1 / 2 * Real.pi = Real.pi / 2 by ring, Real.sin_pi_div_two, mul_zero, mul_zero, zero_add, mul_one]
  exact mul_ne_zero (by norm_num) (mul_ne_zero c c)

end Qbox.Props
