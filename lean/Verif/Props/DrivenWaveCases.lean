import Verif.Props.DrivenWaveProps
import Verif.Props.ConvergeCases

/-! # A non-trivial case of the theorems about radiating currents (C84) -/

namespace Qbox.Props
open Qbox Scalar Spec

theorem tame_of_eq {f f1 h h1 : ℝ → ℝ} {a b M : ℝ} (t : Tame f f1 a b M) (e : ∀ s, f s = h s) (e1 : ∀ s, f1 s = h1 s) : Tame h h1 a b M := by
  obtain rfl : f = h := funext e
  obtain rfl : f1 = h1 := funext e1
  exact t

theorem tame_shift {f f1 : ℝ → ℝ} {a b M : ℝ} (c : ℝ) (t : Tame f f1 a b M) : Tame (fun s => c + f s) f1 a b M := by
  obtain ⟨f2, f3, h⟩ := t
  exact ⟨f2, f3, fun s h1 h2 => ⟨(h s h1 h2).1.const_add c, (h s h1 h2).2⟩⟩

/-- A field that is switched on at time zero, in a domain with a conducting dielectric disc. -/
noncomputable def lamp : Spec.Wave where
  E t x y := 1 / 8 * Real.cos (modeK * (x - 1 / 2)) * Real.cos (modeK * (y - 1 / 2)) * Real.sin (1 * (t - 0))
  X t x y := modeK / 8 * Real.cos (modeK * (x - 1 / 2)) * Real.sin (modeK * (y - 1 / 2)) * (1 - Real.cos (1 * (t - 0)))
  Y t x y := - (modeK / 8) * Real.sin (modeK * (x - 1 / 2)) * Real.cos (modeK * (y - 1 / 2)) * (1 - Real.cos (1 * (t - 0)))
  Et t x y := 1 / 8 * Real.cos (modeK * (x - 1 / 2)) * Real.cos (modeK * (y - 1 / 2)) * Real.cos (1 * (t - 0))
  Ex t x y := - (1 / 8 * modeK) * Real.sin (modeK * (x - 1 / 2)) * Real.cos (modeK * (y - 1 / 2)) * Real.sin (1 * (t - 0))
  Ey t x y := - (1 / 8 * modeK) * Real.cos (modeK * (x - 1 / 2)) * Real.sin (modeK * (y - 1 / 2)) * Real.sin (1 * (t - 0))
  Xt t x y := modeK / 8 * Real.cos (modeK * (x - 1 / 2)) * Real.sin (modeK * (y - 1 / 2)) * Real.sin (1 * (t - 0))
  Xy t x y := modeK / 8 * modeK * Real.cos (modeK * (x - 1 / 2)) * Real.cos (modeK * (y - 1 / 2)) * (1 - Real.cos (1 * (t - 0)))
  Yt t x y := - (modeK / 8) * Real.sin (modeK * (x - 1 / 2)) * Real.cos (modeK * (y - 1 / 2)) * Real.sin (1 * (t - 0))
  Yx t x y := - (modeK / 8) * modeK * Real.cos (modeK * (x - 1 / 2)) * Real.cos (modeK * (y - 1 / 2)) * (1 - Real.cos (1 * (t - 0)))

open Classical in
noncomputable def discEps (x y : ℝ) : ℝ := if (x - 10) ^ 2 + (y - 10) ^ 2 < 4 then 3 else 1
open Classical in
noncomputable def discSig (x y : ℝ) : ℝ := if (x - 10) ^ 2 + (y - 10) ^ 2 < 4 then 1 else 0

/-- The current that radiates it. -/
noncomputable def lampJ (t x y : ℝ) : ℝ :=
  - (Real.cos (modeK * (x - 1 / 2)) * Real.cos (modeK * (y - 1 / 2))) *
    (modeK ^ 2 / 4 * (1 - Real.cos t) + discEps x y / 8 * Real.cos t + discSig x y / 8 * Real.sin t)

theorem discEps_cases (x y : ℝ) : (discEps x y = 3 ∧ discSig x y = 1) ∨ (discEps x y = 1 ∧ discSig x y = 0) := by
  unfold discEps discSig
  by_cases h : (x - 10) ^ 2 + (y - 10) ^ 2 < 4
  · left; rw [if_pos h, if_pos h]; exact ⟨rfl, rfl⟩
  · right; rw [if_neg h, if_neg h]; exact ⟨rfl, rfl⟩

theorem one_sub_cos (t : ℝ) : |1 - Real.cos t| ≤ 2 := by
  have h1 := Real.neg_one_le_cos t
  have h2 := Real.cos_le_one t
  rw [abs_le]; constructor <;> linarith

theorem lamp_eighth {a : ℝ} (ha : |a| ≤ 2) : |a / 8| ≤ 1 := by
  rw [abs_le] at ha ⊢; constructor <;> linarith [ha.1, ha.2]

theorem k8 : |modeK / 8| ≤ 1 := lamp_eighth (modeK_abs.trans (by norm_num))
theorem e8 : |(1 / 8 : ℝ)| ≤ 1 := by norm_num [abs_le]
theorem k8u (t : ℝ) : |modeK * ((1 - Real.cos t) / 8)| ≤ 1 := prod_le_one modeK_abs (lamp_eighth (one_sub_cos t))

theorem lamp_smooth (g : Grid ℝ) (τ : ℝ) : lamp.Smooth (fun _ _ => True) g τ 1 := by
  have c : ∀ u, |Real.cos u| ≤ 1 := Real.abs_cos_le_one
  have s : ∀ u, |Real.sin u| ≤ 1 := Real.abs_sin_le_one
  have K := modeK_abs
  have one : |(1 : ℝ)| ≤ 1 := by simp
  have n : ∀ {a : ℝ}, |a| ≤ 1 → |-a| ≤ 1 := fun h => by rw [abs_neg]; exact h
  refine ⟨fun x y _ _ => ?_, fun x y _ _ => ?_, fun x y _ _ => ?_, fun t y a b _ _ _ => ?_, fun t y a b _ _ _ => ?_, fun t x a b _ _ _ => ?_, fun t x a b _ _ _ => ?_⟩
  · exact tame_of_eq (tame_sin (prod_le_one (prod_le_one e8 (c (modeK * (x - 1 / 2)))) (c (modeK * (y - 1 / 2)))) one 0 0 τ) (fun t => rfl)
      fun t => by simp only [lamp]; ring
  · exact tame_of_eq (tame_shift (modeK / 8 * Real.cos (modeK * (x - 1 / 2)) * Real.sin (modeK * (y - 1 / 2)))
      (tame_cos (n (prod_le_one (prod_le_one k8 (c (modeK * (x - 1 / 2)))) (s (modeK * (y - 1 / 2))))) one 0 0 τ)) (fun t => by simp only [lamp]; ring)
      fun t => by simp only [lamp]; ring
  · exact tame_of_eq (tame_shift (-(modeK / 8) * Real.sin (modeK * (x - 1 / 2)) * Real.cos (modeK * (y - 1 / 2)))
      (tame_cos (n (prod_le_one (prod_le_one (n k8) (s (modeK * (x - 1 / 2)))) (c (modeK * (y - 1 / 2))))) one 0 0 τ)) (fun t => by simp only [lamp]; ring)
      fun t => by simp only [lamp]; ring
  · exact tame_of_eq (tame_cos (prod_le_one (prod_le_one e8 (c (modeK * (y - 1 / 2)))) (s (1 * (t - 0)))) K (1 / 2) a b) (fun x => by simp only [lamp]; ring)
      fun x => by simp only [lamp]; ring
  · exact tame_of_eq (tame_sin (prod_le_one (n (k8u (1 * (t - 0)))) (c (modeK * (y - 1 / 2)))) K (1 / 2) a b) (fun x => by simp only [lamp]; ring)
      fun x => by simp only [lamp]; ring
  · exact tame_of_eq (tame_cos (prod_le_one (prod_le_one e8 (c (modeK * (x - 1 / 2)))) (s (1 * (t - 0)))) K (1 / 2) a b) (fun y => by simp only [lamp]; ring)
      fun y => by simp only [lamp]; ring
  · exact tame_of_eq (tame_sin (prod_le_one (k8u (1 * (t - 0))) (c (modeK * (x - 1 / 2)))) K (1 / 2) a b) (fun y => by simp only [lamp]; ring)
      fun y => by simp only [lamp]; ring

theorem lamp_steady (g : Grid ℝ) (τ : ℝ) : lamp.Steady g τ 1 := by
  have c : ∀ u, |Real.cos u| ≤ 1 := Real.abs_cos_le_one
  have s : ∀ u, |Real.sin u| ≤ 1 := Real.abs_sin_le_one
  have K := modeK_abs
  have one : |(1 : ℝ)| ≤ 1 := by simp
  have n : ∀ {a : ℝ}, |a| ≤ 1 → |-a| ≤ 1 := fun h => by rw [abs_neg]; exact h
  refine ⟨fun t x y _ _ _ => prod_le_one (prod_le_one (prod_le_one e8 (c _)) (c _)) (s _), fun t t' x y _ h _ _ => ?_, fun t t' x y _ h _ _ => ?_, fun t t' x y _ h _ _ => ?_,
    fun t x x' y _ _ h _ _ => ?_, fun t x x' y _ _ h _ _ => ?_, fun t x y y' _ _ h _ _ => ?_, fun t x y y' _ _ h _ _ => ?_⟩
  · exact lip_sin (prod_le_one (prod_le_one e8 (c (modeK * (x - 1 / 2)))) (c (modeK * (y - 1 / 2)))) one 0 h
  · exact (le_of_eq (congrArg _ (by simp only [lamp]; ring))).trans (lip_cos (n (prod_le_one (prod_le_one k8 (c (modeK * (x - 1 / 2)))) (s (modeK * (y - 1 / 2))))) one 0 h)
  · exact (le_of_eq (congrArg _ (by simp only [lamp]; ring))).trans (lip_cos (n (prod_le_one (prod_le_one (n k8) (s (modeK * (x - 1 / 2)))) (c (modeK * (y - 1 / 2))))) one 0 h)
  · exact (le_of_eq (congrArg _ (by simp only [lamp]; ring))).trans (lip_cos (prod_le_one (prod_le_one e8 (c (modeK * (y - 1 / 2)))) (s (1 * (t - 0)))) K (1 / 2) h)
  · exact (le_of_eq (congrArg _ (by simp only [lamp]; ring))).trans (lip_sin (prod_le_one (n (k8u (1 * (t - 0)))) (c (modeK * (y - 1 / 2)))) K (1 / 2) h)
  · exact (le_of_eq (congrArg _ (by simp only [lamp]; ring))).trans (lip_cos (prod_le_one (prod_le_one e8 (c (modeK * (x - 1 / 2)))) (s (1 * (t - 0)))) K (1 / 2) h)
  · exact (le_of_eq (congrArg _ (by simp only [lamp]; ring))).trans (lip_sin (prod_le_one (k8u (1 * (t - 0))) (c (modeK * (x - 1 / 2)))) K (1 / 2) h)

theorem lamp_driven (g : Grid ℝ) (τ : ℝ) : lamp.Driven (fun _ _ => True) discEps discSig lampJ g τ := by
  refine ⟨fun t x y _ _ _ _ => ?_, fun t x y _ _ _ _ => ?_, fun t x y _ _ _ _ => ?_⟩
  · simp only [lamp, lampJ, one_mul, sub_zero]; ring
  · simp only [lamp]; ring
  · simp only [lamp]; ring

theorem lamp_walls (τ : ℝ) : lamp.Walls gOpen τ := by
  have e : modeK * (19 - 1 / 2) = Real.pi / 2 := by unfold modeK; ring
  refine ⟨fun t y _ _ _ _ => ?_, fun t x _ _ _ _ => ?_, fun t y _ _ _ _ => ?_, fun t x _ _ _ _ => ?_⟩
  · simp [lamp, gOpen_dx]
  · simp [lamp, gOpen_dx]
  · rw [gOpen_Lx]; simp only [lamp]; rw [e, Real.cos_pi_div_two]; ring
  · rw [gOpen_Ly]; simp only [lamp]; rw [e, Real.cos_pi_div_two]; ring

theorem lamp_rest (g : Grid ℝ) : lamp.AtRest g := fun x y _ => by simp [lamp]

theorem lampJ_at_most (g : Grid ℝ) (τ : ℝ) : CurrentAtMost lampJ g τ 1 := by
  intro t x y _ _ _
  unfold lampJ
  refine prod_le_one (by rw [abs_neg]; exact prod_le_one (Real.abs_cos_le_one _) (Real.abs_cos_le_one _)) ?_
  have k0 : 0 ≤ modeK ^ 2 := sq_nonneg _
  have k1 : modeK ^ 2 ≤ 1 / 25 := by nlinarith [modeK_pos, modeK_le]
  have c1 := Real.neg_one_le_cos t
  have c2 := Real.cos_le_one t
  have s1 := Real.neg_one_le_sin t
  have s2 := Real.sin_le_one t
  have p : 0 ≤ modeK ^ 2 * (1 - Real.cos t) := mul_nonneg k0 (by linarith)
  have q : modeK ^ 2 * (1 - Real.cos t) ≤ 1 / 25 * 2 := mul_le_mul k1 (by linarith) (by linarith) (by norm_num)
  rcases discEps_cases x y with ⟨e1, e2⟩ | ⟨e1, e2⟩ <;> rw [e1, e2, abs_le] <;> constructor <;> linarith

theorem lampJ_changes (g : Grid ℝ) (τ : ℝ) (t t' x y : ℝ) (_ : 0 ≤ t) (h : t ≤ t') (_ : t' ≤ τ) (_ : InDomain g x y) : |lampJ t' x y - lampJ t x y| ≤ 1 * (t' - t) := by
  have k0 : 0 ≤ modeK ^ 2 := sq_nonneg _
  have k1 : modeK ^ 2 ≤ 1 / 25 := by nlinarith [modeK_pos, modeK_le]
  have dc := Real.abs_cos_sub_cos_le t' t
  have ds := Real.abs_sin_sub_sin_le t' t
  rw [abs_of_nonneg (sub_nonneg.mpr h)] at dc ds
  unfold lampJ
  rw [← mul_sub, abs_mul, abs_neg]
  refine mul_le_mul (prod_le_one (Real.abs_cos_le_one _) (Real.abs_cos_le_one _)) ?_ (abs_nonneg _) zero_le_one
  have e : ∀ a b : ℝ, modeK ^ 2 / 4 * (1 - Real.cos t') + a / 8 * Real.cos t' + b / 8 * Real.sin t' -
      (modeK ^ 2 / 4 * (1 - Real.cos t) + a / 8 * Real.cos t + b / 8 * Real.sin t) =
      (a / 8 - modeK ^ 2 / 4) * (Real.cos t' - Real.cos t) + b / 8 * (Real.sin t' - Real.sin t) := fun a b => by ring
  rw [e]
  refine (abs_add_le _ _).trans ?_
  rw [abs_mul, abs_mul]
  have h0 : 0 ≤ t' - t := sub_nonneg.mpr h
  have b1 : |discEps x y / 8 - modeK ^ 2 / 4| ≤ 1 / 2 := by
    rcases discEps_cases x y with ⟨e1, e2⟩ | ⟨e1, e2⟩ <;> rw [e1, abs_le] <;> constructor <;> linarith
  have b2 : |discSig x y / 8| ≤ 1 / 2 := by
    rcases discEps_cases x y with ⟨e1, e2⟩ | ⟨e1, e2⟩ <;> rw [e2, abs_le] <;> constructor <;> norm_num
  have m1 := mul_le_mul b1 dc (abs_nonneg _) (by norm_num : (0 : ℝ) ≤ 1 / 2)
  have m2 := mul_le_mul b2 ds (abs_nonneg _) (by norm_num : (0 : ℝ) ≤ 1 / 2)
  linarith

/-- The disc. -/
noncomputable def lampDisc : Object ℝ := disc ⟨"m", .simple ⟨3, 1, 1⟩⟩ 10 10

theorem lampDisc_clear : ∀ o ∈ [lampDisc], ClearOfUnguardedEdges gOpen o := by
  intro o ho p hin
  rw [List.mem_singleton.mp ho, lampDisc, disc_inside] at hin
  rw [gOpen_Lx]
  constructor <;> nlinarith [sq_nonneg (p.x - 10), sq_nonneg (p.y - 10)]

theorem lampDisc_medium : MediumOf [lampDisc] discEps discSig := by
  constructor
  · rintro p o m ⟨b, a, e, h1, -⟩ hk
    have : o = lampDisc := List.mem_singleton.mp (by rw [e]; simp)
    subst this
    rw [lampDisc, disc_inside] at h1
    cases hk
    unfold discEps discSig
    rw [if_pos h1, if_pos h1]
    exact ⟨rfl, rfl⟩
  · intro p hp
    have := hp _ (List.mem_singleton_self _)
    rw [← Bool.not_eq_true, lampDisc, disc_inside] at this
    unfold discEps discSig
    rw [if_neg this, if_neg this]
    exact ⟨rfl, rfl⟩

/-- A non-trivial case of `C84_radiates`, `C84_behind` and `C84_signals`: sources at all nodes of a closed domain with a conducting dielectric disc, a current that
jumps at the edge of the disc, and a field that is not zero after the start. -/
example (n : ℕ) : (∀ o ∈ [lampDisc], BoxSound o) ∧ (∀ o ∈ [lampDisc], ClearOfUnguardedEdges gOpen o) ∧ (∀ o ∈ [lampDisc], PassiveObject o) ∧ AtMost 3 [lampDisc] ∧
    ConductAtMost 1 [lampDisc] ∧ MediumOf [lampDisc] discEps discSig ∧ lamp.Smooth (fun _ _ => True) gOpen (n + 1) 1 ∧ lamp.Steady gOpen (n + 1) 1 ∧
    lamp.Driven (fun _ _ => True) discEps discSig lampJ gOpen (n + 1) ∧ CurrentAtMost lampJ gOpen (n + 1) 1 ∧ lamp.Walls gOpen (n + 1) ∧ lamp.AtRest gOpen ∧
    (∀ t t' x y : ℝ, 0 ≤ t → t ≤ t' → t' ≤ n + 1 → InDomain gOpen x y → |lampJ t' x y - lampJ t x y| ≤ 1 * (t' - t)) ∧
    ((n : ℝ) + 1 / 2) * gOpen.dt ≤ n + 1 ∧ (∀ s ∈ radiators gOpen discEps discSig lampJ 0, Fits gOpen s) ∧
    Spec.Carries gOpen (radiators gOpen discEps discSig lampJ (- (gOpen.dt / 2))) discEps discSig lampJ (n + 1) 0 ∧ lampJ 0 (1 / 2) (1 / 2) = - (1 / 8) ∧
    lamp.E (Real.pi / 2) (1 / 2) (1 / 2) = 1 / 8 := by
  have hl : Lawful gOpen := gOpen_lawful
  have nn := Nat.cast_nonneg (α := ℝ) n
  have hd : gOpen.dt = 1 / 2 := by rw [hl.dt, gOpen_dx]
  refine ⟨?_, lampDisc_clear, ?_, ⟨by norm_num, ?_⟩, ⟨by norm_num, ?_⟩, lampDisc_medium, lamp_smooth _ _, lamp_steady _ _, lamp_driven _ _, lampJ_at_most _ _, lamp_walls _,
    lamp_rest _, fun t t' x y a b c d => lampJ_changes gOpen (n + 1) t t' x y a b c d, by rw [hd]; linarith, radiators_fit hl discEps discSig lampJ 0, ?_, ?_, ?_⟩
  · intro o ho
    rw [List.mem_singleton.mp ho]
    exact disc_sound _ _ _
  · intro o ho
    rw [List.mem_singleton.mp ho]
    exact ⟨⟨3, 1, 1⟩, rfl, by norm_num, by norm_num⟩
  · intro o ho m hm
    rw [List.mem_singleton.mp ho] at hm
    cases hm
    exact le_rfl
  · intro o ho m hm
    rw [List.mem_singleton.mp ho] at hm
    cases hm
    norm_num
  · refine radiators_carry hl lampJ (fun i j _ => ?_) fun m i j _ _ => ?_
    · rcases discEps_cases (i * gOpen.dx) (j * gOpen.dx) with ⟨e1, e2⟩ | ⟨e1, e2⟩ <;> rw [e1, e2] <;> norm_num
    · rw [show ((m : ℝ) + 1) * gOpen.dt + - (gOpen.dt / 2) = (m + 1 / 2) * gOpen.dt by ring, sub_self, abs_zero]
  · have : discEps (1 / 2) (1 / 2) = 1 := by unfold discEps; rw [if_neg (by norm_num)]
    unfold lampJ
    rw [this]
    simp
  · simp [lamp]

end Qbox.Props
