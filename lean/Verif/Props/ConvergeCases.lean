import Verif.Props.ConvergeProps
import Mathlib.Analysis.SpecialFunctions.Trigonometric.Bounds

/-! # Non-trivial cases of the convergence theorems (C71) -/

namespace Qbox.Props
open Qbox Scalar Spec

theorem prod_le_one {a b : ℝ} (ha : |a| ≤ 1) (hb : |b| ≤ 1) : |a * b| ≤ 1 := by
  rw [abs_mul]
  exact mul_le_one₀ ha (abs_nonneg _) hb

theorem hasDerivAt_line (k b s : ℝ) : HasDerivAt (fun s => k * (s - b)) k s := by
  have := ((hasDerivAt_id s).sub_const b).const_mul k
  simpa using this

theorem hasDerivAt_cos_line (A k b s : ℝ) : HasDerivAt (fun s => A * Real.cos (k * (s - b))) (-(A * k) * Real.sin (k * (s - b))) s := by
  have := ((hasDerivAt_line k b s).cos).const_mul A
  rwa [show A * (-Real.sin (k * (s - b)) * k) = -(A * k) * Real.sin (k * (s - b)) by ring] at this

theorem hasDerivAt_sin_line (A k b s : ℝ) : HasDerivAt (fun s => A * Real.sin (k * (s - b))) ((A * k) * Real.cos (k * (s - b))) s := by
  have := ((hasDerivAt_line k b s).sin).const_mul A
  rwa [show A * (Real.cos (k * (s - b)) * k) = (A * k) * Real.cos (k * (s - b)) by ring] at this

theorem tame_cos {A k : ℝ} (hA : |A| ≤ 1) (hk : |k| ≤ 1) (b p q : ℝ) :
    Tame (fun s => A * Real.cos (k * (s - b))) (fun s => -(A * k) * Real.sin (k * (s - b))) p q 1 := by
  refine ⟨fun s => (-(A * k) * k) * Real.cos (k * (s - b)), fun s => -(-(A * k) * k * k) * Real.sin (k * (s - b)), fun s _ _ =>
    ⟨hasDerivAt_cos_line .., hasDerivAt_sin_line .., hasDerivAt_cos_line .., ?_, ?_⟩⟩
  · refine prod_le_one (prod_le_one ?_ hk) (Real.abs_cos_le_one _)
    rw [abs_neg]; exact prod_le_one hA hk
  · refine prod_le_one ?_ (Real.abs_sin_le_one _)
    rw [abs_neg]
    refine prod_le_one (prod_le_one ?_ hk) hk
    rw [abs_neg]; exact prod_le_one hA hk

theorem tame_sin {A k : ℝ} (hA : |A| ≤ 1) (hk : |k| ≤ 1) (b p q : ℝ) :
    Tame (fun s => A * Real.sin (k * (s - b))) (fun s => (A * k) * Real.cos (k * (s - b))) p q 1 := by
  refine ⟨fun s => (-(A * k * k)) * Real.sin (k * (s - b)), fun s => (-(A * k * k) * k) * Real.cos (k * (s - b)), fun s _ _ =>
    ⟨hasDerivAt_sin_line .., hasDerivAt_cos_line .., hasDerivAt_sin_line .., ?_, ?_⟩⟩
  · refine prod_le_one ?_ (Real.abs_sin_le_one _)
    rw [abs_neg]; exact prod_le_one (prod_le_one hA hk) hk
  · refine prod_le_one (prod_le_one ?_ hk) (Real.abs_cos_le_one _)
    rw [abs_neg]; exact prod_le_one (prod_le_one hA hk) hk

theorem tame_zero (p q : ℝ) : Tame (fun _ => 0) (fun _ => 0) p q 1 :=
  ⟨fun _ => 0, fun _ => 0, fun s _ _ => ⟨hasDerivAt_const s 0, hasDerivAt_const s 0, hasDerivAt_const s 0, by simp, by simp⟩⟩

theorem tame_const (c p q : ℝ) : Tame (fun _ => c) (fun _ => 0) p q 1 :=
  ⟨fun _ => 0, fun _ => 0, fun s _ _ => ⟨hasDerivAt_const s c, hasDerivAt_const s 0, hasDerivAt_const s 0, by simp, by simp⟩⟩

theorem lip_cos {A k : ℝ} (hA : |A| ≤ 1) (hk : |k| ≤ 1) (b : ℝ) {s s' : ℝ} (h : s ≤ s') :
    |A * Real.cos (k * (s' - b)) - A * Real.cos (k * (s - b))| ≤ 1 * (s' - s) := by
  rw [← mul_sub, abs_mul]
  refine mul_le_mul hA ((Real.abs_cos_sub_cos_le _ _).trans ?_) (abs_nonneg _) zero_le_one
  rw [show k * (s' - b) - k * (s - b) = k * (s' - s) by ring, abs_mul, abs_of_nonneg (sub_nonneg.mpr h)]
  exact mul_le_of_le_one_left (sub_nonneg.mpr h) hk

theorem lip_sin {A k : ℝ} (hA : |A| ≤ 1) (hk : |k| ≤ 1) (b : ℝ) {s s' : ℝ} (h : s ≤ s') :
    |A * Real.sin (k * (s' - b)) - A * Real.sin (k * (s - b))| ≤ 1 * (s' - s) := by
  rw [← mul_sub, abs_mul]
  refine mul_le_mul hA ((Real.abs_sin_sub_sin_le _ _).trans ?_) (abs_nonneg _) zero_le_one
  rw [show k * (s' - b) - k * (s - b) = k * (s' - s) by ring, abs_mul, abs_of_nonneg (sub_nonneg.mpr h)]
  exact mul_le_of_le_one_left (sub_nonneg.mpr h) hk

/-! ## A standing wave in vacuum -/

/-- The slowest oscillation of the domain of the example: wave number `k` in both directions, angular frequency `√2 k`. -/
noncomputable def modeK : ℝ := Real.pi / 37
noncomputable def modeW : ℝ := Real.sqrt 2 * modeK

noncomputable def mode : Wave where
  E t x y := Real.cos (modeK * (x - 1 / 2)) * Real.cos (modeK * (y - 1 / 2)) * Real.cos (modeW * (t - 0))
  X t x y := modeK / modeW * Real.cos (modeK * (x - 1 / 2)) * Real.sin (modeK * (y - 1 / 2)) * Real.sin (modeW * (t - 0))
  Y t x y := - (modeK / modeW) * Real.sin (modeK * (x - 1 / 2)) * Real.cos (modeK * (y - 1 / 2)) * Real.sin (modeW * (t - 0))
  Et t x y := - (Real.cos (modeK * (x - 1 / 2)) * Real.cos (modeK * (y - 1 / 2)) * modeW) * Real.sin (modeW * (t - 0))
  Ex t x y := - (Real.cos (modeK * (y - 1 / 2)) * Real.cos (modeW * (t - 0)) * modeK) * Real.sin (modeK * (x - 1 / 2))
  Ey t x y := - (Real.cos (modeK * (x - 1 / 2)) * Real.cos (modeW * (t - 0)) * modeK) * Real.sin (modeK * (y - 1 / 2))
  Xt t x y := modeK / modeW * Real.cos (modeK * (x - 1 / 2)) * Real.sin (modeK * (y - 1 / 2)) * modeW * Real.cos (modeW * (t - 0))
  Xy t x y := modeK / modeW * Real.cos (modeK * (x - 1 / 2)) * Real.sin (modeW * (t - 0)) * modeK * Real.cos (modeK * (y - 1 / 2))
  Yt t x y := - (modeK / modeW) * Real.sin (modeK * (x - 1 / 2)) * Real.cos (modeK * (y - 1 / 2)) * modeW * Real.cos (modeW * (t - 0))
  Yx t x y := - (modeK / modeW) * Real.cos (modeK * (y - 1 / 2)) * Real.sin (modeW * (t - 0)) * modeK * Real.cos (modeK * (x - 1 / 2))

theorem modeK_pos : 0 < modeK := by unfold modeK; positivity
theorem modeW_pos : 0 < modeW := mul_pos (by positivity) modeK_pos
theorem modeW_sq : modeW * modeW = 2 * (modeK * modeK) := by
  unfold modeW
  rw [show Real.sqrt 2 * modeK * (Real.sqrt 2 * modeK) = (Real.sqrt 2 * Real.sqrt 2) * (modeK * modeK) by ring, Real.mul_self_sqrt (by norm_num)]
theorem modeK_le : modeK ≤ 1 / 5 := by
  unfold modeK
  have := Real.pi_le_four
  linarith
theorem modeW_le : modeW ≤ 1 := by
  have h := modeW_sq
  have := modeK_le
  have := modeK_pos
  have := modeW_pos
  by_contra hc
  push Not at hc
  nlinarith
theorem modeK_abs : |modeK| ≤ 1 := by rw [abs_of_pos modeK_pos]; linarith [modeK_le]
theorem modeW_abs : |modeW| ≤ 1 := by rw [abs_of_pos modeW_pos]; exact modeW_le
theorem ratio_abs : |modeK / modeW| ≤ 1 := by
  rw [abs_of_pos (div_pos modeK_pos modeW_pos), div_le_one modeW_pos]
  have h := modeW_sq
  have := modeK_pos
  have := modeW_pos
  by_contra hc
  push Not at hc
  nlinarith
theorem ratio_abs' : |-(modeK / modeW)| ≤ 1 := by rw [abs_neg]; exact ratio_abs

theorem mode_smooth (g : Grid ℝ) (τ : ℝ) : mode.Smooth (fun _ _ => True) g τ 1 := by
  have c : ∀ u, |Real.cos u| ≤ 1 := Real.abs_cos_le_one
  have s : ∀ u, |Real.sin u| ≤ 1 := Real.abs_sin_le_one
  have K := modeK_abs
  have W := modeW_abs
  have R := ratio_abs
  have R' := ratio_abs'
  refine ⟨fun x y _ _ => tame_cos (prod_le_one (c _) (c _)) W 0 _ _, fun x y _ _ => tame_sin (prod_le_one (prod_le_one R (c _)) (s _)) W 0 _ _,
    fun x y _ _ => tame_sin (prod_le_one (prod_le_one R' (s _)) (c _)) W 0 _ _, fun t y a b _ _ _ => ?_, fun t y a b _ _ _ => ?_, fun t x a b _ _ _ => ?_,
    fun t x a b _ _ _ => ?_⟩
  · have := tame_cos (prod_le_one (c (modeK * (y - 1 / 2))) (c (modeW * (t - 0)))) K (1 / 2) a b
    refine cast (congrArg (fun f => Tame f _ a b 1) (funext fun x => ?_)) this
    show _ = Real.cos _ * Real.cos _ * Real.cos _
    ring
  · have := tame_sin (prod_le_one (prod_le_one R' (c (modeK * (y - 1 / 2)))) (s (modeW * (t - 0)))) K (1 / 2) a b
    refine cast (congrArg (fun f => Tame f _ a b 1) (funext fun x => ?_)) this
    show _ = _ * Real.sin _ * Real.cos _ * Real.sin _
    ring
  · have := tame_cos (prod_le_one (c (modeK * (x - 1 / 2))) (c (modeW * (t - 0)))) K (1 / 2) a b
    refine cast (congrArg (fun f => Tame f _ a b 1) (funext fun y => ?_)) this
    show _ = Real.cos _ * Real.cos _ * Real.cos _
    ring
  · have := tame_sin (prod_le_one (prod_le_one R (c (modeK * (x - 1 / 2)))) (s (modeW * (t - 0)))) K (1 / 2) a b
    refine cast (congrArg (fun f => Tame f _ a b 1) (funext fun y => ?_)) this
    show _ = _ * Real.cos _ * Real.sin _ * Real.sin _
    ring

theorem mode_steady (g : Grid ℝ) (τ : ℝ) : mode.Steady g τ 1 := by
  have c : ∀ u, |Real.cos u| ≤ 1 := Real.abs_cos_le_one
  have s : ∀ u, |Real.sin u| ≤ 1 := Real.abs_sin_le_one
  have K := modeK_abs
  have W := modeW_abs
  have R := ratio_abs
  have R' := ratio_abs'
  refine ⟨fun t x y _ _ _ => prod_le_one (prod_le_one (c _) (c _)) (c _), fun t t' x y _ h _ _ => lip_cos (prod_le_one (c _) (c _)) W 0 h,
    fun t t' x y _ h _ _ => lip_sin (prod_le_one (prod_le_one R (c _)) (s _)) W 0 h, fun t t' x y _ h _ _ => lip_sin (prod_le_one (prod_le_one R' (s _)) (c _)) W 0 h,
    fun t x x' y _ _ h _ _ => ?_, fun t x x' y _ _ h _ _ => ?_, fun t x y y' _ _ h _ _ => ?_, fun t x y y' _ _ h _ _ => ?_⟩
  · have := lip_cos (prod_le_one (c (modeK * (y - 1 / 2))) (c (modeW * (t - 0)))) K (1 / 2) h
    refine (le_of_eq (congrArg _ ?_)).trans this
    show Real.cos _ * Real.cos _ * Real.cos _ - Real.cos _ * Real.cos _ * Real.cos _ = _
    ring
  · have := lip_sin (prod_le_one (prod_le_one R' (c (modeK * (y - 1 / 2)))) (s (modeW * (t - 0)))) K (1 / 2) h
    refine (le_of_eq (congrArg _ ?_)).trans this
    show _ * Real.sin _ * Real.cos _ * Real.sin _ - _ * Real.sin _ * Real.cos _ * Real.sin _ = _
    ring
  · have := lip_cos (prod_le_one (c (modeK * (x - 1 / 2))) (c (modeW * (t - 0)))) K (1 / 2) h
    refine (le_of_eq (congrArg _ ?_)).trans this
    show Real.cos _ * Real.cos _ * Real.cos _ - Real.cos _ * Real.cos _ * Real.cos _ = _
    ring
  · have := lip_sin (prod_le_one (prod_le_one R (c (modeK * (x - 1 / 2)))) (s (modeW * (t - 0)))) K (1 / 2) h
    refine (le_of_eq (congrArg _ ?_)).trans this
    show _ * Real.cos _ * Real.sin _ * Real.sin _ - _ * Real.cos _ * Real.sin _ * Real.sin _ = _
    ring

theorem mode_maxwell (g : Grid ℝ) (τ : ℝ) : mode.Maxwell (fun _ _ => True) (fun _ _ => 1) (fun _ _ => 0) g τ := by
  have W := modeW_pos.ne'
  have h := modeW_sq
  refine ⟨fun t x y _ _ _ _ => ?_, fun t x y _ _ _ _ => ?_, fun t x y _ _ _ _ => ?_⟩
  · simp only [mode]
    set a := Real.cos (modeK * (x - 1 / 2))
    set b := Real.cos (modeK * (y - 1 / 2))
    set c := Real.sin (modeW * (t - 0))
    field_simp
    linear_combination (-a * b * c) * h
  · simp only [mode]
    field_simp
  · simp only [mode]
    field_simp

theorem gOpen_dx : gOpen.dx = 1 := by simp [gOpen, Grid.make]
theorem gOpen_Lx : gOpen.Lx = 19 := by simp [gOpen, Grid.make]
theorem gOpen_Ly : gOpen.Ly = 19 := by simp [gOpen, Grid.make]

theorem mode_walls (τ : ℝ) : mode.Walls gOpen τ := by
  have e : modeK * (19 - 1 / 2) = Real.pi / 2 := by unfold modeK; ring
  refine ⟨fun t y _ _ _ _ => ?_, fun t x _ _ _ _ => ?_, fun t y _ _ _ _ => ?_, fun t x _ _ _ _ => ?_⟩
  · simp [mode, gOpen_dx]
  · simp [mode, gOpen_dx]
  · rw [gOpen_Lx]; simp only [mode]; rw [e, Real.cos_pi_div_two]; ring
  · rw [gOpen_Ly]; simp only [mode]; rw [e, Real.cos_pi_div_two]; ring

/-- A non-trivial case of `C71_converges`: a standing wave in an empty domain, no field at the start but the electric one, for any number of updates. -/
example : mode.Smooth (fun _ _ => True) gOpen 1000000 1 ∧ mode.Steady gOpen 1000000 1 ∧ mode.Maxwell (fun _ _ => True) (fun _ _ => 1) (fun _ _ => 0) gOpen 1000000 ∧
    mode.Walls gOpen 1000000 ∧ MediumOf [] (fun _ _ => 1) (fun _ _ => 0) ∧ AtMost 1 [] ∧ ConductAtMost 0 [] ∧ FewCrossings (fun _ _ => True) gOpen 0 ∧
    mode.E 0 (1 / 2) (1 / 2) = 1 := by
  refine ⟨mode_smooth _ _, mode_steady _ _, mode_maxwell _ _, mode_walls _, ⟨?_, fun _ _ => ⟨rfl, rfl⟩⟩, ⟨le_rfl, by simp⟩, ⟨le_rfl, by simp⟩,
    ⟨fun j => ⟨[], by simp, by simp⟩, fun j => ⟨[], by simp, by simp⟩⟩, by simp [mode]⟩
  rintro p o m ⟨b, a, e, -⟩
  simp at e

/-! ## A conducting disc in a static magnetic field -/

noncomputable def still : Wave where
  E _ _ _ := 0
  X _ x y := Real.cos (modeK * (x - 1 / 2)) * Real.sin (modeK * (y - 1 / 2))
  Y _ x y := Real.cos (modeK * (y - 1 / 2)) * Real.sin (modeK * (x - 1 / 2))
  Et _ _ _ := 0
  Ex _ _ _ := 0
  Ey _ _ _ := 0
  Xt _ _ _ := 0
  Xy _ x y := Real.cos (modeK * (x - 1 / 2)) * modeK * Real.cos (modeK * (y - 1 / 2))
  Yt _ _ _ := 0
  Yx _ x y := Real.cos (modeK * (y - 1 / 2)) * modeK * Real.cos (modeK * (x - 1 / 2))

/-- Not on the circle of radius two around the node (10, 10). -/
def OffCircle (x y : ℝ) : Prop := (x - 10) ^ 2 + (y - 10) ^ 2 ≠ 4

theorem offCircle_few : FewCrossings OffCircle gOpen 2 := by
  have key : ∀ u z : ℝ, (z - 10) ^ 2 + (u - 10) ^ 2 = 4 → z ∈ [10 + Real.sqrt (4 - (u - 10) ^ 2), 10 - Real.sqrt (4 - (u - 10) ^ 2)] := by
    intro u z h
    have : (z - 10) ^ 2 = 4 - (u - 10) ^ 2 := by linarith
    rw [← this, Real.sqrt_sq_eq_abs]
    rcases abs_cases (z - 10) with ⟨e, -⟩ | ⟨e, -⟩ <;> rw [e] <;> simp
  refine ⟨fun j => ⟨_, by simp, fun x h => key _ x (not_not.mp h)⟩, fun i => ⟨_, by simp, fun y h => key (i * gOpen.dx) y ?_⟩⟩
  have := not_not.mp h
  linarith

/-- A non-trivial case of `C71_converges` and `C71_interface` with an object: a conducting dielectric disc, whose edge every line of nodes crosses at most
twice. -/
example (n : ℕ) : ∃ (objs : List (Object ℝ)) (eps sig : ℝ → ℝ → ℝ), objs ≠ [] ∧ (∀ o ∈ objs, BoxSound o) ∧ (∀ o ∈ objs, ClearOfUnguardedEdges gOpen o) ∧
    (∀ o ∈ objs, PassiveObject o) ∧ AtMost 3 objs ∧ ConductAtMost 1 objs ∧ MediumOf objs eps sig ∧ still.Smooth OffCircle gOpen (n + 1) 1 ∧
    still.Steady gOpen (n + 1) 1 ∧ still.Maxwell OffCircle eps sig gOpen (n + 1) ∧ still.Walls gOpen (n + 1) ∧ eps 10 10 = 3 ∧ eps 5 5 = 1 ∧
    still.X 0 (1 / 2) 19 = 1 ∧ FewCrossings OffCircle gOpen 2 := by
  classical
  have c : ∀ u, |Real.cos u| ≤ 1 := Real.abs_cos_le_one
  have K := modeK_abs
  refine ⟨[disc ⟨"m", .simple ⟨3, 1, 1⟩⟩ 10 10], fun x y => if (x - 10) ^ 2 + (y - 10) ^ 2 < 4 then 3 else 1, fun x y => if (x - 10) ^ 2 + (y - 10) ^ 2 < 4 then 1 else 0,
    by simp, ?_, ?_, ?_, ⟨by norm_num, ?_⟩, ⟨by norm_num, ?_⟩, ⟨?_, ?_⟩, ?_, ?_, ?_, ?_, ?_, ?_, ?_, offCircle_few⟩
  · intro o ho
    rw [List.mem_singleton.mp ho]
    exact disc_sound _ _ _
  · intro o ho p hin
    rw [List.mem_singleton.mp ho, disc_inside] at hin
    rw [gOpen_Lx]
    constructor <;> nlinarith [sq_nonneg (p.x - 10), sq_nonneg (p.y - 10)]
  · intro o ho
    rw [List.mem_singleton.mp ho]
    exact ⟨⟨3, 1, 1⟩, rfl, by norm_num, by norm_num⟩
  · intro o ho m hm
    rw [List.mem_singleton.mp ho] at hm
    cases hm
    exact le_rfl
  · intro o ho m hm
    rw [List.mem_singleton.mp ho] at hm
    cases hm
    norm_num
  · rintro p o m ⟨b, a, e, h1, -⟩ hk
    have : o = disc ⟨"m", .simple ⟨3, 1, 1⟩⟩ 10 10 := List.mem_singleton.mp (by rw [e]; simp)
    subst this
    rw [disc_inside] at h1
    cases hk
    rw [if_pos h1, if_pos h1]
    exact ⟨rfl, rfl⟩
  · intro p hp
    have := hp _ (List.mem_singleton_self _)
    rw [← Bool.not_eq_true, disc_inside] at this
    rw [if_neg this, if_neg this]
    exact ⟨rfl, rfl⟩
  · exact ⟨fun _ _ _ _ => tame_const 0 _ _, fun _ _ _ _ => tame_const _ _ _, fun _ _ _ _ => tame_const _ _ _, fun _ _ _ _ _ _ _ => tame_const 0 _ _,
      fun t y a b _ _ _ => tame_sin (c _) K (1 / 2) a b, fun _ _ _ _ _ _ _ => tame_const 0 _ _, fun t x a b _ _ _ => tame_sin (c _) K (1 / 2) a b⟩
  · exact ⟨fun _ _ _ _ _ _ => by simp [still], fun _ _ _ _ _ h _ _ => by simp [still, h], fun _ _ _ _ _ h _ _ => by simp [still, h], fun _ _ _ _ _ h _ _ => by simp [still, h],
      fun _ _ _ _ _ _ h _ _ => by simp [still, h], fun t x x' y _ _ h _ _ => lip_sin (c _) K (1 / 2) h, fun _ _ _ _ _ _ h _ _ => by simp [still, h],
      fun t x y y' _ _ h _ _ => lip_sin (c _) K (1 / 2) h⟩
  · exact ⟨fun t x y _ _ _ _ => by simp only [still]; ring, fun _ _ _ _ _ _ _ => by simp [still], fun _ _ _ _ _ _ _ => by simp [still]⟩
  · exact ⟨fun _ _ _ _ _ _ => by simp [still, gOpen_dx], fun _ _ _ _ _ _ => by simp [still, gOpen_dx], fun _ _ _ _ _ _ => rfl, fun _ _ _ _ _ _ => rfl⟩
  · norm_num
  · norm_num
  · simp only [still]
    rw [show modeK * (19 - 1 / 2) = Real.pi / 2 by unfold modeK; ring, Real.sin_pi_div_two]
    simp

end Qbox.Props
