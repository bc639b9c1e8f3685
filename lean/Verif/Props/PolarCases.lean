import Verif.Props.PolarProps
import Verif.Props.DrivenWaveCases
import Mathlib.Analysis.Real.Pi.Bounds

/-! # Non-trivial cases of the theorems about media with memory (C85) -/

namespace Qbox.Props
open Qbox Scalar Spec

/-- The plasma frequency of the disc, squared. -/
noncomputable def plasmaW : ℝ := 1 - 2 * modeK ^ 2
/-- The magnetic field over time. -/
noncomputable def plasmaH (t : ℝ) : ℝ := - (plasmaW / (16 * modeK)) - modeK / 8 * Real.cos (1 * (t - 0))

/-- An oscillation of a domain with a disc of plasma. -/
noncomputable def plasma : Spec.Wave where
  E t x y := 1 / 8 * Real.cos (modeK * (x - 1 / 2)) * Real.cos (modeK * (y - 1 / 2)) * Real.sin (1 * (t - 0))
  X t x y := Real.cos (modeK * (x - 1 / 2)) * Real.sin (modeK * (y - 1 / 2)) * plasmaH t
  Y t x y := - (Real.sin (modeK * (x - 1 / 2)) * Real.cos (modeK * (y - 1 / 2)) * plasmaH t)
  Et t x y := 1 / 8 * Real.cos (modeK * (x - 1 / 2)) * Real.cos (modeK * (y - 1 / 2)) * Real.cos (1 * (t - 0))
  Ex t x y := - (1 / 8 * modeK) * Real.sin (modeK * (x - 1 / 2)) * Real.cos (modeK * (y - 1 / 2)) * Real.sin (1 * (t - 0))
  Ey t x y := - (1 / 8 * modeK) * Real.cos (modeK * (x - 1 / 2)) * Real.sin (modeK * (y - 1 / 2)) * Real.sin (1 * (t - 0))
  Xt t x y := modeK / 8 * Real.cos (modeK * (x - 1 / 2)) * Real.sin (modeK * (y - 1 / 2)) * Real.sin (1 * (t - 0))
  Xy t x y := modeK * Real.cos (modeK * (x - 1 / 2)) * Real.cos (modeK * (y - 1 / 2)) * plasmaH t
  Yt t x y := - (modeK / 8) * Real.sin (modeK * (x - 1 / 2)) * Real.cos (modeK * (y - 1 / 2)) * Real.sin (1 * (t - 0))
  Yx t x y := - modeK * Real.cos (modeK * (x - 1 / 2)) * Real.cos (modeK * (y - 1 / 2)) * plasmaH t

/-- The current in the disc and outside of it. -/
noncomputable def plasmaJ (t x y : ℝ) : ℝ := plasmaW / 8 * Real.cos (modeK * (x - 1 / 2)) * Real.cos (modeK * (y - 1 / 2)) * (1 - Real.cos (1 * (t - 0)))
noncomputable def plasmaJt (t x y : ℝ) : ℝ := plasmaW / 8 * Real.cos (modeK * (x - 1 / 2)) * Real.cos (modeK * (y - 1 / 2)) * Real.sin (1 * (t - 0))

open Classical in
/-- The part of a function inside the disc. -/
noncomputable def inDisc (f : ℝ → ℝ → ℝ → ℝ) (t x y : ℝ) : ℝ := if (x - 10) ^ 2 + (y - 10) ^ 2 < 4 then f t x y else 0
open Classical in
noncomputable def offDisc (f : ℝ → ℝ → ℝ → ℝ) (t x y : ℝ) : ℝ := if (x - 10) ^ 2 + (y - 10) ^ 2 < 4 then 0 else f t x y
open Classical in
noncomputable def plasmaRes (x y : ℝ) : Response := if (x - 10) ^ 2 + (y - 10) ^ 2 < 4 then .drude 0 (Real.sqrt plasmaW) else .plain

theorem modeK_ge : 3 / 37 ≤ modeK := by
  unfold modeK
  have := Real.pi_gt_three
  linarith

theorem plasmaW_range : 9 / 10 ≤ plasmaW ∧ plasmaW ≤ 1 := by
  unfold plasmaW
  constructor <;> nlinarith [modeK_pos, modeK_le]

theorem plasmaW_eighth : |plasmaW / 8| ≤ 1 / 8 := by
  have := plasmaW_range
  rw [abs_le]
  constructor <;> linarith [this.1, this.2]

theorem plasmaH_le (t : ℝ) : |plasmaH t| ≤ 1 := by
  have h1 := plasmaW_range
  have h2 := modeK_ge
  have h3 := modeK_le
  have h4 := Real.neg_one_le_cos (1 * (t - 0))
  have h5 := Real.cos_le_one (1 * (t - 0))
  have k0 := modeK_pos
  have p : 0 ≤ plasmaW / (16 * modeK) := by have := h1.1; positivity
  have q : plasmaW / (16 * modeK) ≤ 4 / 5 := by
    rw [div_le_iff₀ (by positivity)]
    linarith [h1.2]
  have r1 : modeK / 8 * Real.cos (1 * (t - 0)) ≤ modeK / 8 := mul_le_of_le_one_right (by positivity) h5
  have r2 : - (modeK / 8) ≤ modeK / 8 * Real.cos (1 * (t - 0)) := by nlinarith
  unfold plasmaH
  rw [abs_le]
  constructor <;> linarith

theorem plasma_smooth (g : Grid ℝ) (τ : ℝ) : plasma.Smooth (fun _ _ => True) g τ 1 := by
  have c : ∀ u, |Real.cos u| ≤ 1 := Real.abs_cos_le_one
  have s : ∀ u, |Real.sin u| ≤ 1 := Real.abs_sin_le_one
  have K := modeK_abs
  have one : |(1 : ℝ)| ≤ 1 := by simp
  have n : ∀ {a : ℝ}, |a| ≤ 1 → |-a| ≤ 1 := fun h => by rw [abs_neg]; exact h
  refine ⟨fun x y _ _ => ?_, fun x y _ _ => ?_, fun x y _ _ => ?_, fun t y a b _ _ _ => ?_, fun t y a b _ _ _ => ?_, fun t x a b _ _ _ => ?_, fun t x a b _ _ _ => ?_⟩
  · exact tame_of_eq (tame_sin (prod_le_one (prod_le_one e8 (c (modeK * (x - 1 / 2)))) (c (modeK * (y - 1 / 2)))) one 0 0 τ) (fun t => rfl)
      fun t => by simp only [plasma]; ring
  · exact tame_of_eq (tame_shift (- (plasmaW / (16 * modeK)) * (Real.cos (modeK * (x - 1 / 2)) * Real.sin (modeK * (y - 1 / 2))))
      (tame_cos (n (prod_le_one (prod_le_one k8 (c (modeK * (x - 1 / 2)))) (s (modeK * (y - 1 / 2))))) one 0 0 τ)) (fun t => by simp only [plasma, plasmaH]; ring)
      fun t => by simp only [plasma]; ring
  · exact tame_of_eq (tame_shift (plasmaW / (16 * modeK) * (Real.sin (modeK * (x - 1 / 2)) * Real.cos (modeK * (y - 1 / 2))))
      (tame_cos (prod_le_one (prod_le_one k8 (s (modeK * (x - 1 / 2)))) (c (modeK * (y - 1 / 2)))) one 0 0 τ)) (fun t => by simp only [plasma, plasmaH]; ring)
      fun t => by simp only [plasma]; ring
  · exact tame_of_eq (tame_cos (prod_le_one (prod_le_one e8 (c (modeK * (y - 1 / 2)))) (s (1 * (t - 0)))) K (1 / 2) a b) (fun x => by simp only [plasma]; ring)
      fun x => by simp only [plasma]; ring
  · exact tame_of_eq (tame_sin (prod_le_one (n (plasmaH_le t)) (c (modeK * (y - 1 / 2)))) K (1 / 2) a b) (fun x => by simp only [plasma]; ring)
      fun x => by simp only [plasma]; ring
  · exact tame_of_eq (tame_cos (prod_le_one (prod_le_one e8 (c (modeK * (x - 1 / 2)))) (s (1 * (t - 0)))) K (1 / 2) a b) (fun y => by simp only [plasma]; ring)
      fun y => by simp only [plasma]; ring
  · exact tame_of_eq (tame_sin (prod_le_one (plasmaH_le t) (c (modeK * (x - 1 / 2)))) K (1 / 2) a b) (fun y => by simp only [plasma]; ring)
      fun y => by simp only [plasma]; ring

theorem plasma_steady (g : Grid ℝ) (τ : ℝ) : plasma.Steady g τ 1 := by
  have c : ∀ u, |Real.cos u| ≤ 1 := Real.abs_cos_le_one
  have s : ∀ u, |Real.sin u| ≤ 1 := Real.abs_sin_le_one
  have K := modeK_abs
  have one : |(1 : ℝ)| ≤ 1 := by simp
  have n : ∀ {a : ℝ}, |a| ≤ 1 → |-a| ≤ 1 := fun h => by rw [abs_neg]; exact h
  refine ⟨fun t x y _ _ _ => prod_le_one (prod_le_one (prod_le_one e8 (c _)) (c _)) (s _), fun t t' x y _ h _ _ => ?_, fun t t' x y _ h _ _ => ?_, fun t t' x y _ h _ _ => ?_,
    fun t x x' y _ _ h _ _ => ?_, fun t x x' y _ _ h _ _ => ?_, fun t x y y' _ _ h _ _ => ?_, fun t x y y' _ _ h _ _ => ?_⟩
  · exact lip_sin (prod_le_one (prod_le_one e8 (c (modeK * (x - 1 / 2)))) (c (modeK * (y - 1 / 2)))) one 0 h
  · exact (le_of_eq (congrArg _ (by simp only [plasma, plasmaH]; ring))).trans
      (lip_cos (n (prod_le_one (prod_le_one k8 (c (modeK * (x - 1 / 2)))) (s (modeK * (y - 1 / 2))))) one 0 h)
  · exact (le_of_eq (congrArg _ (by simp only [plasma, plasmaH]; ring))).trans
      (lip_cos (prod_le_one (prod_le_one k8 (s (modeK * (x - 1 / 2)))) (c (modeK * (y - 1 / 2)))) one 0 h)
  · exact (le_of_eq (congrArg _ (by simp only [plasma]; ring))).trans (lip_cos (prod_le_one (prod_le_one e8 (c (modeK * (y - 1 / 2)))) (s (1 * (t - 0)))) K (1 / 2) h)
  · exact (le_of_eq (congrArg _ (by simp only [plasma]; ring))).trans (lip_sin (prod_le_one (n (plasmaH_le t)) (c (modeK * (y - 1 / 2)))) K (1 / 2) h)
  · exact (le_of_eq (congrArg _ (by simp only [plasma]; ring))).trans (lip_cos (prod_le_one (prod_le_one e8 (c (modeK * (x - 1 / 2)))) (s (1 * (t - 0)))) K (1 / 2) h)
  · exact (le_of_eq (congrArg _ (by simp only [plasma]; ring))).trans (lip_sin (prod_le_one (plasmaH_le t) (c (modeK * (x - 1 / 2)))) K (1 / 2) h)

theorem plasma_driven (g : Grid ℝ) (τ : ℝ) :
    plasma.Driven (fun _ _ => True) (fun _ _ => 1) (fun _ _ => 0) (fun t x y => inDisc plasmaJ t x y + offDisc plasmaJ t x y) g τ := by
  have k := modeK_pos.ne'
  refine ⟨fun t x y _ _ _ _ => ?_, fun t x y _ _ _ _ => ?_, fun t x y _ _ _ _ => ?_⟩
  · have e : inDisc plasmaJ t x y + offDisc plasmaJ t x y = plasmaJ t x y := by
      unfold inDisc offDisc
      by_cases h : (x - 10) ^ 2 + (y - 10) ^ 2 < 4
      · rw [if_pos h, if_pos h, add_zero]
      · rw [if_neg h, if_neg h, zero_add]
    show _ + (inDisc plasmaJ t x y + offDisc plasmaJ t x y) = _
    rw [e]
    simp only [plasma, plasmaJ, plasmaH, plasmaW]
    field_simp
    ring
  · simp only [plasma]; ring
  · simp only [plasma]; ring

theorem plasma_walls (τ : ℝ) : plasma.Walls gOpen τ := by
  have e : modeK * (19 - 1 / 2) = Real.pi / 2 := by unfold modeK; ring
  refine ⟨fun t y _ _ _ _ => ?_, fun t x _ _ _ _ => ?_, fun t y _ _ _ _ => ?_, fun t x _ _ _ _ => ?_⟩
  · simp [plasma, gOpen_dx]
  · simp [plasma, gOpen_dx]
  · rw [gOpen_Lx]; simp only [plasma]; rw [e, Real.cos_pi_div_two]; ring
  · rw [gOpen_Ly]; simp only [plasma]; rw [e, Real.cos_pi_div_two]; ring

theorem plasmaJ_le (t x y : ℝ) : |plasmaJ t x y| ≤ 1 := by
  unfold plasmaJ
  have h := prod_le_one (Real.abs_cos_le_one (modeK * (x - 1 / 2))) (Real.abs_cos_le_one (modeK * (y - 1 / 2)))
  have k := plasmaW_eighth
  have o := one_sub_cos (1 * (t - 0))
  rw [show plasmaW / 8 * Real.cos (modeK * (x - 1 / 2)) * Real.cos (modeK * (y - 1 / 2)) * (1 - Real.cos (1 * (t - 0))) =
    (plasmaW / 8 * (1 - Real.cos (1 * (t - 0)))) * (Real.cos (modeK * (x - 1 / 2)) * Real.cos (modeK * (y - 1 / 2))) by ring]
  refine prod_le_one ?_ h
  rw [abs_mul]
  have := mul_le_mul k o (abs_nonneg _) (by norm_num)
  linarith

theorem plasmaA (x y : ℝ) : |-(plasmaW / 8 * Real.cos (modeK * (x - 1 / 2)) * Real.cos (modeK * (y - 1 / 2)))| ≤ 1 := by
  rw [abs_neg]
  exact prod_le_one (prod_le_one (plasmaW_eighth.trans (by norm_num)) (Real.abs_cos_le_one _)) (Real.abs_cos_le_one _)

theorem plasma_polarized (g : Grid ℝ) (τ : ℝ) : plasma.Polarized (inDisc plasmaJ) (inDisc plasmaJt) (fun _ _ => True) plasmaRes g τ 1 := by
  have one : |(1 : ℝ)| ≤ 1 := by simp
  have sq : Real.sqrt plasmaW ^ 2 = plasmaW := Real.sq_sqrt (by linarith [plasmaW_range.1])
  refine ⟨fun t x y _ _ _ _ => ?_, fun x y _ _ => ?_, fun t x y _ _ _ => ?_, fun t t' x y _ h _ _ => ?_⟩
  · unfold inDisc plasmaRes
    by_cases h : (x - 10) ^ 2 + (y - 10) ^ 2 < 4
    · rw [if_pos h, if_pos h, if_pos h]
      simp only [Response.Law]
      rw [sq]
      simp only [plasmaJt, plasma]
      ring
    · rw [if_neg h, if_neg h, if_neg h]
      rfl
  · by_cases h : (x - 10) ^ 2 + (y - 10) ^ 2 < 4
    · refine tame_of_eq (tame_shift (plasmaW / 8 * Real.cos (modeK * (x - 1 / 2)) * Real.cos (modeK * (y - 1 / 2))) (tame_cos (plasmaA x y) one 0 0 τ)) (fun t => ?_) fun t => ?_
      · unfold inDisc
        rw [if_pos h]
        simp only [plasmaJ]
        ring
      · unfold inDisc
        rw [if_pos h]
        simp only [plasmaJt]
        ring
    · refine tame_of_eq (tame_zero 0 τ) (fun t => ?_) fun t => ?_
      · unfold inDisc
        rw [if_neg h]
      · unfold inDisc
        rw [if_neg h]
  · unfold inDisc
    by_cases h : (x - 10) ^ 2 + (y - 10) ^ 2 < 4
    · rw [if_pos h]; exact plasmaJ_le ..
    · rw [if_neg h]; simp
  · unfold inDisc
    by_cases h' : (x - 10) ^ 2 + (y - 10) ^ 2 < 4
    · rw [if_pos h', if_pos h']
      exact (le_of_eq (congrArg _ (by simp only [plasmaJ]; ring))).trans (lip_cos (plasmaA x y) one 0 h)
    · rw [if_neg h', if_neg h']
      simpa using h

/-- The disc. -/
noncomputable def plasmaDisc : Object ℝ := disc ⟨"p", .drude ⟨1, [⟨Real.sqrt plasmaW, 0⟩]⟩⟩ 10 10

theorem plasma_root : 0 < Real.sqrt plasmaW := Real.sqrt_pos.mpr (by linarith [plasmaW_range.1])

theorem plasma_matter : MatterOf [plasmaDisc] (fun _ _ => 1) (fun _ _ => 0) plasmaRes := by
  constructor
  · rintro p o ⟨b, a, e, h1, -⟩
    have : o = plasmaDisc := List.mem_singleton.mp (by rw [e]; simp)
    subst this
    rw [plasmaDisc, disc_inside] at h1
    unfold plasmaRes
    rw [if_pos h1]
    exact KindIs.drude 1 ⟨Real.sqrt plasmaW, 0⟩
  · intro p hp
    have := hp _ (List.mem_singleton_self _)
    rw [← Bool.not_eq_true, plasmaDisc, disc_inside] at this
    unfold plasmaRes
    rw [if_neg this]
    exact ⟨rfl, rfl, rfl⟩

theorem plasma_most : MatterAtMost (fun _ _ => 1) (fun _ _ => 0) plasmaRes 1 0 3 := by
  refine ⟨fun _ _ => le_rfl, fun _ _ => le_rfl, fun x y => ?_⟩
  unfold plasmaRes
  split
  · have r := plasma_root
    have sq : Real.sqrt plasmaW ^ 2 = plasmaW := Real.sq_sqrt (by linarith [plasmaW_range.1])
    simp only [Response.stiff]
    rw [abs_of_pos r, div_le_iff₀ r, sq]
    have := plasmaW_range
    have : 9 / 10 ≤ Real.sqrt plasmaW := by
      rw [show (9 / 10 : ℝ) = Real.sqrt ((9 / 10) ^ 2) by rw [Real.sqrt_sq (by norm_num)]]
      exact Real.sqrt_le_sqrt (by norm_num; linarith [this.1])
    linarith
  · simp [Response.stiff]

theorem plasma_objects : (∀ o ∈ [plasmaDisc], BoxSound o) ∧ (∀ o ∈ [plasmaDisc], ClearOfUnguardedEdges gOpen o) ∧
    (∀ o ∈ [plasmaDisc], PassiveKind o.mat.kind) ∧ OneMeaning [plasmaDisc] ∧ Uncovered gOpen [plasmaDisc] := by
  refine ⟨?_, ?_, ?_, ?_, ?_⟩
  · intro o ho
    rw [List.mem_singleton.mp ho]
    exact disc_sound _ _ _
  · intro o ho p hin
    rw [List.mem_singleton.mp ho, plasmaDisc, disc_inside] at hin
    rw [gOpen_Lx]
    constructor <;> nlinarith [sq_nonneg (p.x - 10), sq_nonneg (p.y - 10)]
  · intro o ho
    rw [List.mem_singleton.mp ho]
    exact ⟨le_rfl, by simp, by simp, by simpa using plasma_root.ne'⟩
  · intro o ho o' ho' _ _ _
    rw [List.mem_singleton.mp ho, List.mem_singleton.mp ho']
  · rintro o ho _ i j _ o' ⟨b, a, e, -⟩
    have : o' = plasmaDisc := List.mem_singleton.mp (by rw [e]; simp)
    rw [this, List.mem_singleton.mp ho]

open Classical in
/-- **The hypotheses of C85 are met**: a disc of plasma in a closed domain that rings at a frequency given by the plasma and the size of the domain. Outside the disc
sources carry the same current. Any number of updates. -/
example (n : ℕ) : ∃ c0 c1 c2 srcs', Core.make gOpen = .ok c0 ∧ forList [plasmaDisc] c0 (fun o c => c.insertObject o) = .ok c1 ∧
    (withFields c1 (fun i j => if (updatedNodes gOpen).Mem i j then plasma.nodeE gOpen 0 i j else 0) (fun i j => if (updatedNodes gOpen).Mem i j then plasma.nodeX gOpen 0 i j else 0)
      (fun i j => if (updatedNodes gOpen).Mem i j then plasma.nodeY gOpen 0 i j else 0)).run n
        (radiators gOpen (fun _ _ => 1) (fun _ _ => 0) (offDisc plasmaJ) (- (gOpen.dt / 2))) = .ok (c2, srcs') ∧
    Real.sqrt (gap plasma gOpen n c2.f (updatedNodes gOpen)) ≤ n * gOpen.dt * polarError (fun _ _ => True) gOpen 1 1 0 3 0 := by
  obtain ⟨h1, h2, h3, h4, h5⟩ := plasma_objects
  have hd : gOpen.dt = 1 / 2 := by rw [gOpen_lawful.dt, gOpen_dx]
  refine C85_behind n gOpen ⟨by rw [gOpen_T, gOpen_Nx]; norm_num, by rw [gOpen_T, gOpen_Ny]; norm_num⟩ gOpen_lawful gOpen_T [plasmaDisc] h1 h2 h3 h4 h5 (fun _ _ => 1) (fun _ _ => 0)
    plasmaRes plasma_matter 1 0 3 plasma_most plasma (inDisc plasmaJ) (inDisc plasmaJt) (offDisc plasmaJ) (fun _ _ => True) (n + 1) 1 (plasma_smooth _ _) (plasma_steady _ _)
    (plasma_driven _ _) (plasma_polarized _ _) (fun t x y _ _ _ => ?_) (plasma_walls _) (fun x y _ => ?_) (fun t p o ho _ => ?_) (by rw [hd]; linarith [Nat.cast_nonneg (α := ℝ) n])
  · unfold offDisc
    split
    · simp
    · exact plasmaJ_le ..
  · unfold inDisc
    split
    · simp [plasmaJ]
    · rfl
  · obtain ⟨b, a, e, h, -⟩ := ho
    have : o = plasmaDisc := List.mem_singleton.mp (by rw [e]; simp)
    subst this
    rw [plasmaDisc, disc_inside] at h
    unfold offDisc
    rw [if_pos h]

/-- The field of this case is not zero, in the disc and elsewhere. -/
example : plasma.E (Real.pi / 2) (1 / 2) (1 / 2) = 1 / 8 ∧ inDisc plasmaJ Real.pi 10 10 ≠ 0 := by
  have w := plasmaW_range.1
  have c : Real.cos (modeK * (10 - 1 / 2)) ≠ 0 := by
    refine (Real.cos_pos_of_mem_Ioo ⟨?_, ?_⟩).ne' <;> unfold modeK <;> linarith [Real.pi_pos]
  refine ⟨by simp [plasma], ?_⟩
  unfold inDisc
  rw [if_pos (by norm_num)]
  unfold plasmaJ
  refine mul_ne_zero (mul_ne_zero (mul_ne_zero (by linarith) c) c) ?_
  simp

/-- The current of sources that switch the field of `lamp` on in a domain with the disc of plasma. -/
noncomputable def switchI (t x y : ℝ) : ℝ :=
  - (Real.cos (modeK * (x - 1 / 2)) * Real.cos (modeK * (y - 1 / 2))) / 8 * (Real.cos (1 * (t - 0)) + 2 * modeK ^ 2 * (1 - Real.cos (1 * (t - 0)))) - inDisc plasmaJ t x y

theorem switchI_in {x y : ℝ} (h : (x - 10) ^ 2 + (y - 10) ^ 2 < 4) (t : ℝ) :
    switchI t x y = - (Real.cos (modeK * (x - 1 / 2)) * Real.cos (modeK * (y - 1 / 2))) / 8 := by
  unfold switchI inDisc
  rw [if_pos h]
  unfold plasmaJ plasmaW
  ring

theorem switchI_le (t x y : ℝ) : |switchI t x y| ≤ 1 := by
  have p := prod_le_one (Real.abs_cos_le_one (modeK * (x - 1 / 2))) (Real.abs_cos_le_one (modeK * (y - 1 / 2)))
  by_cases h : (x - 10) ^ 2 + (y - 10) ^ 2 < 4
  · rw [switchI_in h, abs_div, abs_neg]
    rw [abs_mul] at p
    norm_num
    linarith
  · unfold switchI inDisc
    rw [if_neg h, sub_zero, neg_div, neg_mul, abs_neg, div_mul_eq_mul_div, mul_div_assoc]
    refine prod_le_one p ?_
    have k1 : modeK ^ 2 ≤ 1 / 25 := by nlinarith [modeK_pos, modeK_le]
    have k0 : 0 ≤ modeK ^ 2 := sq_nonneg _
    have c1 := Real.neg_one_le_cos (1 * (t - 0))
    have c2 := Real.cos_le_one (1 * (t - 0))
    have q0 : 0 ≤ modeK ^ 2 * (1 - Real.cos (1 * (t - 0))) := mul_nonneg k0 (by linarith)
    have q : modeK ^ 2 * (1 - Real.cos (1 * (t - 0))) ≤ 1 / 25 * 2 := mul_le_mul k1 (by linarith) (by linarith) (by norm_num)
    rw [abs_le]
    constructor <;> linarith

/-- **The hypotheses of C85 are met from rest**: sources outside the disc of plasma switch a field on. In the disc, where a source would not be felt by the plasma, the
solution has a current of at most 1/8 that no source carries. -/
example (n : ℕ) : ∃ c, (⟨[plasmaDisc], radiators gOpen (fun _ _ => 1) (fun _ _ => 0) (offDisc switchI) (- (gOpen.dt / 2)), none⟩ : Scene).run gOpen n = .ok c ∧
    Real.sqrt (gap lamp gOpen n c.f (updatedNodes gOpen)) ≤ restError (fun _ _ => True) gOpen 1 (1 + 3 ^ 2) +
      n * gOpen.dt * polarError (fun _ _ => True) gOpen 1 1 0 3 (1 / 8) := by
  obtain ⟨h1, h2, h3, h4, h5⟩ := plasma_objects
  have hl := gOpen_lawful
  have hd : gOpen.dt = 1 / 2 := by rw [hl.dt, gOpen_dx]
  have k := radiators_carry hl (eps := fun _ _ => 1) (sig := fun _ _ => 0) (offDisc switchI) (a := - (gOpen.dt / 2)) (τ := n + 1) (δ := 0) (fun i j _ => ⟨le_rfl, le_rfl⟩)
    fun m i j _ _ => by rw [show ((m : ℝ) + 1) * gOpen.dt + - (gOpen.dt / 2) = (m + 1 / 2) * gOpen.dt by ring, sub_self, abs_zero]
  have gapI : ∀ t x y, |switchI t x y - offDisc switchI t x y| ≤ 1 / 8 := by
    intro t x y
    unfold offDisc
    by_cases h : (x - 10) ^ 2 + (y - 10) ^ 2 < 4
    · rw [if_pos h, sub_zero, switchI_in h, abs_div, abs_neg]
      have p := prod_le_one (Real.abs_cos_le_one (modeK * (x - 1 / 2))) (Real.abs_cos_le_one (modeK * (y - 1 / 2)))
      rw [abs_mul] at p
      norm_num
      linarith
    · rw [if_neg h]
      norm_num
  have pol := plasma_polarized gOpen (n + 1)
  refine C85_solves n gOpen ⟨by rw [gOpen_T, gOpen_Nx]; norm_num, by rw [gOpen_T, gOpen_Ny]; norm_num⟩ hl gOpen_T [plasmaDisc] h1 h2 h3 h4 h5 (fun _ _ => 1) (fun _ _ => 0)
    plasmaRes plasma_matter 1 0 3 plasma_most lamp (inDisc plasmaJ) (inDisc plasmaJt) switchI (fun _ _ => True) (n + 1) 1 (1 / 8) (lamp_smooth _ _) (lamp_steady _ _)
    ⟨fun t x y _ _ _ _ => ?_, fun t x y _ _ _ _ => by simp only [lamp]; ring, fun t x y _ _ _ _ => by simp only [lamp]; ring⟩
    ⟨pol.law, pol.tame, pol.atMost, pol.steady⟩ (fun t x y _ _ _ => switchI_le t x y) (lamp_walls _) (lamp_rest _)
    (fun x y _ => ?_) _ (radiators_fit hl _ _ _ _) (by norm_num) ⟨k.electric, fun m i j a1 a2 a3 a4 a5 => ?_⟩ (radiators_outside hl _ _ _ fun t p o ho _ => ?_)
    (by rw [hd]; linarith [Nat.cast_nonneg (α := ℝ) n])
  · show _ + (inDisc plasmaJ t x y + switchI t x y) = _
    unfold switchI
    simp only [lamp]
    ring
  · unfold inDisc
    split
    · simp [plasmaJ]
    · rfl
  · have b1 := k.node m i j a1 a2 a3 a4 a5
    have b2 := gapI ((m + 1 / 2) * gOpen.dt) (i * gOpen.dx) (j * gOpen.dx)
    rw [abs_le] at b1 b2 ⊢
    constructor <;> linarith [b1.1, b1.2, b2.1, b2.2]
  · obtain ⟨b, a, e, h, -⟩ := ho
    have : o = plasmaDisc := List.mem_singleton.mp (by rw [e]; simp)
    subst this
    rw [plasmaDisc, disc_inside] at h
    unfold offDisc
    rw [if_pos h]

end Qbox.Props
