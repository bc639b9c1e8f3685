import Verif.Props.PoyntingProps
import Verif.Props.BoxWaveCases

/-! # A program that writes the energy absorbed in a box (C98) -/

namespace Qbox.Props
open Qbox Scalar Spec MeasureTheory

/-- The whole plane. -/
theorem pieces_all (p q : V2 ℝ) : Pieces (fun _ _ => True) p q := by
  refine ⟨?_, Filter.Eventually.of_forall fun y _ => ?_, Filter.Eventually.of_forall fun x _ => ?_⟩
  · simp
  · simp
  · simp

/-- The plane without a circle, that is the edge of a disc. -/
theorem pieces_circle (c : V2 ℝ) (r : ℝ) (p q : V2 ℝ) : Pieces (fun x y => (x - c.x) ^ 2 + (y - c.y) ^ 2 ≠ r ^ 2) p q := by
  have two : ∀ c d : ℝ, {x : ℝ | (x - c) ^ 2 = d}.Countable := fun c d => by
    refine Set.Countable.mono (s₂ := {c + Real.sqrt d, c - Real.sqrt d}) (fun x hx => ?_) ((Set.countable_singleton _).insert _)
    have hx : (x - c) ^ 2 = d := hx
    have d0 : 0 ≤ d := by rw [← hx]; exact sq_nonneg _
    rcases sq_eq_sq_iff_eq_or_eq_neg.mp (hx.trans (Real.sq_sqrt d0).symm) with e | e
    · left; linarith
    · right; show x = c - Real.sqrt d; linarith
  refine ⟨?_, Filter.Eventually.of_forall fun y _ => (two c.x (r ^ 2 - (y - c.y) ^ 2)).mono fun x hx => ?_,
    Filter.Eventually.of_forall fun x _ => (two c.y (r ^ 2 - (x - c.x) ^ 2)).mono fun y hy => ?_⟩
  · exact isOpen_ne_fun (by fun_prop) continuous_const
  · have := not_not.mp hx.2
    show (x - c.x) ^ 2 = r ^ 2 - (y - c.y) ^ 2
    linarith
  · have := not_not.mp hy.2
    show (y - c.y) ^ 2 = r ^ 2 - (x - c.x) ^ 2
    linarith

theorem discEps_measurable : Measurable fun z : ℝ × ℝ => discEps z.1 z.2 := by
  classical
  have m : MeasurableSet {z : ℝ × ℝ | (z.1 - 10) ^ 2 + (z.2 - 10) ^ 2 < 4} := measurableSet_lt (by fun_prop) measurable_const
  have e : (fun z : ℝ × ℝ => discEps z.1 z.2) = fun z => if z ∈ {z : ℝ × ℝ | (z.1 - 10) ^ 2 + (z.2 - 10) ^ 2 < 4} then 3 else 1 := by
    funext z
    unfold discEps
    simp only [Set.mem_setOf_eq]
  rw [e]
  exact Measurable.ite m measurable_const measurable_const

theorem lamp_settled (p q : V2 ℝ) (T : ℝ) : lamp.Settled (fun _ _ => True) p q T 1 := by
  have c : ∀ u, |Real.cos u| ≤ 1 := Real.abs_cos_le_one
  have s : ∀ u, |Real.sin u| ≤ 1 := Real.abs_sin_le_one
  refine ⟨pieces_all p q, ⟨?_, ?_⟩, fun x y _ => ⟨?_, ?_, ?_⟩⟩
  · refine Continuous.continuousOn ?_
    simp only [lamp]
    fun_prop
  · refine Continuous.continuousOn ?_
    simp only [lamp]
    fun_prop
  · exact prod_le_one (prod_le_one (prod_le_one e8 (c _)) (c _)) (s _)
  · have := prod_le_one (prod_le_one (k8u (1 * (T - 0))) (c (modeK * (x - 1 / 2)))) (s (modeK * (y - 1 / 2)))
    simp only [lamp]
    convert this using 2
    ring
  · have := prod_le_one (prod_le_one (k8u (1 * (T - 0))) (s (modeK * (x - 1 / 2)))) (c (modeK * (y - 1 / 2)))
    rw [← abs_neg] at this
    simp only [lamp]
    convert this using 2
    ring

/-- A non-trivial case of `C98_simple`: the lamp at the conducting dielectric disc, with the energy absorbed and supplied between the nodes (3, 4) and (14, 12). -/
example (now : ℕ → ℝ) (freq : List ℝ) (n : ℕ) : ∃ w4,
    BoxWritten now gOpen (furnish [lampDisc] lampSources) (List.replicate n (.op .update)) [] "v" ⟨((3 : ℤ) : ℝ), ((4 : ℤ) : ℝ)⟩ ⟨((14 : ℤ) : ℝ), ((12 : ℤ) : ℝ)⟩ .tangent freq n w4 ∧
    HoldsAbsorption w4 gOpen "v" ⟨((3 : ℤ) : ℝ), ((4 : ℤ) : ℝ)⟩ ⟨((14 : ℤ) : ℝ), ((12 : ℤ) : ℝ)⟩ freq lamp (fun t x y => discSig x y * lamp.E t x y + lampJ t x y) (n * gOpen.dt) fun f =>
      boxFlowError gOpen ⟨3, 4⟩ ⟨14, 12⟩ 1 (n * gOpen.dt) (restError (fun _ _ => True) gOpen 1 3 + n * gOpen.dt * drivenError (fun _ _ => True) gOpen 1 3 1 0) f +
        remainder (gOpen.toReal ⟨3, 4⟩) (gOpen.toReal ⟨14, 12⟩) (2 + 3) 1 1 (n * gOpen.dt) := by
  have hl : Lawful gOpen := gOpen_lawful
  have nn := Nat.cast_nonneg (α := ℝ) n
  have hd : gOpen.dt = 1 / 2 := by rw [hl.dt, gOpen_dx]
  have fits : ∀ s ∈ lampSources, Fits gOpen s := renamed_fits (radiators_fit hl _ _ _ _)
  have carry : Spec.Carries gOpen lampSources discEps discSig lampJ (n + 1) 0 := by
    refine renamed_carry (radiators_carry hl lampJ (fun i j _ => ?_) fun m i j _ _ => ?_)
    · rcases discEps_cases (i * gOpen.dx) (j * gOpen.dx) with ⟨e1, e2⟩ | ⟨e1, e2⟩ <;> rw [e1, e2] <;> norm_num
    · rw [show ((m : ℝ) + 1) * gOpen.dt + - (gOpen.dt / 2) = (m + 1 / 2) * gOpen.dt by ring, sub_self, abs_zero]
  obtain ⟨w4, h⟩ := C97_program now gOpen gOpen_wide hl gOpen_T [lampDisc] lampDisc_clear lampSources fits "v" ⟨((3 : ℤ) : ℝ), ((4 : ℤ) : ℝ)⟩ ⟨((14 : ℤ) : ℝ), ((12 : ℤ) : ℝ)⟩ .tangent (.inr rfl) freq n
    (by rw [gOpen_dx]) (by rw [gOpen_node, gOpen_node, gOpen_Nx]; decide) (by rw [gOpen_node, gOpen_node, gOpen_Ny]; decide) lamp_names.1 lamp_names.2
  have s := lamp_settled (gOpen.toReal (gOpen.toGrid ⟨((3 : ℤ) : ℝ), ((4 : ℤ) : ℝ)⟩)) (gOpen.toReal (gOpen.toGrid ⟨((14 : ℤ) : ℝ), ((12 : ℤ) : ℝ)⟩)) (n * gOpen.dt)
  rw [← gOpen_node 3 4, ← gOpen_node 14 12]
  refine ⟨w4, h, C98_simple h [lampDisc] lampSources (objectsOf_furnish _ _).1 (objectsOf_furnish _ _).2 ?_ lampDisc_clear ?_ 3 1 ⟨by norm_num, ?_⟩ ⟨by norm_num, ?_⟩ discEps discSig
    lampDisc_medium discEps_measurable lamp (fun _ _ => True) lampJ (n + 1) 1 0 1 (lamp_smooth _ _) (lamp_steady _ _) (lamp_even _ _) (lamp_driven _ _) (lampJ_at_most _ _) (lamp_walls _)
    (lamp_rest _) fits le_rfl carry (by rw [hd]; linarith) s⟩
  · intro o ho
    rw [List.mem_singleton.mp ho]
    exact disc_sound _ _ _
  · intro o ho
    rw [List.mem_singleton.mp ho]
    exact ⟨⟨3, 1, 1⟩, rfl, by norm_num, by norm_num⟩
  · intro o ho m hm
    rw [List.mem_singleton.mp ho] at hm
    cases hm
    exact le_rfl
  · intro o ho m hm
    rw [List.mem_singleton.mp ho] at hm
    cases hm
    norm_num

end Qbox.Props
