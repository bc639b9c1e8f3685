import Verif.Model.Recenter
import Verif.Spec.CircleSpec
import Verif.Props.FarFieldProps
import Mathlib.Analysis.SpecialFunctions.Trigonometric.Basic
import Mathlib.Analysis.SpecialFunctions.Complex.Circle

/-!
# C59: the far field on a circle
-/

namespace Qbox.Props
open Qbox Scalar Spec

theorem spherePoint_real (c : V2 ℝ) (R : ℝ) (N : ℕ) (hN : 2 ≤ N) (i : ℕ) :
    spherePoint c R N i = circlePoint c R (2 * Real.pi * i / ((N - 1 : ℕ) : ℝ)) := by
  have hc : (((N : ℤ) - 1 : ℤ) : ℝ) = ((N - 1 : ℕ) : ℝ) := by
    rw [Nat.cast_sub (by omega)]; push_cast; ring
  have hp : ((N - 1 : ℕ) : ℝ) ≠ 0 := by
    have : N - 1 ≠ 0 := by omega
    exact_mod_cast this
  have ht : (sphereTheta (N : ℤ) (i : ℤ) : ℝ) = 2 * Real.pi * i / ((N - 1 : ℕ) : ℝ) := by
    unfold sphereTheta linSpaced
    split
    · next h =>
      have : (i : ℝ) = ((N - 1 : ℕ) : ℝ) := by
        have : i = N - 1 := by omega
        rw [this]
      rw [this, mul_div_assoc, div_self hp]
      simp
    · simp only [ofInt_real, pi_real, hc]
      push_cast
      ring
  simp only [spherePoint, ht, circlePoint]
  ext <;> simp <;> ring

theorem mapM_rows {α β : Type} (f : α → M β) : ∀ (l : List α) (r : List β), l.mapM f = .ok r →
    r.length = l.length ∧ ∀ i (h : i < l.length) (h' : i < r.length), f l[i] = .ok r[i]
  | [], r, h => by
    rw [List.mapM_nil] at h
    obtain rfl := Except.ok.inj h
    simp
  | a :: l, r, h => by
    rw [List.mapM_cons] at h
    obtain ⟨b, h1, h⟩ := (Except.bind_ok ..).mp h
    obtain ⟨bs, h2, h⟩ := (Except.bind_ok ..).mp h
    obtain rfl := Except.ok.inj h
    obtain ⟨hl, hr⟩ := mapM_rows f l bs h2
    refine ⟨by simp [hl], ?_⟩
    intro i hi hi'
    cases i with
    | zero => simpa using h1
    | succ i => simpa using hr i (by simpa using hi) (by simpa using hi')

theorem mapM_total {α β : Type} (f : α → M β) : ∀ (l : List α), (∀ a ∈ l, ∃ b, f a = .ok b) → ∃ r, l.mapM f = .ok r
  | [], _ => ⟨[], rfl⟩
  | a :: l, h => by
    obtain ⟨b, hb⟩ := h a (by simp)
    obtain ⟨r, hr⟩ := mapM_total f l (fun x hx => h x (by simp [hx]))
    exact ⟨b :: r, by rw [List.mapM_cons, hb, Except.ok_bind, hr]; rfl⟩

theorem intRange_get (n i : ℕ) (h : i < (intRange 0 n).length) : (intRange 0 n)[i] = i := by
  simp [intRange]

theorem sphereRows_real (ntff : V2 ℝ → M (ℤ → Cx ℝ)) (c : V2 ℝ) (R : ℝ) (N : ℕ) (hN : 2 ≤ N) (rows : List (ℤ → Cx ℝ))
    (h : sphereRows ntff c R N = .ok rows) : rows.length = N ∧
      ∀ i (hi : i < rows.length), ntff (circlePoint c R (2 * Real.pi * i / ((N - 1 : ℕ) : ℝ))) = .ok rows[i] := by
  obtain ⟨hl, hr⟩ := mapM_rows _ _ _ h
  have hlen : (intRange 0 (N : ℤ)).length = N := by simp [intRange]
  refine ⟨hl.trans hlen, ?_⟩
  intro i hi
  have := hr i (by omega) hi
  rwa [intRange_get, spherePoint_real c R N hN] at this

/-- Points of a circle in directions less than a turn apart are different. -/
theorem circle_injective (c : V2 ℝ) (R : ℝ) (hR : R ≠ 0) (n : ℕ) (i k : ℕ) (hi : i < n) (hk : k < n)
    (h : circlePoint c R (2 * Real.pi * i / n) = circlePoint c R (2 * Real.pi * k / n)) : i = k := by
  have hn : (0 : ℝ) < n := by exact_mod_cast (by omega : 0 < n)
  have hx := congrArg V2.x h
  have hy := congrArg V2.y h
  simp only [circlePoint, add_right_inj, mul_eq_mul_left_iff, hR, or_false] at hx hy
  have he : Complex.exp ((2 * Real.pi * i / n : ℝ) * Complex.I) = Complex.exp ((2 * Real.pi * k / n : ℝ) * Complex.I) := by
    apply Complex.ext
    · rw [Complex.exp_ofReal_mul_I_re, Complex.exp_ofReal_mul_I_re, hx]
    · rw [Complex.exp_ofReal_mul_I_im, Complex.exp_ofReal_mul_I_im, hy]
  rw [Complex.exp_eq_exp_iff_exists_int] at he
  obtain ⟨m, hm⟩ := he
  have h1 := congrArg Complex.im hm
  simp at h1
  have h2 : (i : ℝ) = k + m * n := by
    field_simp at h1
    linarith
  have h3 : (i : ℤ) = k + m * n := by exact_mod_cast h2
  have hm0 : m = 0 := by
    by_contra hne
    rcases lt_or_gt_of_ne hne with hlt | hgt
    · have : m * (n : ℤ) ≤ -1 * n := by apply mul_le_mul_of_nonneg_right (by omega) (by omega)
      omega
    · have : 1 * (n : ℤ) ≤ m * n := by apply mul_le_mul_of_nonneg_right (by omega) (by omega)
      omega
  rw [hm0] at h3
  omega

/-- What is missing from C59: the last of the `N` directions; the first `N - 1` are as claimed. The far field in each of these directions is the row of
the result, for a box monitor. -/
theorem C59_box_partial (g : Grid ℝ) (m : BoxMon ℝ) (R : ℝ) (N : ℕ) (hN : 2 ≤ N) (rows : List (ℤ → Cx ℝ))
    (h : m.ntffSphere g R N = .ok rows) : ∃ p : ℕ → V2 ℝ, (R ≠ 0 → AroundOnce m.vol.center R (N - 1) p) ∧
      rows.length = N ∧ ∀ i (hi : i < rows.length), m.ntff g (p i) = .ok rows[i] := by
  obtain ⟨hl, hr⟩ := sphereRows_real _ _ _ N hN rows h
  exact ⟨fun i => circlePoint m.vol.center R (2 * Real.pi * i / ((N - 1 : ℕ) : ℝ)),
    fun hR => ⟨fun i _ => rfl, fun i hi k hk e => circle_injective _ R hR _ i k hi hk e⟩, hl, hr⟩

/-- The same for a cylinder monitor. -/
theorem C59_cylinder_partial (m : CylMon ℝ) (R : ℝ) (N : ℕ) (hN : 2 ≤ N) (rows : List (ℤ → Cx ℝ))
    (h : m.ntffSphere R N = .ok rows) : ∃ p : ℕ → V2 ℝ, (R ≠ 0 → AroundOnce m.surf.center R (N - 1) p) ∧
      rows.length = N ∧ ∀ i (hi : i < rows.length), m.ntff (p i) = .ok rows[i] := by
  obtain ⟨hl, hr⟩ := sphereRows_real _ _ _ N hN rows h
  exact ⟨fun i => circlePoint m.surf.center R (2 * Real.pi * i / ((N - 1 : ℕ) : ℝ)),
    fun hR => ⟨fun i _ => rfl, fun i hi k hk e => circle_injective _ R hR _ i k hi hk e⟩, hl, hr⟩

theorem circle_turn (c : V2 ℝ) (R : ℝ) (N : ℕ) (hN : 2 ≤ N) :
    circlePoint c R (2 * Real.pi * ((N - 1 : ℕ) : ℝ) / ((N - 1 : ℕ) : ℝ)) = circlePoint c R (2 * Real.pi * (0 : ℕ) / ((N - 1 : ℕ) : ℝ)) := by
  have hp : ((N - 1 : ℕ) : ℝ) ≠ 0 := by
    have : N - 1 ≠ 0 := by omega
    exact_mod_cast this
  rw [mul_div_assoc, div_self hp]
  simp [circlePoint]

theorem rows_repeat (ntff : V2 ℝ → M (ℤ → Cx ℝ)) (c : V2 ℝ) (R : ℝ) (N : ℕ) (hN : 2 ≤ N) (rows : List (ℤ → Cx ℝ))
    (h : sphereRows ntff c R N = .ok rows) (h0 : 0 < rows.length) (h1 : N - 1 < rows.length) : rows[N - 1] = rows[0] := by
  obtain ⟨_, hr⟩ := sphereRows_real _ _ _ N hN rows h
  have e0 := hr 0 h0
  have e1 := hr (N - 1) h1
  rw [circle_turn c R N hN, e0] at e1
  exact (Except.ok.inj e1).symm

/-- Against C59: the last row repeats the first, whatever was recorded. -/
theorem C59_box_repeats (g : Grid ℝ) (m : BoxMon ℝ) (R : ℝ) (N : ℕ) (hN : 2 ≤ N) (rows : List (ℤ → Cx ℝ))
    (h : m.ntffSphere g R N = .ok rows) (h0 : 0 < rows.length) (h1 : N - 1 < rows.length) : rows[N - 1] = rows[0] :=
  rows_repeat _ _ R N hN rows h h0 h1

/-- The same for a cylinder monitor. -/
theorem C59_cylinder_repeats (m : CylMon ℝ) (R : ℝ) (N : ℕ) (hN : 2 ≤ N) (rows : List (ℤ → Cx ℝ))
    (h : m.ntffSphere R N = .ok rows) (h0 : 0 < rows.length) (h1 : N - 1 < rows.length) : rows[N - 1] = rows[0] :=
  rows_repeat _ _ R N hN rows h h0 h1

/-- Against C59: the observation points of `ntff(radius, N)` do not visit `N` different points once around. -/
theorem C59_directions_false (c : V2 ℝ) (R : ℝ) (N : ℕ) (hN : 2 ≤ N) :
    ¬ AroundOnce c R N (fun i => spherePoint c R N i) := by
  intro ⟨_, hd⟩
  have := hd (N - 1) (by omega) 0 (by omega) (by
    simp only
    rw [spherePoint_real c R N hN, spherePoint_real c R N hN, circle_turn c R N hN])
  omega

/-- The mean over the rows counts the direction of the positive x axis twice. -/
theorem C59_sum (g : Grid ℝ) (m : BoxMon ℝ) (R : ℝ) (N : ℕ) (hN : 2 ≤ N) (rows : List (ℤ → Cx ℝ)) (h : m.ntffSphere g R N = .ok rows)
    (j : ℤ) : ∑ i ∈ Finset.range N, toC ((rows.getD i (fun _ => ⟨0, 0⟩)) j)
      = ∑ i ∈ Finset.range (N - 1), toC ((rows.getD i (fun _ => ⟨0, 0⟩)) j) + toC ((rows.getD 0 (fun _ => ⟨0, 0⟩)) j) := by
  obtain ⟨hl, _⟩ := sphereRows_real _ _ _ N hN rows h
  obtain ⟨M, rfl⟩ : ∃ M, N = M + 1 := ⟨N - 1, by omega⟩
  rw [Finset.sum_range_succ]
  have := C59_box_repeats g m R (M + 1) hN rows h (by omega) (by omega)
  simp only [Nat.add_sub_cancel] at this ⊢
  simp [List.getD, List.getElem?_eq_getElem (by omega : M < rows.length), List.getElem?_eq_getElem (by omega : 0 < rows.length), this]

/-- The far field on a circle is defined as soon as it is at one point. -/
theorem C59_defined (m : CylMon ℝ) (q : V2 ℝ) (hq : ∃ v, m.ntff q = .ok v) (R : ℝ) (N : ℕ) : ∃ rows, m.ntffSphere R N = .ok rows := by
  refine mapM_total _ _ (fun i _ => ?_)
  obtain ⟨v, hv⟩ := hq
  simp only [CylMon.ntff] at hv ⊢
  obtain ⟨E, hE, hv⟩ := (Except.bind_ok ..).mp hv
  obtain ⟨H, hH, hv⟩ := (Except.bind_ok ..).mp hv
  rw [hE, Except.ok_bind, hH, Except.ok_bind]
  exact ⟨_, rfl⟩

/-- The hypotheses are met by every cylinder monitor that has been added to a simulation. -/
example (g : Grid ℝ) (surf : CylSurf ℝ) (freq : List ℝ) : ∃ rows, (((CylMon.make "c" surf .all freq).setF g).ntffSphere 5 8) = .ok rows := by
  refine C59_defined _ ⟨0, 0⟩ ?_ 5 8
  have h := (recorder_find freq ["Ez", "Hp", "Hr"] (intRange 0 (ceilI (ofInt 2 * Scalar.pi * surf.radius / g.dx)))).2.2.2
  have hd : ((CylMon.make "c" surf .all freq).setF g).fourier =
      recorder freq ["Ez", "Hp", "Hr"] (intRange 0 (ceilI (ofInt 2 * Scalar.pi * surf.radius / g.dx))) := rfl
  simp only [CylMon.ntff, hd, Dft.get, h "Ez" (by simp), h "Hp" (by simp), Except.ok_bind]
  exact ⟨_, rfl⟩

end Qbox.Props
