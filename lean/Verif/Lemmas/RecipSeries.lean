import Verif.Lemmas.Series

/-!
# Reciprocity of fields that obey the update equations, as power series in the delay of one time step
-/

namespace Qbox
open PowerSeries

/-- The coefficients of the update equations, in the delay of one step. They do not depend on where the source is. -/
structure Wave where
  ax : ℤ → PowerSeries ℝ
  ay : ℤ → PowerSeries ℝ
  N : ℤ → ℤ → PowerSeries ℝ
  K : ℤ → ℤ → PowerSeries ℝ
  Dx : ℤ → ℤ → PowerSeries ℝ
  Dy : ℤ → ℤ → PowerSeries ℝ
  Wx : ℤ → ℤ → PowerSeries ℝ
  Wy : ℤ → ℤ → PowerSeries ℝ

/-- The coefficients can be solved for the newest value, and the stretching of the layer can be undone. -/
structure Wave.Good (w : Wave) (M L : ℕ) : Prop where
  ax : ∀ k : ℕ, k < M → constantCoeff (w.ax (k + 1)) ≠ 0
  ay : ∀ l : ℕ, l < L → constantCoeff (w.ay (l + 1)) ≠ 0
  N : ∀ k l : ℕ, k < M → l < L → constantCoeff (w.N (k + 1) (l + 1)) ≠ 0
  Dx : ∀ k l : ℕ, k < M → l ≤ L → constantCoeff (w.Dx (k + 1) l) ≠ 0
  Dy : ∀ k l : ℕ, k ≤ M → l < L → constantCoeff (w.Dy k (l + 1)) ≠ 0

/-- The fields of a run with a source of signal `s` at the node `p`. -/
structure Wave.Obeys (w : Wave) (M L : ℕ) (s : PowerSeries ℝ) (p : ℤ × ℤ) (e hx hy : ℤ → ℤ → PowerSeries ℝ) : Prop where
  l : ∀ l : ℕ, l ≤ L + 1 → e 0 l = 0
  r : ∀ l : ℕ, l ≤ L + 1 → e (M + 1) l = 0
  b : ∀ k : ℕ, k ≤ M + 1 → e k 0 = 0
  t : ∀ k : ℕ, k ≤ M + 1 → e k (L + 1) = 0
  E : ∀ k l : ℕ, k < M → l < L → w.N (k + 1) (l + 1) * e (k + 1) (l + 1) = w.K (k + 1) (l + 1) * (X *
      (w.ax (k + 1) * (hy (k + 1) (l + 1) - hy k (l + 1)) - w.ay (l + 1) * (hx (k + 1) (l + 1) - hx (k + 1) l)))
      + (if (((k : ℤ) + 1, (l : ℤ) + 1) : ℤ × ℤ) = p then s else 0)
  Hy : ∀ k l : ℕ, k ≤ M → l < L → w.Dy k (l + 1) * hy k (l + 1) = w.Wy k (l + 1) * (e (k + 1) (l + 1) - e k (l + 1))
  Hx : ∀ k l : ℕ, k < M → l ≤ L → w.Dx (k + 1) l * hx (k + 1) l = w.Wx (k + 1) l * (e (k + 1) (l + 1) - e (k + 1) l)

theorem mul_cross {D W h1 h2 d1 d2 : PowerSeries ℝ} (hD : constantCoeff D ≠ 0) (e1 : D * h1 = W * d1) (e2 : D * h2 = W * d2) :
    h1 * d2 = h2 * d1 := by
  refine mul_left_cancel₀ (series_ne hD) ?_
  linear_combination d2 * e1 - d1 * e2

theorem dvd_of_unit_mul {n : ℕ} {D h : PowerSeries ℝ} (hD : constantCoeff D ≠ 0) (hd : X ^ n ∣ D * h) : X ^ n ∣ h := by
  have e : h = D⁻¹ * (D * h) := by rw [← mul_assoc, PowerSeries.inv_mul_cancel _ hD, one_mul]
  rw [e]
  exact Dvd.dvd.mul_left hd _

/-- Without a signal the fields vanish. -/
theorem Wave.Obeys.quiet {w : Wave} {M L : ℕ} {p : ℤ × ℤ} {e hx hy : ℤ → ℤ → PowerSeries ℝ} (hg : w.Good M L)
    (h : w.Obeys M L 0 p e hx hy) (k l : ℕ) (hk : k < M) (hl : l < L) : e (k + 1) (l + 1) = 0 := by
  have key : ∀ n : ℕ, ∀ k l : ℕ, k ≤ M + 1 → l ≤ L + 1 → X ^ n ∣ e k l := by
    intro n
    induction n with
    | zero => intro k l _ _; simp
    | succ n ih =>
      have dy : ∀ k l : ℕ, k ≤ M → l < L → X ^ n ∣ hy k (l + 1) := by
        intro k l hk hl
        refine dvd_of_unit_mul (hg.Dy k l hk hl) ?_
        rw [h.Hy k l hk hl]
        refine Dvd.dvd.mul_left (dvd_sub ?_ ?_) _
        · have := ih (k + 1) (l + 1) (by omega) (by omega); push_cast at this; exact this
        · have := ih k (l + 1) (by omega) (by omega); push_cast at this; exact this
      have dx : ∀ k l : ℕ, k < M → l ≤ L → X ^ n ∣ hx (k + 1) l := by
        intro k l hk hl
        refine dvd_of_unit_mul (hg.Dx k l hk hl) ?_
        rw [h.Hx k l hk hl]
        refine Dvd.dvd.mul_left (dvd_sub ?_ ?_) _
        · have := ih (k + 1) (l + 1) (by omega) (by omega); push_cast at this; exact this
        · have := ih (k + 1) l (by omega) (by omega); push_cast at this; exact this
      intro k l hk hl
      rcases k with _ | k
      · rw [show ((0 : ℕ) : ℤ) = 0 from rfl, h.l _ hl]; exact dvd_zero _
      rcases l with _ | l
      · rw [show ((0 : ℕ) : ℤ) = 0 from rfl, h.b _ hk]; exact dvd_zero _
      by_cases k1 : k = M
      · subst k1; have := h.r _ hl; push_cast at this ⊢; rw [this]; exact dvd_zero _
      by_cases l1 : l = L
      · subst l1; have := h.t _ hk; push_cast at this ⊢; rw [this]; exact dvd_zero _
      push_cast
      refine dvd_of_unit_mul (hg.N k l (by omega) (by omega)) ?_
      rw [h.E k l (by omega) (by omega), ite_self, add_zero, pow_succ, mul_comm (X ^ n) X]
      refine Dvd.dvd.mul_left (mul_dvd_mul dvd_rfl (dvd_sub (Dvd.dvd.mul_left (dvd_sub ?_ ?_) _) (Dvd.dvd.mul_left (dvd_sub ?_ ?_) _))) _
      · have := dy (k + 1) l (by omega) (by omega); push_cast at this; exact this
      · exact dy k l (by omega) (by omega)
      · have := dx k (l + 1) (by omega) (by omega); push_cast at this; exact this
      · exact dx k l (by omega) (by omega)
  ext n
  have := key (n + 1) (k + 1) (l + 1) (by omega) (by omega)
  push_cast at this
  rw [X_pow_dvd_iff] at this
  rw [this n (by omega)]; simp

/-- The electric fields at the place of the other source, weighted with the strength a source has there. -/
theorem Wave.reciprocal {w : Wave} {M L : ℕ} (hg : w.Good M L) {s : PowerSeries ℝ} {k1 l1 k2 l2 : ℕ}
    (hk1 : k1 < M) (hl1 : l1 < L) (hk2 : k2 < M) (hl2 : l2 < L) {e1 e2 hx1 hx2 hy1 hy2 : ℤ → ℤ → PowerSeries ℝ}
    (o1 : w.Obeys M L s ((k1 : ℤ) + 1, (l1 : ℤ) + 1) e1 hx1 hy1) (o2 : w.Obeys M L s ((k2 : ℤ) + 1, (l2 : ℤ) + 1) e2 hx2 hy2)
    (x1 : w.ax (k1 + 1) = 1) (y1 : w.ay (l1 + 1) = 1) (x2 : w.ax (k2 + 1) = 1) (y2 : w.ay (l2 + 1) = 1) :
    w.K (k2 + 1) (l2 + 1) * e2 (k1 + 1) (l1 + 1) = w.K (k1 + 1) (l1 + 1) * e1 (k2 + 1) (l2 + 1) := by
  by_cases hs : s = 0
  · subst hs
    rw [o1.quiet hg k2 l2 hk2 hl2, o2.quiet hg k1 l1 hk1 hl1, mul_zero, mul_zero]
  set T : ℕ → ℕ → PowerSeries ℝ := fun k l => (w.ax (k + 1))⁻¹ * (w.ay (l + 1))⁻¹ *
      (e2 (k + 1) (l + 1) * (w.ax (k + 1) * (hy1 (k + 1) (l + 1) - hy1 k (l + 1)) - w.ay (l + 1) * (hx1 (k + 1) (l + 1) - hx1 (k + 1) l))
        - e1 (k + 1) (l + 1) * (w.ax (k + 1) * (hy2 (k + 1) (l + 1) - hy2 k (l + 1)) - w.ay (l + 1) * (hx2 (k + 1) (l + 1) - hx2 (k + 1) l)))
    with hT
  have sum0 : ∑ k ∈ Finset.range M, ∑ l ∈ Finset.range L, T k l = 0 :=
    plane_sum M L e1 e2 hx1 hx2 hy1 hy2 w.ax w.ay (fun i => (w.ax i)⁻¹) (fun j => (w.ay j)⁻¹)
      (fun k hk => PowerSeries.inv_mul_cancel _ (hg.ax k hk)) (fun l hl => PowerSeries.inv_mul_cancel _ (hg.ay l hl))
      o1.l o2.l o1.r o2.r o1.b o2.b o1.t o2.t
      (fun k l hk hl => mul_cross (hg.Dy k l hk hl) (o1.Hy k l hk hl) (o2.Hy k l hk hl))
      (fun k l hk hl => mul_cross (hg.Dx k l hk hl) (o1.Hx k l hk hl) (o2.Hx k l hk hl))
  -- the same at every node: the coefficient times the curl terms, plus the source terms
  have node : ∀ k l : ℕ, k < M → l < L → w.K (k + 1) (l + 1) * (X * T k l) =
      (w.ax (k + 1))⁻¹ * (w.ay (l + 1))⁻¹ * (e1 (k + 1) (l + 1) * (if (((k : ℤ) + 1, (l : ℤ) + 1) : ℤ × ℤ) = ((k2 : ℤ) + 1, (l2 : ℤ) + 1) then s else 0)
        - e2 (k + 1) (l + 1) * (if (((k : ℤ) + 1, (l : ℤ) + 1) : ℤ × ℤ) = ((k1 : ℤ) + 1, (l1 : ℤ) + 1) then s else 0)) := by
    intro k l hk hl
    have a := o1.E k l hk hl
    have b := o2.E k l hk hl
    rw [hT]
    beta_reduce
    linear_combination (w.ax (k + 1))⁻¹ * (w.ay (l + 1))⁻¹ * (e1 (k + 1) (l + 1) * b - e2 (k + 1) (l + 1) * a)
  have sum1 : ∑ k ∈ Finset.range M, ∑ l ∈ Finset.range L, (w.K (k1 + 1) (l1 + 1) * w.K (k2 + 1) (l2 + 1)) * (X * T k l) = 0 := by
    simp only [← Finset.mul_sum, sum0, mul_zero]
  have eqv : ∀ k l k' l' : ℕ, ((((k : ℤ) + 1, (l : ℤ) + 1) : ℤ × ℤ) = ((k' : ℤ) + 1, (l' : ℤ) + 1)) ↔ (k = k' ∧ l = l') := by
    intro k l k' l'; rw [Prod.mk.injEq]; omega
  have term : ∀ k ∈ Finset.range M, ∀ l ∈ Finset.range L, (w.K (k1 + 1) (l1 + 1) * w.K (k2 + 1) (l2 + 1)) * (X * T k l) =
      (if k = k2 then (if l = l2 then w.K (k1 + 1) (l1 + 1) * (e1 (k2 + 1) (l2 + 1) * s) else 0) else 0)
        - (if k = k1 then (if l = l1 then w.K (k2 + 1) (l2 + 1) * (e2 (k1 + 1) (l1 + 1) * s) else 0) else 0) := by
    intro k hk l hl
    have hk := Finset.mem_range.mp hk
    have hl := Finset.mem_range.mp hl
    have h := node k l hk hl
    have one : (1 : PowerSeries ℝ)⁻¹ = 1 := by
      have := PowerSeries.mul_inv_cancel (1 : PowerSeries ℝ) (by simp)
      rwa [one_mul] at this
    simp only [eqv] at h
    by_cases h2 : k = k2 ∧ l = l2
    · obtain ⟨rfl, rfl⟩ := h2
      by_cases h1 : k = k1 ∧ l = l1
      · obtain ⟨rfl, rfl⟩ := h1
        simp only [and_self, if_true, x1, y1, one] at h ⊢
        linear_combination w.K (k + 1) (l + 1) * h
      · have h1' : (if k = k1 then (if l = l1 then w.K (k + 1) (l + 1) * (e2 (k1 + 1) (l1 + 1) * s) else 0) else 0) = 0 := by
          split_ifs with a b
          · exact absurd ⟨a, b⟩ h1
          · rfl
          · rfl
        rw [h1']
        simp only [and_self, if_true, h1, if_false, x2, y2, one] at h ⊢
        linear_combination w.K (k1 + 1) (l1 + 1) * h
    · have h2' : (if k = k2 then (if l = l2 then w.K (k1 + 1) (l1 + 1) * (e1 (k2 + 1) (l2 + 1) * s) else 0) else 0) = 0 := by
        split_ifs with a b
        · exact absurd ⟨a, b⟩ h2
        · rfl
        · rfl
      rw [h2']
      by_cases h1 : k = k1 ∧ l = l1
      · obtain ⟨rfl, rfl⟩ := h1
        simp only [and_self, if_true, h2, if_false, x1, y1, one] at h ⊢
        linear_combination w.K (k2 + 1) (l2 + 1) * h
      · have h1' : (if k = k1 then (if l = l1 then w.K (k2 + 1) (l2 + 1) * (e2 (k1 + 1) (l1 + 1) * s) else 0) else 0) = 0 := by
          split_ifs with a b
          · exact absurd ⟨a, b⟩ h1
          · rfl
          · rfl
        rw [h1', sub_zero]
        simp only [h1, h2, if_false, mul_zero, sub_zero] at h
        have hz : T k l = 0 := by
          by_cases hK : w.K (k + 1) (l + 1) = 0
          · have a := o1.E k l hk hl
            have b := o2.E k l hk hl
            simp only [eqv, h1, h2, if_false, hK, zero_mul, add_zero] at a b
            have a' := (mul_eq_zero.mp a).resolve_left (series_ne (hg.N k l hk hl))
            have b' := (mul_eq_zero.mp b).resolve_left (series_ne (hg.N k l hk hl))
            rw [hT]; beta_reduce
            rw [a', b']; ring
          · exact (mul_eq_zero.mp ((mul_eq_zero.mp h).resolve_left hK)).resolve_left X_ne_zero
        rw [hz, mul_zero, mul_zero]
  rw [Finset.sum_congr rfl fun k hk => Finset.sum_congr rfl fun l hl => term k hk l hl] at sum1
  simp only [Finset.sum_sub_distrib] at sum1
  have pick : ∀ (k' l' : ℕ) (v : PowerSeries ℝ), k' < M → l' < L →
      ∑ k ∈ Finset.range M, ∑ l ∈ Finset.range L, (if k = k' then (if l = l' then v else 0) else 0) = v := by
    intro k' l' v hk hl
    rw [Finset.sum_eq_single k']
    · simp only [if_true]
      rw [Finset.sum_eq_single l'] <;> simp_all
    · intro b _ hb; simp [hb]
    · intro hb; simp [hk] at hb
  rw [pick k2 l2 _ hk2 hl2, pick k1 l1 _ hk1 hl1] at sum1
  refine mul_right_cancel₀ hs ?_
  linear_combination -sum1

end Qbox
