import Verif.Spec.SourceSpec

/-! # `pulse()` meets its specification -/

namespace Qbox
open Scalar Spec

set_option linter.unusedSectionVars false

variable {K : Type} [Scalar K]

/-- The nodes visited by the loop of a line source are those of the half-open segment. -/
theorem onSeg_iff (a b d : V2 ℤ) (n : ℕ) (hn : (n : ℤ) = |a.x - b.x| + |a.y - b.y|)
    (h : (a.x = b.x ∧ a.y ≠ b.y) ∨ (a.x ≠ b.x ∧ a.y = b.y)) (hb : b = ⟨a.x + n * d.x, a.y + n * d.y⟩)
    (hd : |d.x| + |d.y| = 1) (x y : ℤ) :
    (∃ k : ℕ, k < n ∧ x = a.x + k * d.x ∧ y = a.y + k * d.y) ↔ OnSeg a b ⟨x, y⟩ := by
  have hbx : b.x = a.x + n * d.x := congrArg V2.x hb
  have hby : b.y = a.y + n * d.y := congrArg V2.y hb
  unfold OnSeg
  have hn0 : (n : ℤ) ≠ 0 := by
    rcases h with ⟨h1, h2⟩ | ⟨h1, h2⟩
    · have : |a.y - b.y| ≠ 0 := abs_ne_zero.mpr (sub_ne_zero.mpr h2)
      have h3 := abs_nonneg (a.x - b.x)
      have h4 := abs_nonneg (a.y - b.y)
      omega
    · have : |a.x - b.x| ≠ 0 := abs_ne_zero.mpr (sub_ne_zero.mpr h1)
      have h3 := abs_nonneg (a.x - b.x)
      have h4 := abs_nonneg (a.y - b.y)
      omega
  rcases h with ⟨h1, h2⟩ | ⟨h1, h2⟩
  · have hdx : d.x = 0 := by
      have : (n : ℤ) * d.x = 0 := by omega
      rcases mul_eq_zero.mp this with h | h
      · exact absurd h hn0
      · exact h
    rw [hdx] at hd
    simp only [abs_zero, zero_add] at hd
    rcases (abs_eq (by norm_num : (0 : ℤ) ≤ 1)).mp hd with e | e
    · rw [e] at hby
      constructor
      · rintro ⟨k, hk, e1, e2⟩
        rw [hdx] at e1; rw [e] at e2
        refine ⟨?_, Or.inl ⟨h1, ?_, ?_, ?_⟩⟩
        · intro hp
          have := congrArg V2.y hp
          simp only at this
          omega
        · simp only; omega
        · simp only; omega
        · simp only; omega
      · rintro ⟨hp, hc⟩
        have hp' : ¬ (x = b.x ∧ y = b.y) := fun hh => hp (by ext <;> simp [hh.1, hh.2])
        simp only at hc
        have hcc : x = a.x ∧ min a.y b.y ≤ y ∧ y ≤ max a.y b.y := by
          rcases hc with hc | hc
          · exact hc.2
          · exact absurd hc.1 h2
        refine ⟨(y - a.y).toNat, by omega, ?_, ?_⟩
        · rw [hdx]; omega
        · rw [e]; omega
    · rw [e] at hby
      constructor
      · rintro ⟨k, hk, e1, e2⟩
        rw [hdx] at e1; rw [e] at e2
        refine ⟨?_, Or.inl ⟨h1, ?_, ?_, ?_⟩⟩
        · intro hp
          have := congrArg V2.y hp
          simp only at this
          omega
        · simp only; omega
        · simp only; omega
        · simp only; omega
      · rintro ⟨hp, hc⟩
        have hp' : ¬ (x = b.x ∧ y = b.y) := fun hh => hp (by ext <;> simp [hh.1, hh.2])
        simp only at hc
        have hcc : x = a.x ∧ min a.y b.y ≤ y ∧ y ≤ max a.y b.y := by
          rcases hc with hc | hc
          · exact hc.2
          · exact absurd hc.1 h2
        refine ⟨(a.y - y).toNat, by omega, ?_, ?_⟩
        · rw [hdx]; omega
        · rw [e]; omega
  · have hdy : d.y = 0 := by
      have : (n : ℤ) * d.y = 0 := by omega
      rcases mul_eq_zero.mp this with h | h
      · exact absurd h hn0
      · exact h
    rw [hdy] at hd
    simp only [abs_zero, add_zero] at hd
    rcases (abs_eq (by norm_num : (0 : ℤ) ≤ 1)).mp hd with e | e
    · rw [e] at hbx
      constructor
      · rintro ⟨k, hk, e1, e2⟩
        rw [hdy] at e2; rw [e] at e1
        refine ⟨?_, Or.inr ⟨h2, ?_, ?_, ?_⟩⟩
        · intro hp
          have := congrArg V2.x hp
          simp only at this
          omega
        · simp only; omega
        · simp only; omega
        · simp only; omega
      · rintro ⟨hp, hc⟩
        have hp' : ¬ (x = b.x ∧ y = b.y) := fun hh => hp (by ext <;> simp [hh.1, hh.2])
        simp only at hc
        have hcc : y = a.y ∧ min a.x b.x ≤ x ∧ x ≤ max a.x b.x := by
          rcases hc with hc | hc
          · exact absurd hc.1 h1
          · exact hc.2
        refine ⟨(x - a.x).toNat, by omega, ?_, ?_⟩
        · rw [e]; omega
        · rw [hdy]; omega
    · rw [e] at hbx
      constructor
      · rintro ⟨k, hk, e1, e2⟩
        rw [hdy] at e2; rw [e] at e1
        refine ⟨?_, Or.inr ⟨h2, ?_, ?_, ?_⟩⟩
        · intro hp
          have := congrArg V2.x hp
          simp only at this
          omega
        · simp only; omega
        · simp only; omega
        · simp only; omega
      · rintro ⟨hp, hc⟩
        have hp' : ¬ (x = b.x ∧ y = b.y) := fun hh => hp (by ext <;> simp [hh.1, hh.2])
        simp only at hc
        have hcc : y = a.y ∧ min a.x b.x ≤ x ∧ x ≤ max a.x b.x := by
          rcases hc with hc | hc
          · exact absurd hc.1 h1
          · exact hc.2
        refine ⟨(a.x - x).toNat, by omega, ?_, ?_⟩
        · rw [e]; omega
        · rw [hdy]; omega

/-- The material coefficients of two field sets agree. -/
def Flds.SameCoef (f f' : Flds K) : Prop := f'.Ca = f.Ca ∧ f'.Cb = f.Cb ∧ f'.Da = f.Da ∧ f'.Db = f.Db

theorem Flds.setComp_coef (f : Flds K) (C : Fields) (a : Tensor K) : f.SameCoef (f.setComp C a) := by
  cases C <;> exact ⟨rfl, rfl, rfl, rfl⟩

open Classical in
/-- A usable source adds its profile's value at the driven nodes and changes nothing else. -/
theorem Source.pulse_spec (g : Grid K) (t : K) (s : Source K) (f : Flds K) (hs : Fits g s) (hf : f.Dims g.Nx g.Ny) :
    ∃ f' tp', s.pulse g t f = ({ s with tp := tp' }, .ok f') ∧ s.tp.response t = .ok (s.tp.resp t, tp') ∧
      f'.Dims g.Nx g.Ny ∧ f.SameCoef f' ∧
      ∀ C : Fields, C.IsComp → ∀ x y, (f'.comp C).val x y =
        if Drives g s C ⟨x, y⟩ then (f.comp C).val x y + s.tp.resp t else (f.comp C).val x y := by
  obtain ⟨tp', htp, -⟩ := TimeProfile.response_ok s.tp t
  unfold Source.pulse
  unfold Fits at hs
  unfold Drives
  cases hk : s.kind with
  | point C q =>
    rw [hk] at hs
    obtain ⟨hC, h1, h2, h3, h4⟩ := hs
    simp only [htp]
    rw [Flds.addAt_in hf hC h1 h2 h3 h4]
    refine ⟨_, tp', rfl, rfl, hf.setComp C (hf.comp C), f.setComp_coef C _, ?_⟩
    intro C' hC' x y
    rw [Flds.comp_setComp hC hC']
    by_cases hCC : C' = C
    · subst hCC
      simp only [if_true, true_and, Tensor.plusAt, Tensor.setv_val]
      by_cases hxy : x = (g.toGrid q).x ∧ y = (g.toGrid q).y
      · have : (⟨x, y⟩ : V2 ℤ) = g.toGrid q := by ext <;> simp [hxy.1, hxy.2]
        rw [if_pos hxy, if_pos this, hxy.1, hxy.2]
      · have : ¬ (⟨x, y⟩ : V2 ℤ) = g.toGrid q := fun h => hxy ⟨congrArg V2.x h, congrArg V2.y h⟩
        rw [if_neg hxy, if_neg this]
    · simp [hCC]
  | line C surf =>
    rw [hk] at hs
    obtain ⟨hC, hax, hin⟩ := hs
    simp only
    obtain ⟨is, h1, ha, hb, -, hdim, hlen, hbe, htan⟩ :=
      (Props.C05_isurface_outcome (g.toGrid surf.a) (g.toGrid surf.b) surf.sg).2.2 hax
    have hg : g.toGridS surf = .ok is := h1
    rw [hg]
    simp only [htp]
    have hdx : 0 ≤ is.dim.x := by rw [hdim]; exact abs_nonneg _
    have hdy : 0 ≤ is.dim.y := by rw [hdim]; exact abs_nonneg _
    obtain ⟨n, hn⟩ : ∃ n : ℕ, (n : ℤ) = is.dim.x + is.dim.y := ⟨(is.dim.x + is.dim.y).toNat, by omega⟩
    have hfuel : (is.dim.x + is.dim.y + 1).toNat = n + 1 := by omega
    have hn' : (n : ℤ) = |(g.toGrid surf.a).x - (g.toGrid surf.b).x| + |(g.toGrid surf.a).y - (g.toGrid surf.b).y| := by
      rw [hn, hdim]
    have hb' : g.toGrid surf.b = ⟨(g.toGrid surf.a).x + n * is.tangent.x, (g.toGrid surf.a).y + n * is.tangent.y⟩ := by
      rw [hn', ← hlen]; exact hbe
    have hseg := onSeg_iff (g.toGrid surf.a) (g.toGrid surf.b) is.tangent n hn' hax hb' htan
    have htne : is.tangent.x ≠ 0 ∨ is.tangent.y ≠ 0 := by
      by_contra hcon
      push_neg at hcon
      rw [hcon.1, hcon.2] at htan
      simp at htan
    have hloop := lineLoop_closed (Nx := g.Nx) (Ny := g.Ny) hC is.tangent htne (s.tp.resp t) n (g.toGrid surf.a) f hf
      (fun k hk => hin _ ((hseg _ _).mp ⟨k, hk, rfl, rfl⟩))
    rw [← hb'] at hloop
    rw [hfuel, ha, hb, hloop]
    have hd := Tensor.plusLine_dim is.tangent (s.tp.resp t) n (f.comp C) (g.toGrid surf.a)
    refine ⟨_, tp', rfl, rfl, hf.setComp C ⟨hd.1.trans (hf.comp C).1, hd.2.trans (hf.comp C).2⟩, f.setComp_coef C _, ?_⟩
    intro C' hC' x y
    rw [Flds.comp_setComp hC hC']
    by_cases hCC : C' = C
    · subst hCC
      simp only [if_true, true_and]
      have hv := Tensor.plusLine_val is.tangent htne (s.tp.resp t) n (f.comp C') (g.toGrid surf.a) x y
      rw [hseg] at hv
      by_cases hx : OnSeg (g.toGrid surf.a) (g.toGrid surf.b) ⟨x, y⟩
      · rw [if_pos hx, hv.1 hx]
      · rw [if_neg hx, hv.2 hx]
    · simp [hCC]

end Qbox
