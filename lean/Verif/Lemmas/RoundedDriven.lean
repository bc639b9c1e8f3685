import Verif.Lemmas.RoundedPulse

/-! # A driven run with rounding beside one without -/

namespace Qbox
open Scalar Spec Props

section
variable {A : Arith}

theorem mishear_nonneg : ∀ (srcs : List (Source (Rnd A))) (srcs' : List (Source ℝ)) (t : Rnd A) (t' : ℝ), 0 ≤ mishear srcs srcs' t t'
  | [], _, _, _ => by unfold mishear; exact le_rfl
  | _ :: _, [], _, _ => by unfold mishear; exact le_rfl
  | s :: l, s' :: l', t, t' => by
    unfold mishear
    have := mishear_nonneg l l' t t'
    positivity

theorem mishear_same {s s1 : List (Source (Rnd A))} {r r1 : List (Source ℝ)} (h : List.Forall₂ SameSrc s s1) (k : List.Forall₂ SameSrc r r1) :
    mishear s1 r1 = mishear s r := by
  funext t t'
  induction h generalizing r r1 with
  | nil => unfold mishear; rfl
  | cons a _ ih =>
    cases k with
    | nil => unfold mishear; rfl
    | cons b kt => unfold mishear; rw [ih kt, a.2.2, b.2.2]

theorem misheard_same {s s1 : List (Source (Rnd A))} {r r1 : List (Source ℝ)} (h : List.Forall₂ SameSrc s s1) (k : List.Forall₂ SameSrc r r1) (dt : Rnd A) (dt' : ℝ) :
    ∀ (n : ℕ) (t : Rnd A) (t' : ℝ), misheard s1 r1 dt dt' t t' n = misheard s r dt dt' t t' n
  | 0, _, _ => rfl
  | n + 1, t, t' => by unfold misheard; rw [misheard_same h k dt dt' n, mishear_same h k]

theorem loud_near {g : Grid (Rnd A)} {srcs : List (Source (Rnd A))} {srcs' : List (Source ℝ)} (h : List.Forall₂ (SameSource g) srcs srcs') (t : Rnd A) (t' : ℝ) :
    roundLoud t srcs ≤ loudness srcs' t' + mishear srcs srcs' t t' := by
  induction h with
  | nil => simp [roundLoud, loudness, mishear]
  | @cons s s' l l' _ _ ih =>
    unfold mishear
    unfold roundLoud loudness at *
    rw [List.map_cons, List.map_cons, List.sum_cons, List.sum_cons]
    have := abs_add_le ((s.tp.resp t).val - s'.tp.resp t') (s'.tp.resp t')
    rw [sub_add_cancel] at this
    linarith

theorem contrib_near {g : Grid (Rnd A)} {srcs : List (Source (Rnd A))} {srcs' : List (Source ℝ)} (h : List.Forall₂ (SameSource g) srcs srcs') (t : Rnd A) (t' : ℝ)
    (C : Fields) (i j : ℤ) : |roundContrib g t srcs C ⟨i, j⟩ - totalContrib (exactGrid g) t' srcs' C ⟨i, j⟩| ≤ mishear srcs srcs' t t' := by
  induction h with
  | nil => simp [roundContrib, totalContrib, mishear]
  | @cons s s' l l' hd _ ih =>
    unfold mishear
    unfold roundContrib totalContrib at *
    rw [List.map_cons, List.map_cons, List.sum_cons, List.sum_cons, add_sub_add_comm]
    refine (abs_add_le _ _).trans (add_le_add ?_ ih)
    unfold contrib
    by_cases hb : Drives g s C ⟨i, j⟩
    · rw [if_pos hb, if_pos ((hd C i j).mpr hb)]
    · rw [if_neg hb, if_neg (fun k => hb ((hd C i j).mp k)), sub_self, abs_zero]
      exact abs_nonneg _

/-- The sources with rounding, compared with those without. -/
theorem pulse_near {g : Grid (Rnd A)} {srcs : List (Source (Rnd A))} {srcs' : List (Source ℝ)} (h : List.Forall₂ (SameSource g) srcs srcs')
    (few : srcs.length * A.u ≤ 1 / 1000) (t : Rnd A) (t' : ℝ) {f : Flds (Rnd A)} (hs : ∀ s ∈ srcs, Fits g s) (hf : f.Dims g.Nx g.Ny) :
    ∃ l f', pulseAll g t srcs f = .ok (l, f') ∧ f'.Dims g.Nx g.Ny ∧ f.SameCoef f' ∧ List.Forall₂ SameSrc srcs l ∧
      ∀ C : Fields, C.IsComp → ∀ x y,
        ((∀ s ∈ srcs, ¬ Drives g s C ⟨x, y⟩) → (f'.comp C).val x y = (f.comp C).val x y) ∧
        |((f'.comp C).val x y).val - (((f.comp C).val x y).val + totalContrib (exactGrid g) t' srcs' C ⟨x, y⟩)| ≤
          2 * (srcs.length * A.u) * (|((f.comp C).val x y).val| + (loudness srcs' t' + mishear srcs srcs' t t')) + 3 * srcs.length * A.tiny + mishear srcs srcs' t t' := by
  obtain ⟨l, f', h1, h2, h3, h4, h5⟩ := pulseAll_rnd g t srcs f hs hf
  refine ⟨l, f', h1, h2, h3, h4, fun C hC x y => ⟨(h5 C hC x y).1, ?_⟩⟩
  have k := (h5 C hC x y).2
  have u0 := A.u_nonneg
  have t0 := A.tiny_nonneg
  obtain ⟨b1, b2⟩ := pow_bounds u0 (n := srcs.length) (by linarith)
  have c1 := contrib_near h t t' C x y
  have c2 := loud_near h t t'
  have L0 := roundLoud_nonneg t srcs
  have a0 := abs_nonneg ((f.comp C).val x y).val
  have k0 := Nat.cast_nonneg (α := ℝ) srcs.length
  obtain ⟨z, hz⟩ : ∃ z, z = ((f'.comp C).val x y).val := ⟨_, rfl⟩
  obtain ⟨a, ha⟩ : ∃ a, a = ((f.comp C).val x y).val := ⟨_, rfl⟩
  rw [← hz, ← ha] at k ⊢
  rw [← ha] at a0
  have tri := abs_add_le (z - (a + roundContrib g t srcs C ⟨x, y⟩)) (roundContrib g t srcs C ⟨x, y⟩ - totalContrib (exactGrid g) t' srcs' C ⟨x, y⟩)
  rw [show z - (a + roundContrib g t srcs C ⟨x, y⟩) + (roundContrib g t srcs C ⟨x, y⟩ - totalContrib (exactGrid g) t' srcs' C ⟨x, y⟩) =
    z - (a + totalContrib (exactGrid g) t' srcs' C ⟨x, y⟩) by ring] at tri
  have m1 := mul_le_mul_of_nonneg_right b1 (by linarith : 0 ≤ |a| + roundLoud t srcs)
  have m2 : (srcs.length : ℝ) * (1 + A.u) ^ srcs.length * A.tiny ≤ 3 * srcs.length * A.tiny := by
    have := mul_le_mul_of_nonneg_right (mul_le_mul_of_nonneg_left b2 k0) t0
    linarith
  have m3 : 2 * (A.u * srcs.length) * (|a| + roundLoud t srcs) ≤ 2 * (srcs.length * A.u) * (|a| + (loudness srcs' t' + mishear srcs srcs' t t')) := by
    rw [mul_comm A.u]
    exact mul_le_mul_of_nonneg_left (by linarith) (by positivity)
  linarith

end

/-- One step of two fields, both of which obey the laws up to given additions: how much their distance grows. -/
theorem kicks_step {g : Grid ℝ} (hg : Lawful g) {med : ℤ → ℤ → Simple ℝ} {R : Box} (h1 : R.l ≤ R.r + 1) (h2 : R.b ≤ R.t + 1) {epsMax : ℝ}
    (he : ∀ i j, R.Mem i j → 1 ≤ (med i j).eps ∧ (med i j).eps ≤ epsMax) (hs : ∀ i j, R.Mem i j → 0 ≤ (med i j).conduc) {f f' s s' d d' : Flds ℝ}
    {qE qX qY pE pX pY : ℤ → ℤ → ℝ} {D : ℝ} (lf : RoundOff g med R f f' qE qX qY) (ls : RoundOff g med R s s' pE pX pY)
    (h0 : 1 ≤ epsMax) (hD : 0 ≤ D) (bd : g.dx ^ 2 * R.sum (fun i j => (pE i j - qE i j) ^ 2 + (pX i j - qX i j) ^ 2 + (pY i j - qY i j) ^ 2) ≤ D ^ 2)
    (m : Mix 1 (-1) f s d) (m' : Mix 1 (-1) f' s' d') (q : FrameQuiet d R) (q' : FrameQuiet d' R) :
    Real.sqrt (energy g med d' R) ≤ Real.sqrt (energy g med d R) + Real.sqrt ((epsMax + 1) / 2) * D := by
  -- the difference obeys the laws up to the difference of the additions; compare it with the zero field
  have hx := hg.dx
  set z : Flds ℝ := { f with Ez := f.Ez.setv fun _ _ => 0, Hx := f.Hx.setv fun _ _ => 0, Hy := f.Hy.setv fun _ _ => 0 } with hz
  have zE : ∀ i j, z.Ez.val i j = 0 := fun _ _ => rfl
  have zX : ∀ i j, z.Hx.val i j = 0 := fun _ _ => rfl
  have zY : ∀ i j, z.Hy.val i j = 0 := fun _ _ => rfl
  have lz : Laws g med R z z (fun _ _ => 0) (fun _ _ => 0) (fun _ _ => 0) := by
    refine ⟨fun i j h => ?_, fun i j h => ?_, fun i j h => ?_⟩
    · unfold ConductiveLaw curlH
      simp only [zE, zX, zY]
      ring
    · simp only [zE, zX]; ring
    · simp only [zE, zY]; ring
  have ld : RoundOff g med R d d' (fun i j => qE i j - pE i j) (fun i j => qX i j - pX i j) (fun i j => qY i j - pY i j) := by
    refine ⟨fun i j h => ?_, fun i j h => ?_, fun i j h => ?_, fun i j h => by beta_reduce; rw [lf.out i j h, ls.out i j h, sub_zero]⟩
    · have a1 := lf.ampere i j h
      have a2 := ls.ampere i j h
      unfold ConductiveLaw curlH at a1 a2 ⊢
      rw [m'.Ez, m.Ez]
      simp only [m.Hx, m.Hy]
      have e : (med i j).eps * ((1 * f'.Ez.val i j + -1 * s'.Ez.val i j - (qE i j - pE i j)) - (1 * f.Ez.val i j + -1 * s.Ez.val i j)) / g.dt +
          (med i j).conduc * ((1 * f'.Ez.val i j + -1 * s'.Ez.val i j - (qE i j - pE i j)) + (1 * f.Ez.val i j + -1 * s.Ez.val i j)) / 2 =
          ((med i j).eps * ((f'.Ez.val i j - qE i j) - f.Ez.val i j) / g.dt + (med i j).conduc * ((f'.Ez.val i j - qE i j) + f.Ez.val i j) / 2) -
          ((med i j).eps * ((s'.Ez.val i j - pE i j) - s.Ez.val i j) / g.dt + (med i j).conduc * ((s'.Ez.val i j - pE i j) + s.Ez.val i j) / 2) := by ring
      rw [e, a1, a2]
      ring
    · rw [m'.Hx, m.Hx, lf.faradayX i j h, ls.faradayX i j h]
      simp only [m'.Ez]
      ring
    · rw [m'.Hy, m.Hy, lf.faradayY i j h, ls.faradayY i j h]
      simp only [m'.Ez]
      ring
  obtain ⟨w, mw⟩ := mix_exists 1 (-1) z d
  obtain ⟨w', mw'⟩ := mix_exists 1 (-1) z d'
  have qz : FrameQuiet z R := ⟨fun _ => rfl, fun _ => rfl, fun _ => rfl, fun _ => rfl⟩
  have k := kick_step hg h1 h2 he hs lz ld h0 hD (by
    refine le_trans (le_of_eq ?_) bd
    congr 1
    refine R.sum_congr fun i j _ => ?_
    ring) mw mw' (mw.quiet qz q) (mw'.quiet qz q')
  have en : ∀ {v d : Flds ℝ}, Mix 1 (-1) z d v → energy g med v R = energy g med d R := by
    intro v d mv
    unfold energy hxBack hyBack
    simp only [mv.Ez, mv.Hx, mv.Hy, zE, zX, zY]
    congr 1
    refine R.sum_congr fun i j _ => ?_
    ring
  rwa [en mw, en mw'] at k

end Qbox
