import Verif.Spec.PlaneWaveSpec
import Verif.Props.EnergyProps

/-! # Solutions of the difference equations in a shrinking window -/

namespace Qbox.Props
open Qbox Scalar Spec

theorem shrink_one {R : Box} {i j : ℤ} (h : (R.shrink 1).Mem i j) : R.Mem i j ∧ R.Mem (i - 1) j ∧ R.Mem i (j - 1) ∧ R.Mem (i + 1) j ∧ R.Mem i (j + 1) := by
  unfold Box.Mem Box.shrink at *
  simp only at *
  push_cast at h
  omega

theorem shrink_mem {R : Box} {n : ℕ} {i j : ℤ} (h : (R.shrink n).Mem i j) : R.Mem i j := by
  unfold Box.Mem Box.shrink at *
  simp only at *
  omega

theorem shrink_shrink (R : Box) (n : ℕ) : (R.shrink 1).shrink n = R.shrink (n + 1) := by
  unfold Box.shrink
  simp only [Box.mk.injEq]
  push_cast
  refine ⟨?_, ?_, ?_, ?_⟩ <;> ring

theorem passive_mono {c : Core ℝ} {med : ℤ → ℤ → Simple ℝ} {R R' : Box} (h : Passive c med R) (s : ∀ i j, R'.Mem i j → R.Mem i j) : Passive c med R' :=
  ⟨fun i j m => h.beyond i j (s i j m), fun i j m => h.medium i j (s i j m), fun i j m => h.eps i j (s i j m), fun i j m => h.conduc i j (s i j m), h.lorentz⟩

theorem solves_mono {g : Grid ℝ} {med : ℤ → ℤ → Simple ℝ} {R R' : Box} {E X Y : ℕ → ℤ → ℤ → ℝ} (h : SolvesGrid g med R E X Y)
    (s : ∀ i j, R'.Mem i j → R.Mem i j) : SolvesGrid g med R' E X Y :=
  ⟨fun n i j m => h.ampere n i j (s i j m), fun n i j m => h.faradayX n i j (s i j m), fun n i j m => h.faradayY n i j (s i j m)⟩

/-- In a passive rectangle beyond the layer that nothing drives, the fields that start as a solution of the difference equations stay this solution, except
at the nodes that what is outside has reached. -/
theorem window_run (n : ℕ) {c : Core ℝ} (hc : c.Std) (srcs : List (Source ℝ)) (hf : ∀ s ∈ srcs, Fits c.g s) {med : ℤ → ℤ → Simple ℝ} {R : Box}
    (hp : Passive c med R) (ht : c.tfsf = none) (hs : ∀ s ∈ srcs, Spec.Apart c.g R.Mem s) {E X Y : ℕ → ℤ → ℤ → ℝ} (sol : SolvesGrid c.g med R E X Y)
    (st : Has (E 0) (X 0) (Y 0) c.f R) :
    ∃ c' srcs', c.run n srcs = .ok (c', srcs') ∧ (srcs = [] → srcs' = []) ∧ Has (E n) (X n) (Y n) c'.f (R.shrink n) := by
  induction n generalizing c srcs R E X Y with
  | zero =>
    refine ⟨c, srcs, rfl, id, ?_⟩
    exact ⟨fun i j h => st.Ez i j (shrink_mem h), fun i j h => st.Hx i j (shrink_mem h), fun i j h => st.Hy i j (shrink_mem h)⟩
  | succ n ih =>
    obtain ⟨c1, l1, E2, E3, E4, f, u, S⟩ := Core.update_step hc srcs hf
    obtain ⟨p1, t1, a1, laws⟩ := passive_step hc S hp ht hs
    have hE : ∀ i j, R.Mem i j → R.Mem (i - 1) j → R.Mem i (j - 1) → c1.f.Ez.val i j = E 1 i j := by
      intro i j h hl hb
      have l := (laws i j h).1
      have k := sol.ampere 0 i j h
      rw [(C24_unique (med i j) c.g.dt hc.dt_pos (by linarith [hp.eps i j h]) (hp.conduc i j h)).1] at l k
      unfold curlH at l
      rw [st.Ez i j h, st.Hy i j h, st.Hy _ _ hl, st.Hx i j h, st.Hx _ _ hb] at l
      rw [l, k]
    have s1 : ∀ i j, (R.shrink 1).Mem i j → R.Mem i j := fun i j h => (shrink_one h).1
    have st1 : Has (E 1) (X 1) (Y 1) c1.f (R.shrink 1) := by
      refine ⟨fun i j h => ?_, fun i j h => ?_, fun i j h => ?_⟩
      · obtain ⟨m0, ml, mb, -, -⟩ := shrink_one h
        exact hE i j m0 ml mb
      · obtain ⟨m0, ml, mb, -, mt⟩ := shrink_one h
        rw [(laws i j m0).2.1, st.Hx i j m0, hE i j m0 ml mb, hE i (j + 1) mt (by
          have := h; unfold Box.Mem Box.shrink at *; simp only at *; push_cast at *; omega) (by rw [add_sub_cancel_right]; exact m0)]
        exact (sol.faradayX 0 i j m0).symm
      · obtain ⟨m0, ml, mb, mr, -⟩ := shrink_one h
        rw [(laws i j m0).2.2, st.Hy i j m0, hE i j m0 ml mb, hE (i + 1) j mr (by rw [add_sub_cancel_right]; exact m0) (by
          have := h; unfold Box.Mem Box.shrink at *; simp only at *; push_cast at *; omega)]
        exact (sol.faradayY 0 i j m0).symm
    obtain ⟨c2, l2, v, z, w⟩ := ih S.std l1 S.fits (passive_mono p1 s1) t1 (fun s h C i j m => a1 s h C i j (s1 i j m)) (E := fun n => E (n + 1)) (X := fun n => X (n + 1))
      (Y := fun n => Y (n + 1)) (by
        rw [S.g]
        exact ⟨fun n i j m => sol.ampere (n + 1) i j (s1 i j m), fun n i j m => sol.faradayX (n + 1) i j (s1 i j m),
          fun n i j m => sol.faradayY (n + 1) i j (s1 i j m)⟩) st1
    refine ⟨c2, l2, ?_, fun h => z ?_, ?_⟩
    · unfold Core.run
      rw [u]
      exact v
    · subst h
      have := S.same
      cases this
      rfl
    · rw [shrink_shrink] at w
      exact w

end Qbox.Props
