import Verif.Lemmas.LocalStep
import Verif.Props.LinearProps

/-! # Finite propagation speed (C16) -/

namespace Qbox.Props
open Qbox Scalar Spec

variable {K : Type} [Scalar K]

theorem Ball.mono {i0 j0 r s : ℤ} (h : r ≤ s) {i j : ℤ} (hb : Ball i0 j0 r i j) : Ball i0 j0 s i j := by
  unfold Ball at *; omega

/-- **C16** In any arithmetic, one update spreads information by at most one cell: two simulations of the same structure that
agree within distance `r + n` of a node, and whose sources differ only by sources that drive no node within that distance,
agree within distance `r` after `n` updates; neither run faults. The states are any two well-formed ones, so dispersive
materials, the absorbing layer and a total-field source are included. -/
theorem C16_locality (i0 j0 r : ℤ) : ∀ (n : ℕ) (c d : Core K) (_ : c.WF) (_ : d.WF) (_ : c.g.Wide) (_ : Agree (Ball i0 j0 (r + n)) c d)
    (l l' : List (Source K)) (_ : SrcAgree c.g (Ball i0 j0 (r + n)) l l') (_ : ∀ s ∈ l, Fits c.g s) (_ : ∀ s ∈ l', Fits c.g s),
    ∃ c' k d' k', c.run n l = .ok (c', k) ∧ d.run n l' = .ok (d', k') ∧ Agree (Ball i0 j0 r) c' d'
  | 0, c, d, _, _, _, ha, l, l', _, _, _ => ⟨c, l, d, l', rfl, rfl, ha.mono fun i j h => Ball.mono (by simp) h⟩
  | n + 1, c, d, hc, hd, hg, ha, l, l', hl, fl, fl' => by
    have e : r + ((n + 1 : ℕ) : ℤ) = r + n + 1 := by push_cast; ring
    rw [e] at ha hl
    obtain ⟨c1, d1, k, k', u1, u1', a1, w1, w1', g1, s1, f1, f1'⟩ := Core.update_local
      (S2 := Ball i0 j0 (r + n + 1))
      (S1 := fun i j => (i0 - (r + n) ≤ i ∧ i ≤ i0 + (r + n) + 1) ∧ (j0 - (r + n) ≤ j ∧ j ≤ j0 + (r + n) + 1))
      (S := Ball i0 j0 (r + n)) (by intro i j h; unfold Ball; omega) (by intro i j h; unfold Ball; omega)
      (by intro i j h; unfold Ball; omega) (by intro i j h; unfold Ball at h; omega) (by intro i j h; unfold Ball at h; omega)
      (by intro i j h; unfold Ball at h; omega) hc hd hg ha (hl.mono (by intro i j h; unfold Ball; omega)) fl fl'
    obtain ⟨c2, m, d2, m', v1, v2, a2⟩ := C16_locality i0 j0 r n c1 d1 w1 w1' (by rw [g1]; exact hg) a1 k k'
      (by rw [g1]; exact s1.mono (by intro i j h; unfold Ball at h; omega)) (by rw [g1]; exact f1) (by rw [g1]; exact f1')
    exact ⟨c2, m, d2, m', by unfold Core.run; rw [u1]; exact v1, by unfold Core.run; rw [u1']; exact v2, a2⟩

theorem Agree.refl (S : ℤ → ℤ → Prop) (c : Core K) : Agree S c c where
  g := rfl
  t := rfl
  sc := rfl
  par := rfl
  co := rfl
  tfsf := rfl
  f := ⟨fun _ _ _ => rfl, fun _ _ _ => rfl, fun _ _ _ => rfl, fun _ _ _ => rfl, fun _ _ _ => rfl, fun _ _ _ => rfl, fun _ _ _ => rfl⟩
  psi := ⟨fun _ _ _ => rfl, fun _ _ _ => rfl, fun _ _ _ => rfl, fun _ _ _ => rfl, fun _ _ _ => rfl, fun _ _ _ => rfl, fun _ _ _ => rfl,
    fun _ _ _ => rfl⟩
  prevE := by cases c.prevE with | none => trivial | some a => exact fun _ _ _ => rfl
  prev2E := by cases c.prev2E with | none => trivial | some a => exact fun _ _ _ => rfl
  debye := List.forall₂_same.mpr fun _ _ => ⟨rfl, rfl, rfl, fun _ _ _ _ => rfl, fun _ _ _ _ => rfl⟩
  drude := List.forall₂_same.mpr fun _ _ => ⟨rfl, rfl, rfl, fun _ _ _ _ => rfl, fun _ _ _ _ => rfl⟩
  lorentz := List.forall₂_same.mpr fun _ _ => ⟨rfl, rfl, rfl, fun _ _ _ _ => rfl, fun _ _ _ _ => rfl, fun _ _ _ _ => rfl⟩

theorem SrcAgree.apart {g : Grid K} {S : ℤ → ℤ → Prop} : ∀ {l : List (Source K)}, (∀ s ∈ l, Apart g S s) → SrcAgree g S l []
  | [], _ => .nil
  | s :: l, h => .left s (h s (by simp)) (SrcAgree.apart fun s hs => h s (by simp [hs]))

/-- **C16** for a silent simulation in exact arithmetic: the field of sources that drive no node within distance `r + n` has not
arrived within distance `r` after `n` updates. -/
theorem C16_front (i0 j0 r : ℤ) (n : ℕ) (c : Core ℝ) (hc : c.Std) (hz : Silent c) (l : List (Source ℝ)) (fl : ∀ s ∈ l, Fits c.g s)
    (hl : ∀ s ∈ l, Apart c.g (Ball i0 j0 (r + n)) s) :
    ∃ c' k, c.run n l = .ok (c', k) ∧ ∀ i j, Ball i0 j0 r i j → c'.f.Ez.val i j = 0 ∧ c'.f.Hx.val i j = 0 ∧ c'.f.Hy.val i j = 0 := by
  obtain ⟨c', k, d', k', h1, h2, ha⟩ := C16_locality i0 j0 r n c c hc.wf hc.wf hc.wide (Agree.refl _ c) l [] (SrcAgree.apart hl) fl (by simp)
  obtain ⟨e, h3, -, hz'⟩ := C17_silence n c hc hz
  rw [h2] at h3
  cases h3
  refine ⟨c', k, h1, fun i j hb => ⟨?_, ?_, ?_⟩⟩
  · rw [ha.f.Ez i j hb]; exact hz'.Ez i j
  · rw [ha.f.Hx i j hb]; exact hz'.Hx i j
  · rw [ha.f.Hy i j hb]; exact hz'.Hy i j

/-- A non-trivial case of C16: on the example grid, a source at node `(15, 10)` against no source at all, and any initial field
that differs only to the right of column 10, seen from node `(4, 9)` after 6 steps. -/
example (u v : ℤ → ℤ → ℝ) (h : ∀ i j, i ≤ 10 → u i j = v i j) : ∃ c : Core ℝ, ∃ s : Source ℝ, c.g = gEx ∧ Fits gEx s ∧
    Drives gEx s .Ez ⟨15, 10⟩ ∧ (withEz c u).WF ∧ (withEz c v).WF ∧ c.g.Wide ∧ Agree (Ball 4 9 (0 + (6 : ℕ))) (withEz c u) (withEz c v) ∧
    SrcAgree gEx (Ball 4 9 (0 + (6 : ℕ))) [s] [] := by
  obtain ⟨c, -, hs, hg, hz⟩ := gEx_std
  have hn : gEx.toGrid (⟨15, 10⟩ : V2 ℝ) = ⟨15, 10⟩ := by
    have h1 : roundAway (15 : ℝ) = 15 := by exact_mod_cast roundAway_int 15
    have h2 : roundAway (10 : ℝ) = 10 := by exact_mod_cast roundAway_int 10
    simp [Grid.toGrid, gEx, Grid.make, h1, h2]
  refine ⟨c, ⟨"a", .point .Ez ⟨15, 10⟩, .continuous 1⟩, hg, ?_, ⟨rfl, hn.symm⟩, (withEz_std hs u).wf, (withEz_std hs v).wf, hs.wide,
    ?_, SrcAgree.apart ?_⟩
  · refine ⟨by simp [Fields.IsComp], ?_⟩
    rw [hn]; simp [InGrid, gEx_Nx, gEx_Ny]
  · have r := Agree.refl (Ball 4 9 (0 + (6 : ℕ))) c
    refine { r with f := { r.f with Ez := fun i j hb => h i j ?_ } }
    unfold Ball at hb; push_cast at hb; omega
  · intro s hs C i j hb hd
    rw [List.mem_singleton.mp hs] at hd
    have e := congrArg V2.x (hd.2.trans hn)
    simp only at e
    unfold Ball at hb; push_cast at hb; omega

end Qbox.Props
