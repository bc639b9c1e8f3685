import Verif.Props.DrivenWaveProps
import Verif.Props.RoundedDrivenProps

/-! # The whole error of a simulation with sources (C75) -/

namespace Qbox.Props
open Qbox Scalar Spec

/-- Fields with rounding, fields without rounding, and the wave. -/
theorem total_triangle {A : Arith} (w : Spec.Wave) (g : Grid ℝ) (n : ℕ) (f : Flds (Rnd A)) (r : Flds ℝ) (R : Box) :
    Real.sqrt (totalGap w g n f R) ≤ Real.sqrt (gap w g n r R) + Real.sqrt (roundGap g.dx f r R) := by
  have tri := sqrt_sum_triangle R (fun i j => r.Ez.val i j - w.nodeE g n i j) (fun i j => r.Hx.val i j - w.nodeX g n i j)
    (fun i j => r.Hy.val i j - w.nodeY g n i j) (fun i j => (f.Ez.val i j).val - r.Ez.val i j)
    (fun i j => (f.Hx.val i j).val - r.Hx.val i j) (fun i j => (f.Hy.val i j).val - r.Hy.val i j)
  unfold totalGap gap roundGap
  rw [Real.sqrt_mul (sq_nonneg _), Real.sqrt_mul (sq_nonneg _), Real.sqrt_mul (sq_nonneg _), ← mul_add]
  refine mul_le_mul_of_nonneg_left ?_ (Real.sqrt_nonneg _)
  refine le_trans (le_of_eq ?_) (tri.trans (le_of_eq ?_))
  · congr 1
    exact Box.sum_congr _ fun i j _ => by ring
  · congr 2
    exact Box.sum_congr _ fun i j _ => by ring

/-- **C75** with sources, for any arithmetic with rounding. A closed domain is made, any objects of passive simple media are added, the fields are given any start
values, and sources drive the nodes. The signals with exact values carry a current up to `δ`. After any number of updates the program has run
without a fault, and its fields differ from a solution of Maxwell's equations with this current by at most the sum of three terms: the difference at the
start, what rounding of fields and signals adds, and what the size of the cells and the choice of the signals add. -/
theorem C75_driven_partial {A : Arith} (n : ℕ) (g : Grid (Rnd A)) (hw : g.Wide) (hT : g.T = 0) (hx : 0 < g.dx.val) (hdt : g.dt.val = g.dx.val / 2)
    (objs : List (Object (Rnd A))) (objs' : List (Object ℝ)) (same : List.Forall₂ (SameObject g) objs objs') (hs : ∀ o ∈ objs, o.Safe g)
    (hc : ∀ o ∈ objs, o.Covered g) (hb' : ∀ o ∈ objs', BoxSound o) (hc' : ∀ o ∈ objs', ClearOfUnguardedEdges (exactGrid g) o) (epsMax sigMax : ℝ)
    (hv : RoundPassive g.dx.val epsMax (vacuum : Simple (Rnd A))) (hp : ∀ o ∈ objs, ∀ m, o.mat.kind = .simple m → RoundPassive g.dx.val epsMax m)
    (hsg : 0 ≤ sigMax) (hsm : ∀ o ∈ objs, ∀ m, o.mat.kind = .simple m → m.conduc.val ≤ sigMax) (eps sig : ℝ → ℝ → ℝ) (hmed : MediumOf objs' eps sig)
    (w : Spec.Wave) (S : ℝ → ℝ → Prop) (J : ℝ → ℝ → ℝ → ℝ) (τ M δ : ℝ) (hws : w.Smooth S (exactGrid g) τ M) (hst : w.Steady (exactGrid g) τ M)
    (hmx : w.Driven S eps sig J (exactGrid g) τ) (hJ : CurrentAtMost J (exactGrid g) τ M) (hwl : w.Walls (exactGrid g) τ) (hn : ((n : ℝ) + 1 / 2) * g.dt.val ≤ τ)
    (e x y : ℤ → ℤ → Rnd A) (out : ∀ i j, ¬ (updatedNodes (exactGrid g)).Mem i j → (e i j).val = 0 ∧ (x i j).val = 0 ∧ (y i j).val = 0)
    (srcs : List (Source (Rnd A))) (srcs' : List (Source ℝ)) (sameS : List.Forall₂ (SameSource g) srcs srcs') (few : srcs.length * A.u ≤ 1 / 1000)
    (fits : ∀ s ∈ srcs, Fits g s) (fits' : ∀ s ∈ srcs', Fits (exactGrid g) s) (hδ : 0 ≤ δ) (hk : Spec.Carries (exactGrid g) srcs' eps sig J τ δ) :
    ∃ c0 c1 c2 l, Core.make g = .ok c0 ∧ forList objs c0 (fun o c => c.insertObject o) = .ok c1 ∧ (setFields c1 e x y).run n srcs = .ok (c2, l) ∧
      Real.sqrt (totalGap w (exactGrid g) n c2.f (updatedNodes (exactGrid g))) ≤
        2 * Real.sqrt (epsMax + 1) * Real.sqrt (totalGap w (exactGrid g) 0 (setFields c1 e x y).f (updatedNodes (exactGrid g))) +
        2 * Real.sqrt (epsMax + 1) *
          (((1 + roundGrowth epsMax * ((1 + srcs.length) * A.u)) ^ n - 1) * (Real.sqrt (roundSize g.dx.val (setFields c1 e x y).f (updatedNodes (exactGrid g))) +
              2 * rootArea g * emittedBy srcs' 0 (g.dx.val / 2) n) +
            (1 + roundGrowth epsMax * ((1 + srcs.length) * A.u)) ^ n * (n * ((1 + srcs.length) * roundFloor g) +
              3 * rootArea g * (13 * ((1 + srcs.length) * A.u) * emittedBy srcs' 0 (g.dx.val / 2) n + 2 * misheard srcs srcs' g.dt (g.dx.val / 2) 0 0 n))) +
        n * g.dt.val * drivenError S (exactGrid g) M epsMax sigMax δ := by
  have hl := exact_lawful hx
  have h0 : 1 ≤ epsMax := hv.eps.trans hv.top
  obtain ⟨c0, c1, c2, r0, r1, r2, l, l', k1, k2, k3, k4, k5, k6, k7⟩ := C74_driven_partial n g hw hT hx hdt objs objs' same hs
    (fun o ho => safe_of_clear hl (hc' o ho)) hc (fun o ho => covered_of_sound hl (hb' o ho)) epsMax hv hp e x y out srcs srcs' sameS few fits fits' hk.inner
  have medium : ∀ o' ∈ objs', ∃ o ∈ objs, ∃ m, o.mat.kind = .simple m ∧ o'.mat.kind = .simple (exactMed m) := fun o' ho' => by
    obtain ⟨o, ho, so⟩ := forall2_right same o' ho'
    obtain ⟨m, h1, h2⟩ := so.medium
    exact ⟨o, ho, m, h1, h2⟩
  obtain ⟨a0, a1, a2, b2, j1, j2, j3, j4⟩ := C84_start n (exactGrid g) ⟨hw.nx, hw.ny⟩ hl hT objs' hb' hc' (fun o' ho' => by
      obtain ⟨o, ho, m, h1, h2⟩ := medium o' ho'
      exact ⟨_, h2, (hp o ho m h1).eps, (hp o ho m h1).conduc⟩) epsMax sigMax ⟨h0, fun o' ho' m' hm' => by
      obtain ⟨o, ho, m, h1, h2⟩ := medium o' ho'
      rw [h2] at hm'
      cases hm'
      exact (hp o ho m h1).top⟩ ⟨hsg, fun o' ho' m' hm' => by
      obtain ⟨o, ho, m, h1, h2⟩ := medium o' ho'
      rw [h2] at hm'
      cases hm'
      exact hsm o ho m h1⟩ eps sig hmed w S J τ M δ hws hst hmx hJ hwl srcs' fits' hδ hk (by
        have : (exactGrid g).dt = g.dt.val := hdt.symm
        rw [this]; exact hn) (fun i j => (e i j).val) (fun i j => (x i j).val) (fun i j => (y i j).val) out
  rw [k4] at j1
  cases j1
  rw [k5] at j2
  cases j2
  rw [show withFields r1 (fun i j => (e i j).val) (fun i j => (x i j).val) (fun i j => (y i j).val) =
    setFields r1 (fun i j => (e i j).val) (fun i j => (x i j).val) (fun i j => (y i j).val) from rfl, k6] at j3
  cases j3
  refine ⟨c0, c1, c2, l, k1, k2, k3, ?_⟩
  have st : gap w (exactGrid g) 0 (withFields r1 (fun i j => (e i j).val) (fun i j => (x i j).val) (fun i j => (y i j).val)).f (updatedNodes (exactGrid g)) =
      totalGap w (exactGrid g) 0 (setFields c1 e x y).f (updatedNodes (exactGrid g)) := rfl
  rw [st, show (exactGrid g).dt = g.dt.val from hdt.symm] at j4
  have t1 := total_triangle w (exactGrid g) n c2.f r2.f (updatedNodes (exactGrid g))
  rw [show (exactGrid g).dx = g.dx.val from rfl] at t1
  linarith

end Qbox.Props
