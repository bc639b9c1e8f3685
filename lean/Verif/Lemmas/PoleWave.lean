import Verif.Lemmas.DivergeDebye

/-! # A standing wave in a Debye medium of any poles -/

namespace Qbox.Props
open Qbox Scalar Spec

noncomputable def kapOf (m : Debye ℝ) (N : ℕ) : ℝ := (Arr.ofList (m.poles.map (·.kappa (1 / 2)))).val N
noncomputable def betOf (m : Debye ℝ) (N : ℕ) : ℝ := (Arr.ofList (m.poles.map (·.beta (1 / 2)))).val N

/-- One step of the wave amplitudes: electric field, curl of the magnetic field and the currents. -/
noncomputable def poleMode (m : Debye ℝ) (v : ℝ × ℝ × (ℕ → ℝ)) : ℝ × ℝ × (ℕ → ℝ) :=
  let push := fun n => m.Cb (1 / 2) * (v.2.1 - (∑ M ∈ Finset.range n, (1 + kapOf m M) * v.2.2 M) / 2)
  (v.1 + push m.poles.length, v.2.1 - (v.1 + push m.poles.length), fun N => kapOf m N * v.2.2 N + betOf m N * 2 * push (N + 1))

/-- The state of the simulation while the wave stands in the medium. -/
structure PoleWave (m : Debye ℝ) (c : Core ℝ) (v : ℝ × ℝ × (ℕ → ℝ)) : Prop where
  std : c.Std
  grid : c.g = gSix
  tfsf : c.tfsf = none
  lorentz : c.lorentz = []
  edge : EdgeStill c
  frame : FrameQuiet c.f ⟨1, 4, 1, 4⟩
  wave : Standing c.f v.1 v.2.1
  medium : ∃ n P a, P.mat = m ∧ ∀ i j, 1 ≤ i → i ≤ 4 → 1 ≤ j → j ≤ 4 → InDebye c n P [] a i j ∧
    ∀ N : ℕ, N < m.poles.length → P.J.val i j N = v.2.2 N * (wa i * wa j)

theorem PoleWave.step {m : Debye ℝ} {c : Core ℝ} {v} (w : PoleWave m c v) : ∃ c', c.update [] = .ok (c', []) ∧ PoleWave m c' (poleMode m v) := by
  obtain ⟨c1, l1, E2, E3, E4, f, u, S⟩ := Core.update_step w.std [] (by simp)
  obtain rfl : l1 = [] := by have := S.same; cases this; rfl
  refine ⟨c1, u, ?_⟩
  obtain ⟨q1, s1, t1, lo⟩ := closed_still w.std (by rw [w.grid, gSix_T]) S w.tfsf w.lorentz w.edge (by rw [w.grid, gSix_nodes]; exact w.frame)
  rw [S.g, w.grid, gSix_nodes] at q1
  obtain ⟨n, P, a, hm, node⟩ := w.medium
  subst hm
  have nodes : ∀ i j, 1 ≤ i → i ≤ 4 → 1 ≤ j → j ≤ 4 → Beyond c.g i j := by
    intro i j i0 i1 j0 j1
    rw [w.grid]
    constructor <;> simp only [gSix_T, gSix_Nx, gSix_Ny] <;> omega
  have un : ∀ i j, Undriven c [] i j := fun i j => ⟨by simp, by rw [w.tfsf]; simp⟩
  have dt : c.g.dt = 1 / 2 := by rw [w.grid, gSix_dt]
  have dx : c.g.dx = 1 := by rw [w.grid, gSix_dx]
  have bt : ∀ i j, 1 ≤ i → i ≤ 4 → 1 ≤ j → j ≤ 4 → ∀ N : ℕ, N < P.mat.poles.length → P.beta.val i j N = betOf P.mat N := by
    intro i j i0 i1 j0 j1 N hN
    rw [(node i j i0 i1 j0 j1).1.strength N hN, dt]
    unfold betOf Arr.ofList
    simp [hN]
  have key : ∀ i j, 1 ≤ i → i ≤ 4 → 1 ≤ j → j ≤ 4 → ∃ P' a', InDebye c1 n P' [] a' i j ∧ P'.mat = P.mat ∧ c1.f.Ez.val i j = (poleMode P.mat v).1 * (wa i * wa j) ∧
      ∀ N : ℕ, N < P.mat.poles.length → P'.J.val i j N = (poleMode P.mat v).2.2 N * (wa i * wa j) := by
    intro i j i0 i1 j0 j1
    obtain ⟨hin, J0⟩ := node i j i0 i1 j0 j1
    obtain ⟨P', b', a', k1, k2, k3, k4, k5⟩ := S.inDebye w.std (nodes i j i0 i1 j0 j1) (un i j) hin
    obtain rfl : b' = [] := List.length_eq_zero_iff.mp k2
    have sum : ∀ n : ℕ, n ≤ P.mat.poles.length → ∑ M ∈ Finset.range n, (1 + (Arr.ofList (P.mat.poles.map (·.kappa c.g.dt))).val M) * P.J.val i j M
        = (∑ M ∈ Finset.range n, (1 + kapOf P.mat M) * v.2.2 M) * (wa i * wa j) := by
      intro n hn
      rw [Finset.sum_mul]
      refine Finset.sum_congr rfl fun M hM => ?_
      rw [J0 M (lt_of_lt_of_le (Finset.mem_range.mp hM) hn), dt]
      unfold kapOf
      ring
    refine ⟨P', a', k1, k3, ?_, fun N hN => ?_⟩
    · rw [k4, sum _ le_rfl, w.wave.Ez i j i0 i1 j0 j1, dx, standing_curl w.wave w.frame i0 i1 j0 j1, dt]
      simp only [poleMode]
      ring
    · rw [k5 N hN, sum (N + 1) (by omega), w.wave.Ez i j i0 i1 j0 j1, dx, standing_curl w.wave w.frame i0 i1 j0 j1, dt,
        J0 N hN, bt i j i0 i1 j0 j1 N hN, show (Arr.ofList (P.mat.poles.map (·.kappa (1 / 2)))).val N = kapOf P.mat N from rfl]
      simp only [poleMode]
      ring
  have one : (1 : ℤ) ≤ 1 ∧ (1 : ℤ) ≤ 4 := by norm_num
  obtain ⟨P', a', r1, r2, -⟩ := key 1 1 one.1 one.2 one.1 one.2
  refine ⟨S.std, by rw [S.g, w.grid], t1, lo, s1, q1, ?_, n, P', a', r2, fun i j i0 i1 j0 j1 => ?_⟩
  · exact standing_step w.std w.grid S w.tfsf w.wave q1 (fun i j i0 i1 j0 j1 => (node i j i0 i1 j0 j1).1.medium)
      fun i j i0 i1 j0 j1 => by obtain ⟨_, _, -, -, h, -⟩ := key i j i0 i1 j0 j1; exact h
  · obtain ⟨P2, a2, x1, x2, -, x3⟩ := key i j i0 i1 j0 j1
    have e := r1.entry
    rw [x1.entry] at e
    obtain ⟨e1, rfl⟩ := List.cons.inj e
    obtain ⟨-, rfl⟩ := Prod.mk.inj e1
    exact ⟨x1, x3⟩

theorem PoleWave.run {m : Debye ℝ} {c : Core ℝ} {v} (w : PoleWave m c v) (n : ℕ) : ∃ c', c.run n [] = .ok (c', []) ∧ PoleWave m c' ((poleMode m)^[n] v) := by
  induction n generalizing c v with
  | zero => exact ⟨c, rfl, w⟩
  | succ n ih =>
    obtain ⟨c1, u, w1⟩ := w.step
    obtain ⟨c2, r, w2⟩ := ih w1
    exact ⟨c2, by unfold Core.run; rw [u]; exact r, w2⟩

end Qbox.Props
