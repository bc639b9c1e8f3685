import Verif.Lemmas.NodeStep
import Verif.Lemmas.MediumAlg
import Verif.Spec.EnergySpec

/-! # Summation by parts on a rectangle -/

namespace Qbox
open Scalar Spec Props

theorem sum_telescope (F : ℤ → ℝ) {a b : ℤ} (h : a ≤ b + 1) : ∑ i ∈ Finset.Icc a b, (F (i + 1) - F i) = F (b + 1) - F a := by
  obtain ⟨n, hn⟩ : ∃ n : ℕ, b + 1 = a + n := ⟨(b + 1 - a).toNat, by omega⟩
  induction n generalizing b with
  | zero =>
    have e : Finset.Icc a b = ∅ := by apply Finset.Icc_eq_empty; push_cast at hn; omega
    rw [e, hn]; simp
  | succ n ih =>
    have e : Finset.Icc a b = insert b (Finset.Icc a (b - 1)) := by
      ext x; simp only [Finset.mem_insert, Finset.mem_Icc]; push_cast at hn; omega
    rw [e, Finset.sum_insert (by simp), ih (b := b - 1) (by push_cast at hn; omega) (by push_cast at hn ⊢; omega)]
    rw [show b - 1 + 1 = b by ring]; ring

theorem Spec.Box.sum_add (R : Box) (F G : ℤ → ℤ → ℝ) : R.sum (fun i j => F i j + G i j) = R.sum F + R.sum G := by
  unfold Box.sum; simp only [Finset.sum_add_distrib]

theorem Spec.Box.sum_sub (R : Box) (F G : ℤ → ℤ → ℝ) : R.sum (fun i j => F i j - G i j) = R.sum F - R.sum G := by
  unfold Box.sum; simp only [Finset.sum_sub_distrib]

theorem Spec.Box.sum_mul (R : Box) (a : ℝ) (F : ℤ → ℤ → ℝ) : R.sum (fun i j => a * F i j) = a * R.sum F := by
  unfold Box.sum; simp only [Finset.mul_sum]

theorem Spec.Box.sum_congr (R : Box) {F G : ℤ → ℤ → ℝ} (h : ∀ i j, R.Mem i j → F i j = G i j) : R.sum F = R.sum G := by
  unfold Box.sum
  refine Finset.sum_congr rfl fun i hi => Finset.sum_congr rfl fun j hj => h i j ⟨Finset.mem_Icc.mp hi, Finset.mem_Icc.mp hj⟩

theorem Spec.Box.sum_le (R : Box) {F G : ℤ → ℤ → ℝ} (h : ∀ i j, R.Mem i j → F i j ≤ G i j) : R.sum F ≤ R.sum G := by
  unfold Box.sum
  refine Finset.sum_le_sum fun i hi => Finset.sum_le_sum fun j hj => h i j ⟨Finset.mem_Icc.mp hi, Finset.mem_Icc.mp hj⟩

theorem Spec.Box.sum_nonneg (R : Box) {F : ℤ → ℤ → ℝ} (h : ∀ i j, R.Mem i j → 0 ≤ F i j) : 0 ≤ R.sum F := by
  unfold Box.sum
  refine Finset.sum_nonneg fun i hi => Finset.sum_nonneg fun j hj => h i j ⟨Finset.mem_Icc.mp hi, Finset.mem_Icc.mp hj⟩

theorem Spec.Box.sum_x (R : Box) (h : R.l ≤ R.r + 1) (F : ℤ → ℤ → ℝ) :
    R.sum (fun i j => F (i + 1) j - F i j) = ∑ j ∈ Finset.Icc R.b R.t, (F (R.r + 1) j - F R.l j) := by
  unfold Box.sum
  rw [Finset.sum_comm]
  exact Finset.sum_congr rfl fun j _ => sum_telescope (fun i => F i j) h

theorem Spec.Box.sum_y (R : Box) (h : R.b ≤ R.t + 1) (F : ℤ → ℤ → ℝ) :
    R.sum (fun i j => F i (j + 1) - F i j) = ∑ i ∈ Finset.Icc R.l R.r, (F i (R.t + 1) - F i R.b) := by
  unfold Box.sum
  exact Finset.sum_congr rfl fun i _ => sum_telescope (fun j => F i j) h

/-- The step of the magnetic field at a node beyond the layer that nothing drives. -/
theorem Core.Step.magnetic {c c' : Core ℝ} {srcs srcs' E2 E3 E4 f} (hc : c.Std) (h : c.Step srcs c' srcs' E2 E3 E4 f) {i j : ℤ}
    (hb : Beyond c.g i j) (hs : ∀ s ∈ srcs, ∀ C, ¬ Drives c.g s C ⟨i, j⟩) (ht : c.tfsf = none) {m : Simple ℝ}
    (hm : HasMedium c.f (.simple m) c.g.dt i j) :
    c'.f.Hx.val i j = c.f.Hx.val i j - c.g.dt * ((c'.f.Ez.val i (j + 1) - c'.f.Ez.val i j) / c.g.dx) ∧
    c'.f.Hy.val i j = c.f.Hy.val i j + c.g.dt * ((c'.f.Ez.val (i + 1) j - c'.f.Ez.val i j) / c.g.dx) := by
  obtain ⟨b1, b2, b3, b4⟩ := hb
  have hT := hc.thick
  have nx : c.pml.Nx = c.g.Nx := hc.wf.pml.nx
  have ny : c.pml.Ny = c.g.Ny := hc.wf.pml.ny
  have nt : c.pml.par.T = c.g.T := hc.wf.pml.thk
  have tn : c'.tfsf = none := by
    have := h.tf
    rw [ht] at this
    exact (Except.ok.inj this).symm
  have hin : (i, j) ∈ rect 1 (c.g.Nx - 1) 1 (c.g.Ny - 1) := by rw [mem_rect]; simp only; omega
  obtain ⟨-, -, q3, q4⟩ := h.coef
  constructor
  · rw [h.eX, tn, h.eE]
    simp only [Tensor.upd, Pml.corrHx, Pml.afterE, nx, ny, nt, tfHx]
    rw [if_pos hin, if_neg (by rw [mem_rect]; simp only; omega), if_neg (by rw [mem_rect]; simp only; omega)]
    simp only [hxVal, hc.sc.khdy, q3, q4, hm.Da, hm.Db, h.fX, totalContrib_zero fun s hs' => hs s hs' .Hx, MatKind.Da, MatKind.Db, Simple.Da, Simple.Db]
    ring
  · rw [h.eY, tn, h.eE]
    simp only [Tensor.upd, Pml.corrHy, Pml.afterE, nx, ny, nt, tfHy]
    rw [if_pos hin, if_neg (by rw [mem_rect]; simp only; omega), if_neg (by rw [mem_rect]; simp only; omega)]
    simp only [hyVal, hc.sc.khdx, q3, q4, hm.Da, hm.Db, h.fY, totalContrib_zero fun s hs' => hs s hs' .Hy, MatKind.Da, MatKind.Db, Simple.Da, Simple.Db]
    ring

end Qbox
