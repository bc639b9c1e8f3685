import Verif.Props.LitOrderProps
import Verif.Props.ForceProps

/-! # The order of the errors of spectra, fluxes, forces and torques that monitors write -/

namespace Qbox
open Scalar Spec
namespace Props

/-- **C94**, the order: the error of the spectra is at most a constant times the time step and the error `B` of the fields. -/
theorem C94_order (M T A f : ℝ) (hM : 0 ≤ M) (hT : 0 ≤ T) : ∃ C, ∀ (g : Grid ℝ) (t B : ℝ), Lawful g → g.Lx * g.Ly ≤ A → 0 ≤ t → t ≤ T → 0 ≤ B → spectralError g M t B f ≤ C * (g.dx + B) := by
  refine ⟨T * (1 + Real.sqrt A * (M + 2 * Real.pi * |f| * (M * T))), fun g t B hl hA t0 t1 b0 => ?_⟩
  have hx := hl.dx
  have := Real.pi_pos
  unfold spectralError
  rw [hl.dt, mul_assoc T]
  refine mul_le_mul t1 ?_ (by positivity) hT
  have s : Real.sqrt (g.Lx * g.Ly) ≤ Real.sqrt A := Real.sqrt_le_sqrt hA
  have k0 : 0 ≤ M + 2 * Real.pi * |f| * (M * T) := by positivity
  have k : g.dx / 2 * (M + 2 * Real.pi * |f| * (M * t)) ≤ g.dx * (M + 2 * Real.pi * |f| * (M * T)) :=
    mul_le_mul (by linarith) (add_le_add_right (mul_le_mul_of_nonneg_left (mul_le_mul_of_nonneg_left t1 hM) (by positivity)) _) (by positivity) hx.le
  have e := mul_le_mul s k (by positivity) (Real.sqrt_nonneg _)
  have p : 0 ≤ Real.sqrt A * (M + 2 * Real.pi * |f| * (M * T)) * B := by positivity
  linarith [show (1 + Real.sqrt A * (M + 2 * Real.pi * |f| * (M * T))) * (g.dx + B) =
    g.dx + B + Real.sqrt A * (g.dx * (M + 2 * Real.pi * |f| * (M * T))) + Real.sqrt A * (M + 2 * Real.pi * |f| * (M * T)) * B by ring]

/-- **C96**, the order: along a line of a given length the error of the flux is at most a constant times the size of the cells and the error `B` of the fields divided by its root, if the
latter is bounded. -/
theorem C96_order (M T L k f : ℝ) (hM : 0 ≤ M) (hT : 0 ≤ T) (hk : 0 ≤ k) : ∃ C, 0 ≤ C ∧ ∀ (g : Grid ℝ) (N : ℕ) (t B : ℝ), Lawful g → g.dx ≤ 1 → N * g.dx ≤ L → 0 ≤ t → t ≤ T → 0 ≤ B →
    B / Real.sqrt g.dx ≤ k → 0 ≤ flowError g N M t B f ∧ flowError g N M t B f ≤ C * (g.dx + B / Real.sqrt g.dx) := by
  have := Real.pi_pos
  obtain ⟨D, hD⟩ : ∃ D, D = T * (1 + 5 * M * Real.sqrt L + Real.sqrt L * (M + 2 * Real.pi * |f| * (M * T))) := ⟨_, rfl⟩
  have D0 : 0 ≤ D := by rw [hD]; positivity
  refine ⟨D * (2 * (M * T * T) * Real.sqrt L + D * (1 + k)), by positivity, fun g N t B hl h1 hN t0 t1 b0 hB => ?_⟩
  have hx := hl.dx
  have s : Real.sqrt (N * g.dx) ≤ Real.sqrt L := Real.sqrt_le_sqrt hN
  have s0 := Real.sqrt_nonneg (N * g.dx)
  have l0 := Real.sqrt_nonneg L
  obtain ⟨b, hb⟩ : ∃ b, b = B / Real.sqrt g.dx := ⟨_, rfl⟩
  have bb : 0 ≤ b := by rw [hb]; positivity
  have e0 : 0 ≤ lineSpectralError g N M t B f := by
    unfold lineSpectralError lineError
    rw [hl.dt]
    positivity
  have e1 : lineSpectralError g N M t B f ≤ D * (g.dx + b) := by
    unfold lineSpectralError lineError
    rw [hl.dt, ← hb, hD, mul_assoc T]
    refine mul_le_mul t1 ?_ (by positivity) hT
    have k0 : 0 ≤ M + 2 * Real.pi * |f| * (M * T) := by positivity
    have k1 : g.dx / 2 * (M + 2 * Real.pi * |f| * (M * t)) ≤ g.dx * (M + 2 * Real.pi * |f| * (M * T)) :=
      mul_le_mul (by linarith) (add_le_add_right (mul_le_mul_of_nonneg_left (mul_le_mul_of_nonneg_left t1 hM) (by positivity)) _) (by positivity) hx.le
    have i1 := mul_le_mul s k1 (by positivity) l0
    have i2 : 5 * M * g.dx * Real.sqrt (N * g.dx) ≤ 5 * M * g.dx * Real.sqrt L := mul_le_mul_of_nonneg_left s (by positivity)
    have p : 0 ≤ (5 * M * Real.sqrt L + Real.sqrt L * (M + 2 * Real.pi * |f| * (M * T))) * b := by positivity
    linarith [show (1 + 5 * M * Real.sqrt L + Real.sqrt L * (M + 2 * Real.pi * |f| * (M * T))) * (g.dx + b) =
      g.dx + b + 5 * M * g.dx * Real.sqrt L + Real.sqrt L * (g.dx * (M + 2 * Real.pi * |f| * (M * T))) + (5 * M * Real.sqrt L + Real.sqrt L * (M + 2 * Real.pi * |f| * (M * T))) * b by ring]
  have e2 : lineSpectralError g N M t B f ≤ D * (1 + k) := e1.trans (mul_le_mul_of_nonneg_left (by rw [hb]; linarith) D0)
  have tt : M * t * t ≤ M * T * T := mul_le_mul (mul_le_mul_of_nonneg_left t1 hM) t1 t0 (by positivity)
  unfold flowError
  refine ⟨by positivity, ?_⟩
  rw [← hb]
  calc _ ≤ D * (g.dx + b) * (2 * (M * T * T) * Real.sqrt L + D * (1 + k)) :=
        mul_le_mul e1 (add_le_add (mul_le_mul (mul_le_mul_of_nonneg_left tt (by norm_num)) s s0 (by positivity)) e2) (by positivity) (by positivity)
    _ = _ := by ring

/-- The sides of the box between two nodes are at most `L`. -/
def SidesAtMost (g : Grid ℝ) (A B : V2 ℤ) (L : ℝ) : Prop := A.x ≤ B.x ∧ A.y ≤ B.y ∧ (B.x - A.x) * g.dx ≤ L ∧ (B.y - A.y) * g.dx ≤ L

/-- **C97**, the order: the same for the flux out of a box. -/
theorem C97_order (M T L k f : ℝ) (hM : 0 ≤ M) (hT : 0 ≤ T) (hk : 0 ≤ k) : ∃ C, 0 ≤ C ∧ ∀ (g : Grid ℝ) (P Q : V2 ℤ) (t B : ℝ), Lawful g → g.dx ≤ 1 → SidesAtMost g P Q L → 0 ≤ t → t ≤ T → 0 ≤ B →
    B / Real.sqrt g.dx ≤ k → 0 ≤ boxFlowError g P Q M t B f ∧ boxFlowError g P Q M t B f ≤ C * (g.dx + B / Real.sqrt g.dx) := by
  obtain ⟨C, C0, hC⟩ := C96_order M T L k f hM hT hk
  refine ⟨4 * C, by positivity, fun g P Q t B hl h1 ⟨x0, y0, x1, y1⟩ t0 t1 b0 hB => ?_⟩
  have cast : ∀ u v : ℤ, u ≤ v → (((v - u).toNat : ℕ) : ℝ) = v - u := fun u v h => by
    have : (((v - u).toNat : ℕ) : ℤ) = v - u := Int.toNat_of_nonneg (by omega)
    exact_mod_cast congrArg (Int.cast (R := ℝ)) this
  obtain ⟨a1, a2⟩ := hC g (Q.x - P.x).toNat t B hl h1 (by rw [cast _ _ x0]; exact x1) t0 t1 b0 hB
  obtain ⟨c1, c2⟩ := hC g (Q.y - P.y).toNat t B hl h1 (by rw [cast _ _ y0]; exact y1) t0 t1 b0 hB
  unfold boxFlowError
  exact ⟨by linarith, by linarith⟩

/-- **C102**, the order: the same for force and torque. -/
theorem C102_order (M T L k f : ℝ) (hM : 0 ≤ M) (hT : 0 ≤ T) (hL : 0 ≤ L) (hk : 0 ≤ k) : ∃ C, 0 ≤ C ∧ ∀ (g : Grid ℝ) (P Q : V2 ℤ) (t B : ℝ), Lawful g → g.dx ≤ 1 → SidesAtMost g P Q L → 0 ≤ t → t ≤ T →
    0 ≤ B → B / Real.sqrt g.dx ≤ k → 3 / 2 * boxFlowError g P Q M t B f ≤ C * (g.dx + B / Real.sqrt g.dx) ∧ boxTorqueError g P Q M t B f ≤ C * (g.dx + B / Real.sqrt g.dx) := by
  obtain ⟨C, C0, hC⟩ := C97_order M T L k f hM hT hk
  refine ⟨3 / 2 * C + 5 / 2 * ((L + 3 / 2) * C + 3 * (2 * L * (M * T * T) ^ 2)), by positivity, fun g P Q t B hl h1 hs t0 t1 b0 hB => ?_⟩
  obtain ⟨i0, i1⟩ := hC g P Q t B hl h1 hs t0 t1 b0 hB
  obtain ⟨x0, y0, x1, y1⟩ := hs
  have hx := hl.dx
  obtain ⟨b, hb⟩ : ∃ b, b = B / Real.sqrt g.dx := ⟨_, rfl⟩
  have bb : 0 ≤ b := by rw [hb]; positivity
  rw [← hb] at i1 ⊢
  have u0 : (0 : ℝ) ≤ Q.x - P.x := sub_nonneg.mpr (by exact_mod_cast x0)
  have v0 : (0 : ℝ) ≤ Q.y - P.y := sub_nonneg.mpr (by exact_mod_cast y0)
  have p1 : 0 ≤ 5 / 2 * ((L + 3 / 2) * C + 3 * (2 * L * (M * T * T) ^ 2)) * (g.dx + b) := by positivity
  have p2 : 0 ≤ 3 / 2 * C * (g.dx + b) := by positivity
  refine ⟨by linarith, ?_⟩
  unfold boxTorqueError
  have arm : ((Q.x - P.x + (Q.y - P.y) + 3) / 2 * g.dx : ℝ) ≤ L + 3 / 2 := by linarith
  have len : ((Q.x - P.x + (Q.y - P.y)) * g.dx : ℝ) ≤ 2 * L := by linarith
  have tt : (M * t * t) ^ 2 ≤ (M * T * T) ^ 2 := pow_le_pow_left₀ (by positivity) (mul_le_mul (mul_le_mul_of_nonneg_left t1 hM) t1 t0 (by positivity)) 2
  have j1 := mul_le_mul arm i1 i0 (by positivity)
  have j2 := mul_le_mul_of_nonneg_left (mul_le_mul len tt (by positivity) (by positivity)) (by positivity : 0 ≤ 3 * g.dx)
  have p3 : 0 ≤ 3 * (2 * L * (M * T * T) ^ 2) * b := by positivity
  linarith [show (3 / 2 * C + 5 / 2 * ((L + 3 / 2) * C + 3 * (2 * L * (M * T * T) ^ 2))) * (g.dx + b) =
    3 / 2 * C * (g.dx + b) + 5 / 2 * ((L + 3 / 2) * (C * (g.dx + b)) + 3 * g.dx * (2 * L * (M * T * T) ^ 2) + 3 * (2 * L * (M * T * T) ^ 2) * b) by ring]

/-- A case: the box from (5, 5) to (15, 15) on the grids of every whole resolution, with fields of second order. The flux, the force and the torque are of first order. -/
example : ∃ C, ∀ r : ℕ, 0 < r → let g : Grid ℝ := Grid.make 20 20 r (-1)
    3 / 2 * boxFlowError g ⟨5 * r, 5 * r⟩ ⟨15 * r, 15 * r⟩ 1 3 (g.dx ^ 2) 1 ≤ C * g.dx ∧ boxTorqueError g ⟨5 * r, 5 * r⟩ ⟨15 * r, 15 * r⟩ 1 3 (g.dx ^ 2) 1 ≤ C * g.dx := by
  obtain ⟨C, C0, h⟩ := C102_order 1 3 10 1 1 zero_le_one (by norm_num) (by norm_num) zero_le_one
  refine ⟨2 * C, fun r hr => ?_⟩
  have r1 : (1 : ℝ) ≤ r := by exact_mod_cast hr
  have r0 : (0 : ℝ) < r := by linarith
  intro g
  have hl : Lawful g := lawful_make 20 20 r (-1) r0
  have hx := hl.dx
  have e : g.dx = 1 / r := by simp [g, Grid.make]
  have le : g.dx ≤ 1 := by rw [e]; exact (div_le_one r0).mpr r1
  have rx : (r : ℝ) * g.dx = 1 := by rw [e]; field_simp
  have root : g.dx ^ 2 / Real.sqrt g.dx ≤ g.dx := by
    rw [div_le_iff₀ (Real.sqrt_pos.mpr hx), pow_two]
    exact mul_le_mul_of_nonneg_left (Real.le_sqrt_of_sq_le (by nlinarith)) hx.le
  obtain ⟨a, b⟩ := h g ⟨5 * r, 5 * r⟩ ⟨15 * r, 15 * r⟩ 3 (g.dx ^ 2) hl le ⟨by dsimp only; omega, by dsimp only; omega, by push_cast; linarith, by push_cast; linarith⟩ (by norm_num) le_rfl (by positivity)
    (root.trans le)
  have m : C * (g.dx + g.dx ^ 2 / Real.sqrt g.dx) ≤ 2 * C * g.dx := by
    have := mul_le_mul_of_nonneg_left root C0
    linarith
  exact ⟨a.trans m, b.trans m⟩

/-- Where a solution is smooth everywhere, the interface has no area. -/
theorem crossed_nowhere (g : Grid ℝ) (R : Box) : crossedArea (fun _ _ => True) g R = 0 := by
  have : ∀ i j, ¬ Crossed (fun _ _ => True) g i j := fun i j h => by
    rcases h with ⟨_, _, _, h⟩ | ⟨_, _, _, h⟩ <;> exact h trivial
  unfold crossedArea
  simp [this, Box.sum]

/-- An error of second order, divided by the root of the size of the cells. -/
theorem root_order {C x δ B : ℝ} (hC : 0 ≤ C) (hx : 0 < x) (h1 : x ≤ 1) (hB : B ≤ C * (x ^ 2 + δ + Real.sqrt 0)) : B / Real.sqrt x ≤ C * (x + δ / Real.sqrt x) := by
  have s := Real.sqrt_pos.mpr hx
  rw [div_le_iff₀ s]
  have e : C * (x + δ / Real.sqrt x) * Real.sqrt x = C * (x * Real.sqrt x + δ) := by field_simp
  rw [e]
  refine hB.trans (mul_le_mul_of_nonneg_left ?_ hC)
  rw [Real.sqrt_zero, add_zero]
  have : x ^ 2 ≤ x * Real.sqrt x := by
    rw [pow_two]
    exact mul_le_mul_of_nonneg_left (Real.le_sqrt_of_sq_le (by nlinarith)) hx.le
  linarith

/-- **C107**, **C108**, the order. Solutions that are smooth everywhere: what box monitors write as flux, force and torque is in error by at most a constant times the size of the cells and the
current that the sources do not carry, divided by its root. `M'` is the size of the wave at the box, `M` or `litSize M Ms τ`. -/
theorem C107_order (M M' Ms epsMax sigMax q τ A H L f : ℝ) (hM : 0 ≤ M) (hM' : 0 ≤ M') (hMs : 0 ≤ Ms) (he : 1 ≤ epsMax) (hs : 0 ≤ sigMax) (hq : 0 ≤ q) (hτ : 0 ≤ τ) (hL : 0 ≤ L) :
    ∃ C, ∀ (g : Grid ℝ) (vol : Vol ℝ) (P Q : V2 ℤ) (n : ℕ) (δ : ℝ), Lawful g → g.dx ≤ 1 → 0 ≤ g.Lx * g.Ly → g.Lx * g.Ly ≤ A → (g.toGrid vol.a).y ≤ (g.toGrid vol.b).y →
      vol.b.y - vol.a.y + 3 * g.dx ≤ H → SidesAtMost g P Q L → n * g.dt ≤ τ → 0 ≤ δ → δ ≤ Real.sqrt g.dx →
      let E := metalError (fun _ _ => True) g vol M Ms epsMax sigMax q τ δ n
      boxFlowError g P Q M' (n * g.dt) E f ≤ C * (g.dx + δ / Real.sqrt g.dx) ∧ 3 / 2 * boxFlowError g P Q M' (n * g.dt) E f ≤ C * (g.dx + δ / Real.sqrt g.dx) ∧
        boxTorqueError g P Q M' (n * g.dt) E f ≤ C * (g.dx + δ / Real.sqrt g.dx) := by
  obtain ⟨C1, h1⟩ := C106_order M Ms epsMax sigMax q τ A H hM hMs he hs hq hτ
  obtain ⟨c, hc⟩ : ∃ c, c = max C1 0 := ⟨_, rfl⟩
  have c0 : 0 ≤ c := by rw [hc]; exact le_max_right _ _
  obtain ⟨C2, p2, h2⟩ := C102_order M' τ L (c * 2) f hM' hτ hL (by positivity)
  refine ⟨C2 * (1 + c), fun g vol P Q n δ hl hx1 a0 hA hy hH hsd hn d0 d1 => ?_⟩
  have hx := hl.dx
  have sx := Real.sqrt_pos.mpr hx
  intro E
  have E1 : E ≤ c * (g.dx ^ 2 + δ + Real.sqrt 0) := by
    have := h1 (fun _ _ => True) g vol n δ hl hx1 a0 hA hy hH hn d0 (d1.trans (Real.sqrt_le_one.mpr hx1))
    rw [crossed_nowhere] at this
    exact this.trans (mul_le_mul_of_nonneg_right (by rw [hc]; exact le_max_left _ _) (by positivity))
  have E0 : 0 ≤ E := by
    have r0 : 0 ≤ rows g vol := by
      unfold rows
      have : 0 ≤ (g.toGrid vol.b).y - (g.toGrid vol.a).y + 1 := by omega
      exact_mod_cast this
    have dt0 : 0 < g.dt := by rw [hl.dt]; linarith
    show 0 ≤ metalError ..
    unfold metalError restError polarError incidentErrorX incidentError
    positivity
  have E2 := root_order c0 hx hx1 E1
  have small : δ / Real.sqrt g.dx ≤ 1 := (div_le_one sx).mpr d1
  have E3 : E / Real.sqrt g.dx ≤ c * 2 := E2.trans (mul_le_mul_of_nonneg_left (by linarith) c0)
  have q0 : 0 ≤ δ / Real.sqrt g.dx := by positivity
  obtain ⟨k1, k2⟩ := h2 g P Q (n * g.dt) E hl hx1 hsd (by rw [hl.dt]; positivity) hn E0 E3
  have up : C2 * (g.dx + E / Real.sqrt g.dx) ≤ C2 * (1 + c) * (g.dx + δ / Real.sqrt g.dx) := by
    rw [mul_assoc]
    refine mul_le_mul_of_nonneg_left ?_ p2
    linarith [show (1 + c) * (g.dx + δ / Real.sqrt g.dx) = g.dx + δ / Real.sqrt g.dx + c * (g.dx + δ / Real.sqrt g.dx) by ring]
  have r : 0 ≤ C2 * (1 + c) * (g.dx + δ / Real.sqrt g.dx) := by positivity
  exact ⟨by linarith [k1.trans up], k1.trans up, k2.trans up⟩

end Props
end Qbox
