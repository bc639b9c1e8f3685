import Verif.Spec.DrivenSpec
import Verif.Props.EnergyProps

/-! # The energy as a norm, and one step with sources -/

namespace Qbox
open Scalar Spec Props

/-- The bilinear form of the energy. -/
noncomputable def bil (g : Grid ℝ) (med : ℤ → ℤ → Simple ℝ) (f h : Flds ℝ) (R : Box) : ℝ :=
  g.dx ^ 2 * R.sum fun i j => ((med i j).eps * (f.Ez.val i j * h.Ez.val i j) + (f.Hx.val i j * hxBack g h i j + h.Hx.val i j * hxBack g f i j) / 2 +
    (f.Hy.val i j * hyBack g h i j + h.Hy.val i j * hyBack g f i j) / 2) / 2

/-- `w = a f + b h`, value by value. -/
structure Mix (a b : ℝ) (f h w : Flds ℝ) : Prop where
  Ez : ∀ i j, w.Ez.val i j = a * f.Ez.val i j + b * h.Ez.val i j
  Hx : ∀ i j, w.Hx.val i j = a * f.Hx.val i j + b * h.Hx.val i j
  Hy : ∀ i j, w.Hy.val i j = a * f.Hy.val i j + b * h.Hy.val i j

theorem mix_exists (a b : ℝ) (f h : Flds ℝ) : ∃ w, Mix a b f h w :=
  ⟨{ f with
      Ez := f.Ez.setv fun i j => a * f.Ez.val i j + b * h.Ez.val i j
      Hx := f.Hx.setv fun i j => a * f.Hx.val i j + b * h.Hx.val i j
      Hy := f.Hy.setv fun i j => a * f.Hy.val i j + b * h.Hy.val i j }, ⟨fun _ _ => rfl, fun _ _ => rfl, fun _ _ => rfl⟩⟩

theorem Mix.quiet {a b : ℝ} {f h w : Flds ℝ} (m : Mix a b f h w) {R : Box} (q : FrameQuiet f R) (p : FrameQuiet h R) : FrameQuiet w R where
  left j := by rw [m.Hy, q.left, p.left]; ring
  right j := by rw [m.Ez, q.right, p.right]; ring
  bottom i := by rw [m.Hx, q.bottom, p.bottom]; ring
  top i := by rw [m.Ez, q.top, p.top]; ring

theorem Mix.energy {a b : ℝ} {f h w : Flds ℝ} (m : Mix a b f h w) (g : Grid ℝ) (med : ℤ → ℤ → Simple ℝ) (R : Box) :
    energy g med w R = a ^ 2 * energy g med f R + 2 * a * b * bil g med f h R + b ^ 2 * energy g med h R := by
  unfold Spec.energy bil
  have e : R.sum (fun i j => ((med i j).eps * w.Ez.val i j ^ 2 + w.Hx.val i j * hxBack g w i j + w.Hy.val i j * hyBack g w i j) / 2) =
      R.sum (fun i j => a ^ 2 * (((med i j).eps * f.Ez.val i j ^ 2 + f.Hx.val i j * hxBack g f i j + f.Hy.val i j * hyBack g f i j) / 2) +
        (2 * a * b * (((med i j).eps * (f.Ez.val i j * h.Ez.val i j) + (f.Hx.val i j * hxBack g h i j + h.Hx.val i j * hxBack g f i j) / 2 +
          (f.Hy.val i j * hyBack g h i j + h.Hy.val i j * hyBack g f i j) / 2) / 2) +
        b ^ 2 * (((med i j).eps * h.Ez.val i j ^ 2 + h.Hx.val i j * hxBack g h i j + h.Hy.val i j * hyBack g h i j) / 2))) := by
    refine R.sum_congr fun i j _ => ?_
    unfold hxBack hyBack
    simp only [m.Ez, m.Hx, m.Hy]
    ring
  rw [e, Box.sum_add, Box.sum_add, Box.sum_mul, Box.sum_mul, Box.sum_mul]
  ring

section
variable {g : Grid ℝ} (hg : Lawful g) {med : ℤ → ℤ → Simple ℝ} {R : Box} (h1 : R.l ≤ R.r + 1) (h2 : R.b ≤ R.t + 1)
  (heps : ∀ i j, R.Mem i j → 1 ≤ (med i j).eps)
include hg h1 h2 heps

theorem energy_nonneg {f : Flds ℝ} (q : FrameQuiet f R) : 0 ≤ energy g med f R := by
  have := C18_definite g hg med R h1 h2 heps f q
  have s : 0 ≤ size g f R := mul_nonneg (sq_nonneg _) (R.sum_nonneg fun i j _ => by positivity)
  linarith

theorem bil_sq_le {f h : Flds ℝ} (q : FrameQuiet f R) (p : FrameQuiet h R) : bil g med f h R ^ 2 ≤ energy g med f R * energy g med h R := by
  have key : ∀ x : ℝ, 0 ≤ energy g med f R * (x * x) + (2 * bil g med f h R) * x + energy g med h R := by
    intro x
    obtain ⟨w, m⟩ := mix_exists x 1 f h
    have := energy_nonneg hg h1 h2 heps (m.quiet q p)
    rw [m.energy g med R] at this
    nlinarith
  have := discrim_le_zero key
  unfold discrim at this
  nlinarith

/-- The square root of the energy obeys the triangle inequality. -/
theorem energy_triangle {f h w : Flds ℝ} (m : Mix 1 1 f h w) (q : FrameQuiet f R) (p : FrameQuiet h R) :
    Real.sqrt (energy g med w R) ≤ Real.sqrt (energy g med f R) + Real.sqrt (energy g med h R) := by
  have a := energy_nonneg hg h1 h2 heps q
  have b := energy_nonneg hg h1 h2 heps p
  have c := bil_sq_le hg h1 h2 heps q p
  have d : bil g med f h R ≤ Real.sqrt (energy g med f R) * Real.sqrt (energy g med h R) := by
    rw [← Real.sqrt_mul a]
    exact Real.le_sqrt_of_sq_le c
  refine Real.sqrt_le_iff.mpr ⟨by positivity, ?_⟩
  rw [m.energy g med R]
  nlinarith [Real.sq_sqrt a, Real.sq_sqrt b]
end

/-- The step of the magnetic field at a node beyond the layer. -/
theorem Core.Step.magnetic_driven {c c' : Core ℝ} {srcs srcs' E2 E3 E4 f} (hc : c.Std) (h : c.Step srcs c' srcs' E2 E3 E4 f) {i j : ℤ}
    (hb : Beyond c.g i j) (ht : c.tfsf = none) {m : Simple ℝ} (hm : HasMedium c.f (.simple m) c.g.dt i j) :
    c'.f.Hx.val i j = c.f.Hx.val i j + totalContrib c.g (c.t + c.g.dt) srcs .Hx ⟨i, j⟩ -
      c.g.dt * ((c'.f.Ez.val i (j + 1) - c'.f.Ez.val i j) / c.g.dx) ∧
    c'.f.Hy.val i j = c.f.Hy.val i j + totalContrib c.g (c.t + c.g.dt) srcs .Hy ⟨i, j⟩ +
      c.g.dt * ((c'.f.Ez.val (i + 1) j - c'.f.Ez.val i j) / c.g.dx) := by
  obtain ⟨b1, b2, b3, b4⟩ := hb
  have hT := hc.thick
  have nx : c.pml.Nx = c.g.Nx := hc.wf.pml.nx
  have ny : c.pml.Ny = c.g.Ny := hc.wf.pml.ny
  have nt : c.pml.par.T = c.g.T := hc.wf.pml.thk
  have tn : c'.tfsf = none := by
    have := h.tf
    rw [ht] at this
    exact (Except.ok.inj this).symm
  have hin : (i, j) ∈ rect 1 (c.g.Nx - 1) 1 (c.g.Ny - 1) := by rw [mem_rect]; simp only; omega
  obtain ⟨-, -, q3, q4⟩ := h.coef
  constructor
  · rw [h.eX, tn, h.eE]
    simp only [Tensor.upd, Pml.corrHx, Pml.afterE, nx, ny, nt, tfHx]
    rw [if_pos hin, if_neg (by rw [mem_rect]; simp only; omega), if_neg (by rw [mem_rect]; simp only; omega)]
    simp only [hxVal, hc.sc.khdy, q3, q4, hm.Da, hm.Db, h.fX, MatKind.Da, MatKind.Db, Simple.Da, Simple.Db]
    ring
  · rw [h.eY, tn, h.eE]
    simp only [Tensor.upd, Pml.corrHy, Pml.afterE, nx, ny, nt, tfHy]
    rw [if_pos hin, if_neg (by rw [mem_rect]; simp only; omega), if_neg (by rw [mem_rect]; simp only; omega)]
    simp only [hyVal, hc.sc.khdx, q3, q4, hm.Da, hm.Db, h.fY, MatKind.Da, MatKind.Db, Simple.Da, Simple.Db]
    ring

theorem totalContrib_le (g : Grid ℝ) (t : ℝ) (C : Fields) (p : V2 ℤ) : ∀ srcs : List (Source ℝ), |totalContrib g t srcs C p| ≤ loudness srcs t
  | [] => by simp [totalContrib, loudness]
  | s :: l => by
    have ih := totalContrib_le g t C p l
    unfold totalContrib loudness at *
    rw [List.map_cons, List.map_cons, List.sum_cons, List.sum_cons]
    refine (abs_add_le _ _).trans (add_le_add ?_ ih)
    unfold contrib
    split_ifs
    · exact le_rfl
    · simp

theorem loudness_nonneg (t : ℝ) : ∀ srcs : List (Source ℝ), 0 ≤ loudness srcs t
  | [] => by simp [loudness]
  | s :: l => by
    have ih := loudness_nonneg t l
    unfold loudness at *
    rw [List.map_cons, List.sum_cons]
    positivity

theorem totalContrib_out {g : Grid ℝ} {t : ℝ} {R : Box} {srcs : List (Source ℝ)} (hs : ∀ s ∈ srcs, DrivesIn g R s) (C : Fields) {i j : ℤ}
    (h : ¬ R.Mem i j) : totalContrib g t srcs C ⟨i, j⟩ = 0 :=
  totalContrib_zero fun s hs' hd => h (hs s hs' C i j hd)

/-- The fields that the sources alone make in one step. -/
noncomputable def jolt (c : Core ℝ) (srcs : List (Source ℝ)) (R : Box) (f : Flds ℝ) : Flds ℝ :=
  { f with
    Ez := f.Ez.setv fun i j => totalContrib c.g (c.t + c.g.dt) srcs .Ez ⟨i, j⟩
    Hx := f.Hx.setv fun i j => open Classical in if R.Mem i j then totalContrib c.g (c.t + c.g.dt) srcs .Hx ⟨i, j⟩ - c.g.dt *
      ((totalContrib c.g (c.t + c.g.dt) srcs .Ez ⟨i, j + 1⟩ - totalContrib c.g (c.t + c.g.dt) srcs .Ez ⟨i, j⟩) / c.g.dx) else 0
    Hy := f.Hy.setv fun i j => open Classical in if R.Mem i j then totalContrib c.g (c.t + c.g.dt) srcs .Hy ⟨i, j⟩ + c.g.dt *
      ((totalContrib c.g (c.t + c.g.dt) srcs .Ez ⟨i + 1, j⟩ - totalContrib c.g (c.t + c.g.dt) srcs .Ez ⟨i, j⟩) / c.g.dx) else 0 }

theorem jolt_quiet {c : Core ℝ} {srcs : List (Source ℝ)} {R : Box} (hs : ∀ s ∈ srcs, DrivesIn c.g R s) (f : Flds ℝ) : FrameQuiet (jolt c srcs R f) R where
  left j := if_neg (by unfold Box.Mem; omega)
  right j := totalContrib_out hs .Ez (by unfold Box.Mem; omega)
  bottom i := if_neg (by unfold Box.Mem; omega)
  top i := totalContrib_out hs .Ez (by unfold Box.Mem; omega)

theorem jolt_energy {c : Core ℝ} (hg : Lawful c.g) (srcs : List (Source ℝ)) {R : Box} (f : Flds ℝ) {med : ℤ → ℤ → Simple ℝ} {epsMax : ℝ}
    (he : ∀ i j, R.Mem i j → 1 ≤ (med i j).eps ∧ (med i j).eps ≤ epsMax) :
    Real.sqrt (energy c.g med (jolt c srcs R f) R) ≤ gain c.g R epsMax * loudness srcs (c.t + c.g.dt) := by
  set A := loudness srcs (c.t + c.g.dt)
  have hA : 0 ≤ A := loudness_nonneg _ _
  have hx := hg.dx
  have key : energy c.g med (jolt c srcs R f) R ≤ c.g.dx ^ 2 * R.count * ((epsMax + 4) / 2) * A ^ 2 := by
    unfold energy Box.count
    have : R.sum (fun i j => ((med i j).eps * (jolt c srcs R f).Ez.val i j ^ 2 + (jolt c srcs R f).Hx.val i j * hxBack c.g (jolt c srcs R f) i j +
        (jolt c srcs R f).Hy.val i j * hyBack c.g (jolt c srcs R f) i j) / 2) ≤ R.sum fun i j => ((epsMax + 4) / 2 * A ^ 2) * 1 := by
      refine R.sum_le fun i j h => ?_
      have c1 : c.g.dt * 2 = c.g.dx := by rw [hg.dt]; ring
      have b1 := totalContrib_le c.g (c.t + c.g.dt) .Ez ⟨i, j⟩ srcs
      have b2 := totalContrib_le c.g (c.t + c.g.dt) .Ez ⟨i + 1, j⟩ srcs
      have b3 := totalContrib_le c.g (c.t + c.g.dt) .Ez ⟨i, j + 1⟩ srcs
      have b4 := totalContrib_le c.g (c.t + c.g.dt) .Hx ⟨i, j⟩ srcs
      have b5 := totalContrib_le c.g (c.t + c.g.dt) .Hy ⟨i, j⟩ srcs
      unfold hxBack hyBack jolt
      simp only [Tensor.setv_val, if_pos h]
      set e0 := totalContrib c.g (c.t + c.g.dt) srcs .Ez ⟨i, j⟩
      set e1 := totalContrib c.g (c.t + c.g.dt) srcs .Ez ⟨i + 1, j⟩
      set e2 := totalContrib c.g (c.t + c.g.dt) srcs .Ez ⟨i, j + 1⟩
      set x := totalContrib c.g (c.t + c.g.dt) srcs .Hx ⟨i, j⟩
      set y := totalContrib c.g (c.t + c.g.dt) srcs .Hy ⟨i, j⟩
      have q1 : c.g.dt * ((e2 - e0) / c.g.dx) = (e2 - e0) / 2 := by rw [hg.dt]; field_simp
      have q2 : c.g.dt * ((e1 - e0) / c.g.dx) = (e1 - e0) / 2 := by rw [hg.dt]; field_simp
      rw [q1, q2, sub_add_cancel, add_sub_cancel_right]
      have sq : ∀ z : ℝ, |z| ≤ A → z ^ 2 ≤ A ^ 2 := fun z hz => sq_le_sq' (abs_le.mp hz).1 (abs_le.mp hz).2
      have s0 := sq _ b1
      have s1 := sq _ b2
      have s2 := sq _ b3
      have s3 := sq _ b4
      have s4 := sq _ b5
      obtain ⟨he1, he2⟩ := he i j h
      have t1 : (med i j).eps * e0 ^ 2 ≤ epsMax * A ^ 2 := mul_le_mul he2 s0 (sq_nonneg _) (by linarith)
      nlinarith [sq_nonneg (x + (e2 - e0) / 2), sq_nonneg (e2 + e0), sq_nonneg (y - (e1 - e0) / 2), sq_nonneg (e1 + e0)]
    rw [Box.sum_mul] at this
    have := mul_le_mul_of_nonneg_left this (sq_nonneg c.g.dx)
    calc _ ≤ _ := this
      _ = _ := by ring
  refine (Real.sqrt_le_sqrt key).trans ?_
  unfold gain
  rw [Real.sqrt_mul' _ (sq_nonneg A), Real.sqrt_sq hA]

end Qbox
