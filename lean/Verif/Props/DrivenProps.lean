import Verif.Lemmas.Driven
import Verif.Props.ProfileProps

/-! # Simulations driven by sources (C70) -/

namespace Qbox.Props
open Qbox Scalar Spec

/-- The box without absorbing layer and without dispersive media, filled with passive media. -/
structure Closed (c : Core ℝ) (med : ℤ → ℤ → Simple ℝ) : Prop where
  std : c.Std
  layer : c.g.T = 0
  wave : c.tfsf = none
  debye : c.debye = []
  drude : c.drude = []
  media : Passive c med (updatedNodes c.g)
  frame : FrameQuiet c.f (updatedNodes c.g)

theorem Closed.box {c : Core ℝ} {med : ℤ → ℤ → Simple ℝ} (h : Closed c med) :
    (updatedNodes c.g).l ≤ (updatedNodes c.g).r + 1 ∧ (updatedNodes c.g).b ≤ (updatedNodes c.g).t + 1 := by
  have := h.std.wide.nx
  have := h.std.wide.ny
  have := h.layer
  simp only [updatedNodes]
  omega

/-- One step with sources: what the step does without them, and what they add. -/
theorem driven_step {c c' : Core ℝ} {srcs srcs' E2 E3 E4 f} {med : ℤ → ℤ → Simple ℝ} (h : Closed c med) (S : c.Step srcs c' srcs' E2 E3 E4 f)
    (hs : ∀ s ∈ srcs, DrivesIn c.g (updatedNodes c.g) s) :
    Closed c' med ∧ ∃ c0 : Core ℝ, Mix 1 1 c0.f (jolt c srcs (updatedNodes c.g) c.f) c'.f ∧ FrameQuiet c0.f (updatedNodes c.g) ∧
      energy c.g med c0.f (updatedNodes c.g) ≤ energy c.g med c.f (updatedNodes c.g) := by
  obtain ⟨b1, b2⟩ := h.box
  obtain ⟨c0, l0, F2, F3, F4, f0, -, S0⟩ := Core.update_step h.std [] (by simp)
  obtain rfl : l0 = [] := by have := S0.same; cases this; rfl
  obtain ⟨q0, -, -⟩ := closed_step h.std h.layer S0 h.wave h.debye h.drude h.media.lorentz h.frame
  rw [S0.g] at q0
  obtain ⟨m0, -, -, laws⟩ := passive_step h.std S0 h.media h.wave (by simp)
  obtain ⟨e0, -⟩ := energy_step h.std S0 b1 b2 h.media h.wave (by simp) h.frame q0
  have lists : ∀ {srcs srcs' : List (Source ℝ)} {c' E2 E3 E4 f}, c.Step srcs c' srcs' E2 E3 E4 f →
      c'.debye = [] ∧ c'.drude = [] ∧ c'.lorentz = [] ∧ c'.tfsf = none ∧ E4 = c.E1 := by
    intro srcs srcs' c' E2 E3 E4 f S
    have a2 := S.hd
    rw [h.debye] at a2
    have a2' := Prod.mk.inj (Except.ok.inj a2)
    have a3 := S.hr
    rw [h.drude] at a3
    have a3' := Prod.mk.inj (Except.ok.inj a3)
    have a4 := S.hl
    rw [h.media.lorentz] at a4
    have a4' := Prod.mk.inj (Except.ok.inj a4)
    have a5 := S.tf
    rw [h.wave] at a5
    exact ⟨a2'.1.symm, a3'.1.symm, a4'.1.symm, (Except.ok.inj a5).symm, by rw [← a4'.2, ← a3'.2, ← a2'.2]⟩
  obtain ⟨d1, d2, d3, d4, d5⟩ := lists S
  obtain ⟨-, -, -, t0, d5'⟩ := lists S0
  have nx : c.pml.Nx = c.g.Nx := h.std.wf.pml.nx
  have ny : c.pml.Ny = c.g.Ny := h.std.wf.pml.ny
  have nt : c.pml.par.T = 0 := by rw [h.std.wf.pml.thk, h.layer]
  have hE : ∀ i j, c'.f.Ez.val i j = c0.f.Ez.val i j + totalContrib c.g (c.t + c.g.dt) srcs .Ez ⟨i, j⟩ := by
    intro i j
    rw [S.eE, S0.eE, S.fE, S0.fE, d5, d5']
    simp [totalContrib]
  have out : ∀ {i j : ℤ}, ¬ (updatedNodes c.g).Mem i j → ¬ (i, j) ∈ rect 1 (c.g.Nx - 1) 1 (c.g.Ny - 1) := by
    intro i j hn hm
    rw [mem_rect] at hm
    apply hn
    unfold Box.Mem updatedNodes
    simp only at hm ⊢
    omega
  have mix : Mix 1 1 c0.f (jolt c srcs (updatedNodes c.g) c.f) c'.f := by
    refine ⟨fun i j => ?_, fun i j => ?_, fun i j => ?_⟩
    · rw [hE]; simp [jolt]
    · by_cases hm : (updatedNodes c.g).Mem i j
      · rw [(S.magnetic_driven h.std (h.media.beyond i j hm) h.wave (h.media.medium i j hm).medium).1, (laws i j hm).2.1, hE, hE]
        simp only [jolt, Tensor.setv_val, if_pos hm]
        ring
      · have n := out hm
        rw [S.eX, S0.eX, d4, t0]
        simp only [Tensor.upd, Pml.corrHx, Pml.afterE, nx, ny, nt, tfHx]
        rw [if_neg n, if_neg n, if_neg (by rw [mem_rect]; simp only; omega), if_neg (by rw [mem_rect]; simp only; omega),
          if_neg (by rw [mem_rect]; simp only; omega), if_neg (by rw [mem_rect]; simp only; omega), S.fX, S0.fX, totalContrib_out hs .Hx hm]
        simp [totalContrib, jolt, hm]
    · by_cases hm : (updatedNodes c.g).Mem i j
      · rw [(S.magnetic_driven h.std (h.media.beyond i j hm) h.wave (h.media.medium i j hm).medium).2, (laws i j hm).2.2, hE, hE]
        simp only [jolt, Tensor.setv_val, if_pos hm]
        ring
      · have n := out hm
        rw [S.eY, S0.eY, d4, t0]
        simp only [Tensor.upd, Pml.corrHy, Pml.afterE, nx, ny, nt, tfHy]
        rw [if_neg n, if_neg n, if_neg (by rw [mem_rect]; simp only; omega), if_neg (by rw [mem_rect]; simp only; omega),
          if_neg (by rw [mem_rect]; simp only; omega), if_neg (by rw [mem_rect]; simp only; omega), S.fY, S0.fY, totalContrib_out hs .Hy hm]
        simp [totalContrib, jolt, hm]
  refine ⟨⟨S.std, by rw [S.g, h.layer], d4, d1, d2, ?_, by rw [S.g]; exact mix.quiet q0 (jolt_quiet hs _)⟩, c0, mix, q0, e0⟩
  rw [S.g]
  refine ⟨by rw [S.g]; exact h.media.beyond, fun i j hm => ?_, h.media.eps, h.media.conduc, d3⟩
  obtain ⟨k1, k2, k3, k4⟩ := S.coef'
  have hm' := (h.media.medium i j hm).medium
  exact ⟨by rw [d1]; simp, by rw [d2]; simp, by rw [d3]; simp,
    ⟨by rw [k1, S.g]; exact hm'.Ca, by rw [k2, S.g]; exact hm'.Cb, by rw [k3, S.g]; exact hm'.Da, by rw [k4, S.g]; exact hm'.Db⟩⟩

theorem emittedBy_succ {srcs : List (Source ℝ)} {t dt : ℝ} {n : ℕ} :
    emittedBy srcs t dt (n + 1) = loudness srcs (t + dt) + emittedBy srcs (t + dt) dt n := by
  unfold emittedBy
  rw [Finset.sum_range_succ']
  have : ∀ m : ℕ, t + (((m + 1 : ℕ) : ℝ) + 1) * dt = t + dt + ((m : ℝ) + 1) * dt := fun m => by push_cast; ring
  simp only [this]
  norm_num
  ring

theorem same_loudness {srcs srcs' : List (Source ℝ)} (h : List.Forall₂ SameSrc srcs srcs') : loudness srcs' = loudness srcs := by
  funext t
  unfold loudness
  induction h with
  | nil => rfl
  | cons h _ ih => rw [List.map_cons, List.map_cons, List.sum_cons, List.sum_cons, ih, h.2.2]

/-- **C70**. Without absorbing layer and dispersive media, for any sources of any components with any signals, any field at the start that vanishes on
the edge, any media of permittivity between one and `epsMax` and of any conductivity, and any number of updates: the root of the energy grows at
most in proportion to what the sources emit. -/
theorem C70_driven (n : ℕ) (c : Core ℝ) (med : ℤ → ℤ → Simple ℝ) (h : Closed c med) (epsMax : ℝ)
    (he : ∀ i j, (updatedNodes c.g).Mem i j → (med i j).eps ≤ epsMax) (srcs : List (Source ℝ)) (hf : ∀ s ∈ srcs, Fits c.g s)
    (hs : ∀ s ∈ srcs, DrivesIn c.g (updatedNodes c.g) s) :
    ∃ c' srcs', c.run n srcs = .ok (c', srcs') ∧
      Real.sqrt (energy c.g med c'.f (updatedNodes c.g)) ≤ Real.sqrt (energy c.g med c.f (updatedNodes c.g)) +
        gain c.g (updatedNodes c.g) epsMax * emittedBy srcs c.t c.g.dt n ∧
      size c.g c'.f (updatedNodes c.g) ≤ 8 * energy c.g med c'.f (updatedNodes c.g) := by
  suffices key : ∀ (n : ℕ) (c : Core ℝ), Closed c med → (∀ i j, (updatedNodes c.g).Mem i j → (med i j).eps ≤ epsMax) → ∀ srcs : List (Source ℝ),
      (∀ s ∈ srcs, Fits c.g s) → (∀ s ∈ srcs, DrivesIn c.g (updatedNodes c.g) s) → ∃ c' srcs', c.run n srcs = .ok (c', srcs') ∧ c'.g = c.g ∧ Closed c' med ∧
        Real.sqrt (energy c.g med c'.f (updatedNodes c.g)) ≤ Real.sqrt (energy c.g med c.f (updatedNodes c.g)) +
          gain c.g (updatedNodes c.g) epsMax * emittedBy srcs c.t c.g.dt n by
    obtain ⟨c', srcs', r, g', k, e⟩ := key n c h he srcs hf hs
    refine ⟨c', srcs', r, e, ?_⟩
    obtain ⟨b1, b2⟩ := h.box
    have := C18_definite c.g h.std.law med (updatedNodes c.g) b1 b2 h.media.eps c'.f (by rw [← g']; exact k.frame)
    linarith
  clear! c srcs n
  intro n
  induction n with
  | zero => intro c h he srcs hf hs; exact ⟨c, srcs, rfl, rfl, h, by simp [emittedBy]⟩
  | succ n ih =>
    intro c h he srcs hf hs
    obtain ⟨c1, l1, E2, E3, E4, f, u, S⟩ := Core.update_step h.std srcs hf
    obtain ⟨h1, c0, mix, q0, e0⟩ := driven_step h S hs
    obtain ⟨b1, b2⟩ := h.box
    have hs1 : ∀ s ∈ l1, DrivesIn c1.g (updatedNodes c1.g) s := by
      intro s' hs' C i j hd
      obtain ⟨s, m, e, -⟩ := forall2_mem S.same s' hs'
      rw [S.g]
      refine hs s m C i j ?_
      unfold Drives at hd ⊢
      rw [S.g, e] at hd
      exact hd
    obtain ⟨c2, l2, v, g2, h2, e2⟩ := ih c1 h1 (by rw [S.g]; exact he) l1 S.fits hs1
    rw [S.g] at e2 g2
    refine ⟨c2, l2, by unfold Core.run; rw [u]; exact v, g2, h2, e2.trans ?_⟩
    have t1 := energy_triangle h.std.law b1 b2 h.media.eps mix q0 (jolt_quiet hs _)
    have t2 := jolt_energy h.std.law srcs (R := updatedNodes c.g) c.f (med := med) (epsMax := epsMax) fun i j hm => ⟨h.media.eps i j hm, he i j hm⟩
    have t3 := Real.sqrt_le_sqrt e0
    rw [emittedBy_succ, S.t, show emittedBy l1 (c.t + c.g.dt) c.g.dt n = emittedBy srcs (c.t + c.g.dt) c.g.dt n by unfold emittedBy; rw [same_loudness S.same]]
    rw [mul_add]
    linarith

end Qbox.Props
