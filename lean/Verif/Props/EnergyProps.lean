import Verif.Lemmas.Energy
import Verif.Props.MediumProps
import Verif.Props.LocalProps
import Verif.Props.RestartProps
import Verif.Props.TfsfProps
import Verif.Props.MaterialGridProps

/-! # Discrete energy (C18) -/

namespace Qbox.Props
open Qbox Scalar Spec

/-- Laws of one step at every node of a passive rectangle that nothing drives. -/
theorem passive_step {c c' : Core ℝ} {srcs srcs' E2 E3 E4 f} (hc : c.Std) (S : c.Step srcs c' srcs' E2 E3 E4 f) {med : ℤ → ℤ → Simple ℝ} {R : Box}
    (hp : Passive c med R) (ht : c.tfsf = none) (hs : ∀ s ∈ srcs, Spec.Apart c.g R.Mem s) :
    Passive c' med R ∧ c'.tfsf = none ∧ (∀ s ∈ srcs', Spec.Apart c'.g R.Mem s) ∧ ∀ i j, R.Mem i j →
      ConductiveLaw (med i j) c.g.dt (c.f.Ez.val i j) (c'.f.Ez.val i j) (curlH c.f c.g.dx i j) ∧
      c'.f.Hx.val i j = c.f.Hx.val i j - c.g.dt * ((c'.f.Ez.val i (j + 1) - c'.f.Ez.val i j) / c.g.dx) ∧
      c'.f.Hy.val i j = c.f.Hy.val i j + c.g.dt * ((c'.f.Ez.val (i + 1) j - c'.f.Ez.val i j) / c.g.dx) := by
  have un : ∀ i j, R.Mem i j → Undriven c srcs i j := fun i j h => ⟨fun s hs' => hs s hs' .Ez i j h, by rw [ht]; simp⟩
  refine ⟨⟨by rw [S.g]; exact hp.beyond, fun i j h => (S.inSimple hc (hp.beyond i j h) (un i j h) hp.lorentz (hp.medium i j h)).1, hp.eps, hp.conduc, ?_⟩,
    ?_, ?_, fun i j h => ⟨?_, S.magnetic hc (hp.beyond i j h) (fun s hs' C => hs s hs' C i j h) ht (hp.medium i j h).medium⟩⟩
  · have := S.hl
    rw [hp.lorentz] at this
    exact (Prod.mk.inj (Except.ok.inj this)).1.symm
  · have := S.tf
    rw [ht] at this
    exact (Except.ok.inj this).symm
  · intro s' hs'
    obtain ⟨s, h1, e, -⟩ := forall2_mem S.same s' hs'
    intro C i j h
    have := hs s h1 C i j h
    unfold Drives at this ⊢
    rw [S.g, e]
    exact this
  · rw [(C24_unique (med i j) c.g.dt hc.dt_pos (by linarith [hp.eps i j h]) (hp.conduc i j h)).1]
    exact (S.inSimple hc (hp.beyond i j h) (un i j h) hp.lorentz (hp.medium i j h)).2.2

/-- The balance at every node implies the balance of the rectangle. -/
theorem balance_of_laws {g : Grid ℝ} (hx : 0 < g.dx) (hd : 0 < g.dt) {med : ℤ → ℤ → Simple ℝ} {R : Box} (h1 : R.l ≤ R.r + 1) (h2 : R.b ≤ R.t + 1)
    {f f' : Flds ℝ} (law : ∀ i j, R.Mem i j →
      ConductiveLaw (med i j) g.dt (f.Ez.val i j) (f'.Ez.val i j) (curlH f g.dx i j) ∧
      f'.Hx.val i j = f.Hx.val i j - g.dt * ((f'.Ez.val i (j + 1) - f'.Ez.val i j) / g.dx) ∧
      f'.Hy.val i j = f.Hy.val i j + g.dt * ((f'.Ez.val (i + 1) j - f'.Ez.val i j) / g.dx)) :
    energy g med f' R - energy g med f R = - g.dt * (heat g med f f' R + outflow g f f' R) := by
  unfold energy heat outflow
  rw [← mul_sub, ← Box.sum_sub]
  have e : ∀ i j, R.Mem i j →
      ((med i j).eps * f'.Ez.val i j ^ 2 + f'.Hx.val i j * hxBack g f' i j + f'.Hy.val i j * hyBack g f' i j) / 2 -
      ((med i j).eps * f.Ez.val i j ^ 2 + f.Hx.val i j * hxBack g f i j + f.Hy.val i j * hyBack g f i j) / 2 =
      - g.dt * ((med i j).conduc * meanEz f f' i j ^ 2) +
      (g.dt / g.dx * (f.Hy.val (i + 1 - 1) j * meanEz f f' (i + 1) j - f.Hy.val (i - 1) j * meanEz f f' i j) +
      - (g.dt / g.dx) * (f.Hx.val i (j + 1 - 1) * meanEz f f' i (j + 1) - f.Hx.val i (j - 1) * meanEz f f' i j)) := by
    intro i j h
    obtain ⟨l1, l2, l3⟩ := law i j h
    have b1 : hxBack g f' i j = f.Hx.val i j := by unfold hxBack; rw [l2]; ring
    have b2 : hyBack g f' i j = f.Hy.val i j := by unfold hyBack; rw [l3]; ring
    rw [b1, b2, l2, l3]
    unfold ConductiveLaw curlH at l1
    have l1' : (med i j).eps * (f'.Ez.val i j - f.Ez.val i j) = g.dt * ((f.Hy.val i j - f.Hy.val (i - 1) j) / g.dx -
        (f.Hx.val i j - f.Hx.val i (j - 1)) / g.dx - (med i j).conduc * (f'.Ez.val i j + f.Ez.val i j) / 2) := by
      rw [← l1]; field_simp; ring
    have l4 : (med i j).eps * f'.Ez.val i j ^ 2 - (med i j).eps * f.Ez.val i j ^ 2 = (g.dt * ((f.Hy.val i j - f.Hy.val (i - 1) j) / g.dx -
        (f.Hx.val i j - f.Hx.val i (j - 1)) / g.dx - (med i j).conduc * (f'.Ez.val i j + f.Ez.val i j) / 2)) * (f'.Ez.val i j + f.Ez.val i j) := by
      rw [← l1']; ring
    have l5 : (med i j).eps * f'.Ez.val i j ^ 2 = (med i j).eps * f.Ez.val i j ^ 2 + (g.dt * ((f.Hy.val i j - f.Hy.val (i - 1) j) / g.dx -
        (f.Hx.val i j - f.Hx.val i (j - 1)) / g.dx - (med i j).conduc * (f'.Ez.val i j + f.Ez.val i j) / 2)) * (f'.Ez.val i j + f.Ez.val i j) := by
      linarith
    rw [l5]
    unfold hxBack hyBack meanEz
    simp only [add_sub_cancel_right]
    ring
  rw [Box.sum_congr R e, Box.sum_add, Box.sum_add, Box.sum_mul, Box.sum_mul, Box.sum_mul, Box.sum_x R h1 fun i j => f.Hy.val (i - 1) j * meanEz f f' i j,
    Box.sum_y R h2 fun i j => f.Hx.val i (j - 1) * meanEz f f' i j]
  simp only [add_sub_cancel_right]
  have s1 : ∑ j ∈ Finset.Icc R.b R.t, (-(meanEz f f' (R.r + 1) j * f.Hy.val R.r j) + meanEz f f' R.l j * f.Hy.val (R.l - 1) j) =
      - ∑ j ∈ Finset.Icc R.b R.t, (f.Hy.val R.r j * meanEz f f' (R.r + 1) j - f.Hy.val (R.l - 1) j * meanEz f f' R.l j) := by
    rw [← Finset.sum_neg_distrib]
    exact Finset.sum_congr rfl fun j _ => by ring
  have s2 : ∑ i ∈ Finset.Icc R.l R.r, (meanEz f f' i (R.t + 1) * f.Hx.val i R.t - meanEz f f' i R.b * f.Hx.val i (R.b - 1)) =
      ∑ i ∈ Finset.Icc R.l R.r, (f.Hx.val i R.t * meanEz f f' i (R.t + 1) - f.Hx.val i (R.b - 1) * meanEz f f' i R.b) :=
    Finset.sum_congr rfl fun i _ => by ring
  rw [s1, s2]
  field_simp
  ring

/-- **C18** (balance) For every state of a simulation and every rectangle beyond the absorbing layer filled with conducting dielectrics, in which
no source is: one update changes the energy in the rectangle by exactly what flows out and what is turned into heat. -/
theorem C18_balance (c : Core ℝ) (hc : c.Std) (srcs : List (Source ℝ)) (hf : ∀ s ∈ srcs, Fits c.g s) (med : ℤ → ℤ → Simple ℝ) (R : Box)
    (h1 : R.l ≤ R.r + 1) (h2 : R.b ≤ R.t + 1) (hp : Passive c med R) (ht : c.tfsf = none) (hs : ∀ s ∈ srcs, Spec.Apart c.g R.Mem s) :
    ∃ c' srcs', c.update srcs = .ok (c', srcs') ∧
      energy c.g med c'.f R - energy c.g med c.f R = - c.g.dt * (heat c.g med c.f c'.f R + outflow c.g c.f c'.f R) := by
  obtain ⟨c', srcs', E2, E3, E4, f, u, S⟩ := Core.update_step hc srcs hf
  exact ⟨c', srcs', u, balance_of_laws hc.law.dx hc.dt_pos h1 h2 (passive_step hc S hp ht hs).2.2.2⟩

theorem outflow_quiet {g : Grid ℝ} {f f' : Flds ℝ} {R : Box} (q : FrameQuiet f R) (q' : FrameQuiet f' R) : outflow g f f' R = 0 := by
  unfold outflow meanEz
  rw [Finset.sum_eq_zero, Finset.sum_eq_zero]
  · simp
  · intro i _
    rw [q.top, q'.top, q.bottom]; ring
  · intro j _
    rw [q.right, q'.right, q.left]; ring

theorem heat_nonneg {c : Core ℝ} {med : ℤ → ℤ → Simple ℝ} {R : Box} (hp : Passive c med R) (g : Grid ℝ) (f f' : Flds ℝ) : 0 ≤ heat g med f f' R :=
  mul_nonneg (sq_nonneg _) (R.sum_nonneg fun i j h => mul_nonneg (hp.conduc i j h) (sq_nonneg _))

theorem heat_lossless {med : ℤ → ℤ → Simple ℝ} {R : Box} (hl : Lossless med R) (g : Grid ℝ) (f f' : Flds ℝ) : heat g med f f' R = 0 := by
  unfold heat
  rw [R.sum_congr (G := fun _ _ => 0) fun i j h => by rw [hl i j h]; ring]
  unfold Box.sum; simp

/-- **C18** (positive definite) At the time step the grid chooses, half a cell, the energy is at least an eighth of the plain sum of squares of the
field, for every field whose frame is quiet and every permittivity of at least one. -/
theorem C18_definite (g : Grid ℝ) (hg : Lawful g) (med : ℤ → ℤ → Simple ℝ) (R : Box) (h1 : R.l ≤ R.r + 1) (h2 : R.b ≤ R.t + 1)
    (heps : ∀ i j, R.Mem i j → 1 ≤ (med i j).eps) (f : Flds ℝ) (q : FrameQuiet f R) : size g f R / 8 ≤ energy g med f R := by
  have hx := hg.dx
  have key : (R.sum fun i j => f.Ez.val i j ^ 2 + f.Hx.val i j ^ 2 + f.Hy.val i j ^ 2) / 8 ≤
      R.sum fun i j => ((med i j).eps * f.Ez.val i j ^ 2 + f.Hx.val i j * hxBack g f i j + f.Hy.val i j * hyBack g f i j) / 2 := by
    -- squares of the neighbours
    have nx : R.sum (fun i j => f.Ez.val (i + 1) j ^ 2 - f.Ez.val i j ^ 2) ≤ 0 := by
      rw [Box.sum_x R h1 fun i j => f.Ez.val i j ^ 2]
      refine Finset.sum_nonpos fun j _ => ?_
      rw [q.right]; nlinarith [sq_nonneg (f.Ez.val R.l j)]
    have ny : R.sum (fun i j => f.Ez.val i (j + 1) ^ 2 - f.Ez.val i j ^ 2) ≤ 0 := by
      rw [Box.sum_y R h2 fun i j => f.Ez.val i j ^ 2]
      refine Finset.sum_nonpos fun i _ => ?_
      rw [q.top]; nlinarith [sq_nonneg (f.Ez.val i R.b)]
    have node : R.sum (fun i j => 1 / 8 * (f.Ez.val i j ^ 2 + f.Hx.val i j ^ 2 + f.Hy.val i j ^ 2) +
        (- (1 / 12) * (f.Ez.val (i + 1) j ^ 2 - f.Ez.val i j ^ 2) + - (1 / 12) * (f.Ez.val i (j + 1) ^ 2 - f.Ez.val i j ^ 2))) ≤
        R.sum fun i j => ((med i j).eps * f.Ez.val i j ^ 2 + f.Hx.val i j * hxBack g f i j + f.Hy.val i j * hyBack g f i j) / 2 := by
      refine R.sum_le fun i j h => ?_
      have he := heps i j h
      have e1 : hxBack g f i j = f.Hx.val i j + (f.Ez.val i (j + 1) - f.Ez.val i j) / 2 := by
        unfold hxBack; rw [hg.dt]; field_simp
      have e2 : hyBack g f i j = f.Hy.val i j - (f.Ez.val (i + 1) j - f.Ez.val i j) / 2 := by
        unfold hyBack; rw [hg.dt]; field_simp
      rw [e1, e2]
      set E := f.Ez.val i j
      set X := f.Hx.val i j
      set Y := f.Hy.val i j
      set Ex := f.Ez.val (i + 1) j
      set Ey := f.Ez.val i (j + 1)
      nlinarith [sq_nonneg E, mul_nonneg (sub_nonneg.mpr he) (sq_nonneg E), sq_nonneg (3 * X + (Ey - E)), sq_nonneg (3 * Y - (Ex - E)), sq_nonneg (Ex + E),
        sq_nonneg (Ey + E), sq_nonneg X, sq_nonneg Y]
    rw [Box.sum_add, Box.sum_add, Box.sum_mul, Box.sum_mul, Box.sum_mul] at node
    linarith
  unfold size energy
  have := mul_le_mul_of_nonneg_left key (sq_nonneg g.dx)
  linarith

/-- One step of a passive rectangle with a quiet frame. -/
theorem energy_step {c c' : Core ℝ} {srcs srcs' E2 E3 E4 f} (hc : c.Std) (S : c.Step srcs c' srcs' E2 E3 E4 f) {med : ℤ → ℤ → Simple ℝ} {R : Box}
    (h1 : R.l ≤ R.r + 1) (h2 : R.b ≤ R.t + 1) (hp : Passive c med R) (ht : c.tfsf = none) (hs : ∀ s ∈ srcs, Spec.Apart c.g R.Mem s)
    (q : FrameQuiet c.f R) (q' : FrameQuiet c'.f R) :
    energy c.g med c'.f R ≤ energy c.g med c.f R ∧ (Lossless med R → energy c.g med c'.f R = energy c.g med c.f R) := by
  have b := balance_of_laws hc.law.dx hc.dt_pos h1 h2 (passive_step hc S hp ht hs).2.2.2
  rw [outflow_quiet q q', add_zero] at b
  refine ⟨?_, fun hl => ?_⟩
  · have := mul_nonneg hc.dt_pos.le (heat_nonneg hp c.g c.f c'.f)
    linarith
  · rw [heat_lossless hl] at b
    linarith

/-- Nodes that an update changes. -/
def updatedNodes (g : Grid ℝ) : Box := ⟨1, g.Nx - 2, 1, g.Ny - 2⟩

theorem closed_step {c c' : Core ℝ} {E2 E3 E4 f} (hc : c.Std) (hT : c.g.T = 0) (S : c.Step [] c' [] E2 E3 E4 f) (ht : c.tfsf = none)
    (hd : c.debye = []) (hr : c.drude = []) (hl : c.lorentz = []) (q : FrameQuiet c.f (updatedNodes c.g)) :
    FrameQuiet c'.f (updatedNodes c'.g) ∧ c'.debye = [] ∧ c'.drude = [] := by
  have nx : c.pml.Nx = c.g.Nx := hc.wf.pml.nx
  have ny : c.pml.Ny = c.g.Ny := hc.wf.pml.ny
  have nt : c.pml.par.T = 0 := by rw [hc.wf.pml.thk, hT]
  have tn : c'.tfsf = none := by
    have := S.tf
    rw [ht] at this
    exact (Except.ok.inj this).symm
  have e2 := S.hd
  rw [hd] at e2
  have e2' := Prod.mk.inj (Except.ok.inj e2)
  have e3 := S.hr
  rw [hr] at e3
  have e3' := Prod.mk.inj (Except.ok.inj e3)
  have e4 := S.hl
  rw [hl] at e4
  have e4' := Prod.mk.inj (Except.ok.inj e4)
  have hE : ∀ x y, c'.f.Ez.val x y = c.E1.val x y := by
    intro x y
    rw [S.eE, S.fE, ← e4'.2, ← e3'.2, ← e2'.2, ht]
    simp [tfEz, totalContrib]
  have hE1 : ∀ x y, ¬ (x, y) ∈ rect 1 (c.g.Nx - 1) 1 (c.g.Ny - 1) → c'.f.Ez.val x y = c.f.Ez.val x y := by
    intro x y h
    rw [hE]
    unfold Core.E1
    simp only [Tensor.setv_val, Tensor.upd, Pml.corrE, nx, ny, nt]
    rw [if_neg h, if_neg (by rw [mem_rect]; simp only; omega), if_neg (by rw [mem_rect]; simp only; omega), if_neg (by rw [mem_rect]; simp only; omega),
      if_neg (by rw [mem_rect]; simp only; omega)]
    ring
  have hX : ∀ x y, ¬ (x, y) ∈ rect 1 (c.g.Nx - 1) 1 (c.g.Ny - 1) → c'.f.Hx.val x y = c.f.Hx.val x y := by
    intro x y h
    rw [S.eX, tn]
    simp only [Tensor.upd, Pml.corrHx, Pml.afterE, nx, ny, nt, tfHx]
    rw [if_neg h, if_neg (by rw [mem_rect]; simp only; omega), if_neg (by rw [mem_rect]; simp only; omega), S.fX]
    simp [totalContrib]
  have hY : ∀ x y, ¬ (x, y) ∈ rect 1 (c.g.Nx - 1) 1 (c.g.Ny - 1) → c'.f.Hy.val x y = c.f.Hy.val x y := by
    intro x y h
    rw [S.eY, tn]
    simp only [Tensor.upd, Pml.corrHy, Pml.afterE, nx, ny, nt, tfHy]
    rw [if_neg h, if_neg (by rw [mem_rect]; simp only; omega), if_neg (by rw [mem_rect]; simp only; omega), S.fY]
    simp [totalContrib]
  refine ⟨⟨fun j => ?_, fun j => ?_, fun i => ?_, fun i => ?_⟩, e2'.1.symm, e3'.1.symm⟩
  · rw [S.g, hY _ _ (by rw [mem_rect]; simp only [updatedNodes]; omega)]; exact q.left j
  · rw [S.g, hE1 _ _ (by rw [mem_rect]; simp only [updatedNodes]; omega)]; exact q.right j
  · rw [S.g, hX _ _ (by rw [mem_rect]; simp only [updatedNodes]; omega)]; exact q.bottom i
  · rw [S.g, hE1 _ _ (by rw [mem_rect]; simp only [updatedNodes]; omega)]; exact q.top i

/-- **C18** for the whole grid and all time: without absorbing layer (`T = 0`, the constructor argument `pml_thickness = -1`), for every
number of steps, every field that vanishes on the edge of the grid, every permittivity of at least one and every conductivity. The energy never
grows, is exactly conserved without conductivity, and bounds the field. -/
theorem C18_closed (n : ℕ) (c : Core ℝ) (hc : c.Std) (hT : c.g.T = 0) (ht : c.tfsf = none) (hd : c.debye = []) (hr : c.drude = [])
    (med : ℤ → ℤ → Simple ℝ) (hp : Passive c med (updatedNodes c.g)) (q : FrameQuiet c.f (updatedNodes c.g)) :
    ∃ c', c.run n [] = .ok (c', []) ∧ energy c.g med c'.f (updatedNodes c.g) ≤ energy c.g med c.f (updatedNodes c.g) ∧
      (Lossless med (updatedNodes c.g) → energy c.g med c'.f (updatedNodes c.g) = energy c.g med c.f (updatedNodes c.g)) ∧
      size c.g c'.f (updatedNodes c.g) ≤ 8 * energy c.g med c.f (updatedNodes c.g) := by
  have h1 : (updatedNodes c.g).l ≤ (updatedNodes c.g).r + 1 := by have := hc.wide.nx; simp only [updatedNodes]; omega
  have h2 : (updatedNodes c.g).b ≤ (updatedNodes c.g).t + 1 := by have := hc.wide.ny; simp only [updatedNodes]; omega
  suffices h : ∃ c', c.run n [] = .ok (c', []) ∧ energy c.g med c'.f (updatedNodes c.g) ≤ energy c.g med c.f (updatedNodes c.g) ∧
      (Lossless med (updatedNodes c.g) → energy c.g med c'.f (updatedNodes c.g) = energy c.g med c.f (updatedNodes c.g)) ∧ FrameQuiet c'.f (updatedNodes c.g) by
    obtain ⟨c', r, e1, e2, q'⟩ := h
    refine ⟨c', r, e1, e2, ?_⟩
    have := C18_definite c.g hc.law med (updatedNodes c.g) h1 h2 hp.eps c'.f q'
    linarith
  clear h1 h2
  induction n generalizing c with
  | zero => exact ⟨c, rfl, le_rfl, fun _ => rfl, q⟩
  | succ n ih =>
    have h1 : (updatedNodes c.g).l ≤ (updatedNodes c.g).r + 1 := by have := hc.wide.nx; simp only [updatedNodes]; omega
    have h2 : (updatedNodes c.g).b ≤ (updatedNodes c.g).t + 1 := by have := hc.wide.ny; simp only [updatedNodes]; omega
    obtain ⟨c1, l1, E2, E3, E4, f, u, S⟩ := Core.update_step hc [] (by simp)
    obtain rfl : l1 = [] := by have := S.same; cases this; rfl
    obtain ⟨q1, d1, r1⟩ := closed_step hc hT S ht hd hr hp.lorentz q
    obtain ⟨p1, t1, -, -⟩ := passive_step hc S hp ht (by simp)
    rw [S.g] at q1
    obtain ⟨a1, a2⟩ := energy_step hc S h1 h2 hp ht (by simp) q q1
    obtain ⟨c2, v, b1, b2, q2⟩ := ih c1 S.std (by rw [S.g, hT]) t1 d1 r1 (by rw [S.g]; exact p1) (by rw [S.g]; exact q1)
    rw [S.g] at b1 b2 q2
    refine ⟨c2, by unfold Core.run; rw [u]; exact v, b1.trans a1, fun hl => (b2 hl).trans (a2 hl), q2⟩

theorem noField_std {c : Core ℝ} (h : c.Std) : (noField c).Std :=
  h.of_same { h.wf with f := { h.wf.f with Ez := h.wf.f.Ez, Hx := h.wf.f.Hx, Hy := h.wf.f.Hy } } rfl rfl rfl rfl

theorem within_frame {f : Flds ℝ} {R : Box} (h : Within f R) : FrameQuiet f R where
  left j := (h _ _ (by unfold Box.Mem; omega)).2.2
  right j := (h _ _ (by unfold Box.Mem; omega)).1
  bottom i := (h _ _ (by unfold Box.Mem; omega)).2.1
  top i := (h _ _ (by unfold Box.Mem; omega)).1

/-- A field stays inside the rectangle as long as it has not had the time to cross the rings it left empty. -/
theorem within_run (k : ℕ) {c : Core ℝ} (hc : c.Std) (hz : Silent (noField c)) {R : Box} (hw : Within c.f (R.shrink k)) :
    ∃ c', c.run k [] = .ok (c', []) ∧ c'.Std ∧ c'.g = c.g ∧ Within c'.f R := by
  obtain ⟨c', l, h1, h2, h3, -⟩ := Core.run_std k hc [] (by simp)
  obtain ⟨e, h4, -, hz'⟩ := C17_silence k _ (noField_std hc) hz
  have hl : l = [] := by
    obtain ⟨d, m, d', m', u1, u2, -⟩ := C16_locality 0 0 0 k c c hc.wf hc.wf hc.wide (Agree.refl _ c) [] [] .nil (by simp) (by simp)
    have : ∀ (n : ℕ) (c c' : Core ℝ) (l : List (Source ℝ)), c.Std → c.run n [] = .ok (c', l) → l = [] := by
      intro n
      induction n with
      | zero => intro c c' l _ h; cases h; rfl
      | succ n ih =>
        intro c c' l hc h
        obtain ⟨c1, l1, E2, E3, E4, f, u, S⟩ := Core.update_step hc [] (by simp)
        obtain rfl : l1 = [] := by have := S.same; cases this; rfl
        unfold Core.run at h
        rw [u] at h
        exact ih c1 c' l S.std h
    exact this k c c' l hc h1
  subst hl
  refine ⟨c', h1, h2, h3, ?_⟩
  intro i0 j0 hn
  have ag : Agree (Ball i0 j0 (0 + k)) c (noField c) := by
    have r := Agree.refl (Ball i0 j0 (0 + k)) c
    have z : ∀ i j, Ball i0 j0 (0 + k) i j → c.f.Ez.val i j = 0 ∧ c.f.Hx.val i j = 0 ∧ c.f.Hy.val i j = 0 := by
      intro i j hb
      refine hw i j ?_
      unfold Box.Mem Box.shrink at *
      unfold Ball at hb
      simp only
      omega
    exact { r with f := { r.f with Ez := fun i j hb => (z i j hb).1, Hx := fun i j hb => (z i j hb).2.1, Hy := fun i j hb => (z i j hb).2.2 } }
  obtain ⟨d, m, d', m', u1, u2, a⟩ := C16_locality i0 j0 0 k c (noField c) hc.wf (noField_std hc).wf hc.wide ag [] [] .nil (by simp) (by simp)
  rw [h1] at u1; rw [h4] at u2
  cases u1; cases u2
  have hb : Ball i0 j0 0 i0 j0 := by unfold Ball; omega
  exact ⟨(a.f.Ez i0 j0 hb).trans (hz'.Ez i0 j0), (a.f.Hx i0 j0 hb).trans (hz'.Hx i0 j0), (a.f.Hy i0 j0 hb).trans (hz'.Hy i0 j0)⟩

/-- **C18** with an absorbing layer of any thickness: a field in a passive rectangle beyond the layer, as long as it has not left the rectangle. Its
energy never grows, is exactly conserved without conductivity, and bounds the field. What the layer does to a field that reaches it is not part of
this statement. -/
theorem C18_confined_partial (n : ℕ) (c : Core ℝ) (hc : c.Std) (hz : Silent (noField c)) (med : ℤ → ℤ → Simple ℝ) (R : Box) (h1 : R.l ≤ R.r + 1)
    (h2 : R.b ≤ R.t + 1) (hp : Passive c med R) (hw : Within c.f (R.shrink n)) :
    ∃ c', c.run n [] = .ok (c', []) ∧ energy c.g med c'.f R ≤ energy c.g med c.f R ∧
      (Lossless med R → energy c.g med c'.f R = energy c.g med c.f R) ∧ size c.g c'.f R ≤ 8 * energy c.g med c.f R := by
  have key : ∀ k : ℕ, k ≤ n → ∃ c', c.run k [] = .ok (c', []) ∧ c'.Std ∧ c'.g = c.g ∧ Within c'.f R ∧ Passive c' med R ∧ c'.tfsf = none ∧
      energy c.g med c'.f R ≤ energy c.g med c.f R ∧ (Lossless med R → energy c.g med c'.f R = energy c.g med c.f R) := by
    intro k
    induction k with
    | zero =>
      intro _
      refine ⟨c, rfl, hc, rfl, ?_, hp, hz.tfsf, le_rfl, fun _ => rfl⟩
      intro i j h
      refine hw i j ?_
      unfold Box.Mem Box.shrink at *
      simp only
      omega
    | succ k ih =>
      intro hk
      obtain ⟨c1, r1, s1, g1, w1, p1, t1, e1, e2⟩ := ih (by omega)
      obtain ⟨c2, r2, s2, g2, w2⟩ := within_run (k + 1) hc hz (R := R) (by
        intro i j h
        refine hw i j ?_
        unfold Box.Mem Box.shrink at *
        simp only at h ⊢
        push_cast at h
        omega)
      obtain ⟨c3, l3, E2, E3, E4, f, u, S⟩ := Core.update_step s1 [] (by simp)
      have r2' := r2
      rw [run_last, r1, Except.ok_bind, u] at r2'
      obtain ⟨rfl, rfl⟩ := Prod.mk.inj (Except.ok.inj r2')
      obtain ⟨p2, t2, -, -⟩ := passive_step s1 S p1 t1 (by simp)
      obtain ⟨a1, a2⟩ := energy_step s1 S h1 h2 p1 t1 (by simp) (within_frame w1) (within_frame w2)
      rw [g1] at a1 a2
      exact ⟨_, r2, s2, g2, w2, p2, t2, a1.trans e1, fun hl => (a2 hl).trans (e2 hl)⟩
  obtain ⟨c', r, -, g', w, -, -, e1, e2⟩ := key n le_rfl
  refine ⟨c', r, e1, e2, ?_⟩
  have := C18_definite c.g hc.law med R h1 h2 hp.eps c'.f (within_frame w)
  linarith

theorem insertAll_simple : ∀ (objs : List (Object ℝ)) (c c' : Core ℝ), (∀ o ∈ objs, PassiveObject o) → forList objs c (fun o c => c.insertObject o) = .ok c' →
    c'.debye = c.debye ∧ c'.drude = c.drude ∧ c'.lorentz = c.lorentz
  | [], c, c', _, h => by cases h; exact ⟨rfl, rfl, rfl⟩
  | o :: l, c, c', hp, h => by
    rw [forList_cons] at h
    obtain ⟨c1, h1, h2⟩ := (Except.bind_ok ..).mp h
    obtain ⟨e1, e2, e3⟩ := insertAll_simple l c1 c' (fun o' h' => hp o' (by simp [h'])) h2
    obtain ⟨m, hk, -, -⟩ := hp o (by simp)
    unfold Core.insertObject at h1
    obtain ⟨f, -, h3⟩ := (Except.bind_ok ..).mp h1
    rw [hk] at h3
    cases h3
    exact ⟨e1, e2, e3⟩

/-- A new simulation with objects of simple materials and any field in it. -/
theorem objects_passive {g : Grid ℝ} (hw : g.Wide) (hl : Lawful g) (hT : g.T = 0 ∨ 2 ≤ g.T) (objs : List (Object ℝ)) (hb : ∀ o ∈ objs, BoxSound o)
    (hc : ∀ o ∈ objs, ClearOfUnguardedEdges g o) (hp : ∀ o ∈ objs, PassiveObject o) (med : ℤ → ℤ → Simple ℝ) (hm : FilledBy g objs med)
    (e x y : ℤ → ℤ → ℝ) : ∃ c0 c1, Core.make g = .ok c0 ∧ forList objs c0 (fun o c => c.insertObject o) = .ok c1 ∧ (withFields c1 e x y).Std ∧ c1.g = g ∧
      Silent (noField (withFields c1 e x y)) ∧ c1.debye = [] ∧ c1.drude = [] ∧ c1.tfsf = none ∧
      ∀ R : Box, (∀ i j, R.Mem i j → Beyond g i j) → Passive (withFields c1 e x y) med R := by
  obtain ⟨c0, h1, h2, h3, h4, h5⟩ := make_empty hw hl hT
  subst h3
  obtain ⟨c1, k1, k2, k3, k4⟩ := Core.Std.insertAll objs h2 h4 fun o ho => safe_of_clear hl (hc o ho)
  obtain ⟨c1', j1, -, j3⟩ := C09_adding c0 hl h2.wf objs hb hc
  rw [k1] at j1
  cases j1
  obtain ⟨e1, e2, e3⟩ := insertAll_simple objs c0 c1 hp k1
  rw [h5.debye] at e1
  rw [h5.drude] at e2
  rw [h5.lorentz] at e3
  refine ⟨c0, c1, h1, k1, k2.of_same { k2.wf with f := { k2.wf.f with Ez := k2.wf.f.Ez, Hx := k2.wf.f.Hx, Hy := k2.wf.f.Hy } } rfl rfl rfl rfl, k3, ?_, e1, e2,
    k4.tfsf, ?_⟩
  · exact { k4 with Ez := fun _ _ => rfl, Hx := fun _ _ => rfl, Hy := fun _ _ => rfl }
  · intro R hR
    have node : ∀ i j, R.Mem i j → HasMedium c1.f (.simple (med i j)) c1.g.dt i j ∧ 1 ≤ (med i j).eps ∧ 0 ≤ (med i j).conduc := by
      intro i j h
      obtain ⟨i0, i1, j0, j1⟩ := Beyond_mem hT (hR i j h)
      rw [k3]
      obtain ⟨a1, a2⟩ := j3 i j i0 i1 j0 j1
      rcases C09_total objs (c0.g.toReal ⟨i, j⟩) with hn | ⟨o, ho⟩
      · rw [hm.vacuum i j hn]
        refine ⟨?_, ?_, ?_⟩
        · have v := h5.medium i j i0 i1 j0 j1
          obtain ⟨b1, b2, b3, b4⟩ := a2 hn
          exact ⟨b1.trans v.Ca, b2.trans v.Cb, b3.trans v.Da, b4.trans v.Db⟩
        · simp [Qbox.vacuum]
        · simp [Qbox.vacuum]
      · have e := hm.object i j o ho
        have hmem : o ∈ objs := by
          obtain ⟨b, a, e, -, -⟩ := ho
          rw [e]; simp
        obtain ⟨m, hk, q1, q2⟩ := hp o hmem
        have : m = med i j := by rw [hk] at e; exact MatKind.simple.inj e
        rw [← this]
        refine ⟨?_, q1, q2⟩
        have := a1 o ho
        rw [hk] at this
        exact this
    exact ⟨by show ∀ i j, R.Mem i j → Beyond c1.g i j; rw [k3]; exact hR,
      fun i j h => ⟨by show ∀ q ∈ c1.debye, _; rw [e1]; simp, by show ∀ q ∈ c1.drude, _; rw [e2]; simp, by show ∀ q ∈ c1.lorentz, _; rw [e3]; simp,
        ⟨(node i j h).1.Ca, (node i j h).1.Cb, (node i j h).1.Da, (node i j h).1.Db⟩⟩,
      fun i j h => (node i j h).2.1, fun i j h => (node i j h).2.2, e3⟩

/-- **C18** for programs, all time: a new simulation without absorbing layer, any objects of simple materials with permittivity at least one and
conductivity at least zero, any field that vanishes on the edge of the grid. After any number of updates the energy is at most the one at the start,
equal to it if nothing conducts, and at least an eighth of the sum of squares of the field. -/
theorem C18_all_time (n : ℕ) (g : Grid ℝ) (hw : g.Wide) (hl : Lawful g) (hT : g.T = 0) (objs : List (Object ℝ)) (hb : ∀ o ∈ objs, BoxSound o)
    (hc : ∀ o ∈ objs, ClearOfUnguardedEdges g o) (hp : ∀ o ∈ objs, PassiveObject o) (med : ℤ → ℤ → Simple ℝ) (hm : FilledBy g objs med)
    (e x y : ℤ → ℤ → ℝ) (he : ∀ i j, ¬ (updatedNodes g).Mem i j → e i j = 0) (hx : ∀ i j, ¬ (updatedNodes g).Mem i j → x i j = 0)
    (hy : ∀ i j, ¬ (updatedNodes g).Mem i j → y i j = 0) :
    ∃ c0 c1 c2, Core.make g = .ok c0 ∧ forList objs c0 (fun o c => c.insertObject o) = .ok c1 ∧ (withFields c1 e x y).run n [] = .ok (c2, []) ∧
      energy g med c2.f (updatedNodes g) ≤ energy g med (withFields c1 e x y).f (updatedNodes g) ∧
      (Lossless med (updatedNodes g) → energy g med c2.f (updatedNodes g) = energy g med (withFields c1 e x y).f (updatedNodes g)) ∧
      size g c2.f (updatedNodes g) ≤ 8 * energy g med (withFields c1 e x y).f (updatedNodes g) := by
  obtain ⟨c0, c1, h1, h2, h3, h4, -, h6, h7, h8, h9⟩ := objects_passive hw hl (.inl hT) objs hb hc hp med hm e x y
  have eg : (withFields c1 e x y).g = g := h4
  obtain ⟨c2, r1, r2, r3, r4⟩ := C18_closed n (withFields c1 e x y) h3 (by rw [eg]; exact hT) h8 h6 h7 med (by
    rw [eg]
    refine h9 _ fun i j h => ?_
    unfold Box.Mem updatedNodes at h
    simp only at h
    constructor <;> rw [hT] <;> omega) (by
    rw [eg]
    refine within_frame fun i j h => ⟨he i j h, hx i j h, hy i j h⟩)
  rw [eg] at r2 r3 r4
  exact ⟨c0, c1, c2, h1, h2, r1, r2, r3, r4⟩

/-- There is always such a medium map. -/
theorem filled_exists (g : Grid ℝ) (objs : List (Object ℝ)) (hp : ∀ o ∈ objs, PassiveObject o) : ∃ med, FilledBy g objs med := by
  have uniq : ∀ p o o', TopAt objs p o → TopAt objs p o' → o = o' := by
    rintro p o o' ⟨b, a, e, h1, h2⟩ ⟨b', a', e', h1', h2'⟩
    rw [e] at e'
    rcases List.append_eq_append_iff.mp e' with ⟨l, q1, q2⟩ | ⟨l, q1, q2⟩
    · cases l with
      | nil => simp at q2; exact q2.1
      | cons z l =>
        simp only [List.cons_append, List.cons.injEq] at q2
        have := h2 o' (by rw [q2.2]; simp)
        rw [h1'] at this; cases this
    · cases l with
      | nil => simp at q2; exact q2.1.symm
      | cons z l =>
        simp only [List.cons_append, List.cons.injEq] at q2
        have := h2' o (by rw [q2.2]; simp)
        rw [h1] at this; cases this
  have pick : ∀ i j : ℤ, ∃ m : Simple ℝ, (∀ o, TopAt objs (g.toReal ⟨i, j⟩) o → o.mat.kind = .simple m) ∧
      ((∀ o ∈ objs, o.inside (g.toReal ⟨i, j⟩) = false) → m = Qbox.vacuum) := by
    intro i j
    rcases C09_total objs (g.toReal ⟨i, j⟩) with hn | ⟨o, ho⟩
    · refine ⟨Qbox.vacuum, ?_, fun _ => rfl⟩
      rintro o ⟨b, a, e, h1, -⟩
      have := hn o (by rw [e]; simp)
      rw [h1] at this; cases this
    · have hmem : o ∈ objs := by
        obtain ⟨b, a, e, -, -⟩ := ho
        rw [e]; simp
      obtain ⟨m, hk, -, -⟩ := hp o hmem
      refine ⟨m, fun o' ho' => by rw [uniq _ _ _ ho' ho, hk], fun hn => ?_⟩
      obtain ⟨b, a, e, h1, -⟩ := ho
      have := hn o hmem
      rw [h1] at this; cases this
  choose med h1 h2 using pick
  exact ⟨med, h1, h2⟩

/-- A grid of 20 by 20 nodes without absorbing layer. -/
noncomputable def gOpen : Grid ℝ := Grid.make 20 20 1 (-1)

theorem gOpen_Nx : gOpen.Nx = 20 := by simp [gOpen, Grid.make]
theorem gOpen_Ny : gOpen.Ny = 20 := by simp [gOpen, Grid.make]
theorem gOpen_T : gOpen.T = 0 := by simp [gOpen, Grid.make]
theorem gOpen_lawful : Lawful gOpen := lawful_make 20 20 1 (-1) one_pos

/-- A non-trivial case of `C18_all_time`: a disc of a conducting dielectric on a grid without layer, a field at one node; the energy at the start is not
zero. -/
example : ∃ (objs : List (Object ℝ)) (med : ℤ → ℤ → Simple ℝ) (e : ℤ → ℤ → ℝ), gOpen.Wide ∧ (∀ o ∈ objs, BoxSound o) ∧
    (∀ o ∈ objs, ClearOfUnguardedEdges gOpen o) ∧ (∀ o ∈ objs, PassiveObject o) ∧ FilledBy gOpen objs med ∧ (∀ i j, ¬ (updatedNodes gOpen).Mem i j → e i j = 0) ∧
    e 10 10 = 1 ∧ objs ≠ [] := by
  have hp : ∀ o ∈ [disc ⟨"m", .simple ⟨3, 1, 1⟩⟩ 10 10], PassiveObject o := by
    intro o ho
    rw [List.mem_singleton.mp ho]
    exact ⟨⟨3, 1, 1⟩, rfl, by norm_num, by norm_num⟩
  obtain ⟨med, hm⟩ := filled_exists gOpen _ hp
  refine ⟨_, med, fun i j => if i = 10 ∧ j = 10 then 1 else 0, ⟨by rw [gOpen_T, gOpen_Nx]; norm_num, by rw [gOpen_T, gOpen_Ny]; norm_num⟩, ?_, ?_, hp, hm, ?_, ?_,
    by simp⟩
  · intro o ho
    rw [List.mem_singleton.mp ho]
    exact disc_sound _ _ _
  · intro o ho p hin
    rw [List.mem_singleton.mp ho, disc_inside] at hin
    have : gOpen.Lx = 19 := by simp [gOpen, Grid.make]
    rw [this]
    constructor <;> nlinarith [sq_nonneg (p.x - 10), sq_nonneg (p.y - 10)]
  · intro i j h
    refine if_neg ?_
    rintro ⟨rfl, rfl⟩
    apply h
    unfold Box.Mem updatedNodes
    rw [gOpen_Nx, gOpen_Ny]
    norm_num
  · simp

/-- A non-trivial case of `C18_balance` and of `C18_confined_partial`: the example grid with its layer, the rectangle of all nodes beyond the layer, a disc of a
conducting dielectric, a field at one node and five updates. -/
example : ∃ (c : Core ℝ) (med : ℤ → ℤ → Simple ℝ) (R : Box), c.Std ∧ c.g = gEx ∧ Silent (noField c) ∧ R.l ≤ R.r + 1 ∧ R.b ≤ R.t + 1 ∧ Passive c med R ∧
    c.tfsf = none ∧ Within c.f (R.shrink 5) ∧ c.f.Ez.val 10 10 = 1 ∧ (med 10 10).conduc = 1 := by
  have hp : ∀ o ∈ [disc ⟨"m", .simple ⟨3, 1, 1⟩⟩ 10 10], PassiveObject o := by
    intro o ho
    rw [List.mem_singleton.mp ho]
    exact ⟨⟨3, 1, 1⟩, rfl, by norm_num, by norm_num⟩
  obtain ⟨med, hm⟩ := filled_exists gEx _ hp
  obtain ⟨c0, c1, -, -, h3, h4, h5, -, -, h8, h9⟩ := objects_passive gEx_wide gEx_lawful (by rw [gEx_T]; norm_num) _
    (by intro o ho; rw [List.mem_singleton.mp ho]; exact disc_sound _ _ _)
    (by intro o ho; rw [List.mem_singleton.mp ho]; exact disc_clear _ (by norm_num) (by norm_num)) hp med hm
    (fun i j => if i = 10 ∧ j = 10 then 1 else 0) (fun _ _ => 0) (fun _ _ => 0)
  refine ⟨_, med, ⟨4, 15, 4, 15⟩, h3, h4, h5, by norm_num, by norm_num, h9 _ ?_, h8, ?_, ?_, ?_⟩
  · intro i j h
    unfold Box.Mem at h
    simp only at h
    exact gEx_beyond (by omega) (by omega) (by omega) (by omega)
  · intro i j h
    refine ⟨if_neg ?_, rfl, rfl⟩
    rintro ⟨rfl, rfl⟩
    apply h
    unfold Box.Mem Box.shrink
    norm_num
  · show (if (10 : ℤ) = 10 ∧ (10 : ℤ) = 10 then (1 : ℝ) else 0) = 1
    simp
  · have := hm.object 10 10 (disc ⟨"m", .simple ⟨3, 1, 1⟩⟩ 10 10) ⟨[], [], rfl, by exact disc_center _, by simp⟩
    rw [← MatKind.simple.inj this]

end Qbox.Props
