import Verif.Lemmas.PmlOutside
import Verif.Props.MediumProps

/-! # The absorbing layer (C21) -/

namespace Qbox.Props
open Qbox Scalar Spec

/-- The point is inside the volume, edges included. -/
def VolHas (v : Vol ℝ) (p : V2 ℝ) : Prop := (v.a.x ≤ p.x ∧ p.x ≤ v.b.x) ∧ (v.a.y ≤ p.y ∧ p.y ≤ v.b.y)

/-- The point where `Ez(i, j)` lives is inside `grid.interior()`. -/
def EzInside (g : Grid ℝ) (i j : ℤ) : Prop := VolHas g.interior ⟨g.dx * i, g.dx * j⟩

/-- The point where `Hx(i, j)` lives, half a cell above the node, is inside `grid.interior()`. -/
def HxInside (g : Grid ℝ) (i j : ℤ) : Prop := VolHas g.interior ⟨g.dx * i, g.dx * (j + 1 / 2)⟩

/-- The point where `Hy(i, j)` lives, half a cell right of the node, is inside `grid.interior()`. -/
def HyInside (g : Grid ℝ) (i j : ℤ) : Prop := VolHas g.interior ⟨g.dx * (i + 1 / 2), g.dx * j⟩

theorem mul_node {d : ℝ} (hd : 0 < d) (a b : ℝ) : d * a ≤ d * b ↔ a ≤ b := mul_le_mul_iff_right₀ hd

theorem ezInside_iff {g : Grid ℝ} (hl : Lawful g) (i j : ℤ) :
    EzInside g i j ↔ (g.T ≤ i ∧ i ≤ g.Nx - 1 - g.T) ∧ (g.T ≤ j ∧ j ≤ g.Ny - 1 - g.T) := by
  have e1 : g.Lx - g.dx * (g.T : ℝ) = g.dx * ((g.Nx - 1 - g.T : ℤ) : ℝ) := by rw [hl.Lx]; push_cast; ring
  have e2 : g.Ly - g.dx * (g.T : ℝ) = g.dx * ((g.Ny - 1 - g.T : ℤ) : ℝ) := by rw [hl.Ly]; push_cast; ring
  unfold EzInside VolHas Grid.interior Vol.make
  simp only [ofInt_real, e1, e2, mul_node hl.dx, Int.cast_le]

theorem half_up (a j : ℤ) : (a : ℝ) ≤ (j : ℝ) + 1 / 2 ↔ a ≤ j := by
  constructor
  · intro h
    by_contra hn
    have : j + 1 ≤ a := by omega
    have h2 : ((j : ℝ) + 1) ≤ a := by exact_mod_cast this
    linarith
  · intro h
    have h2 : (a : ℝ) ≤ j := by exact_mod_cast h
    linarith

theorem half_down (j b : ℤ) : (j : ℝ) + 1 / 2 ≤ (b : ℝ) ↔ j < b := by
  constructor
  · intro h
    by_contra hn
    have : b ≤ j := by omega
    have h2 : (b : ℝ) ≤ j := by exact_mod_cast this
    linarith
  · intro h
    have h2 : (j : ℝ) + 1 ≤ b := by exact_mod_cast h
    linarith

theorem hxInside_iff {g : Grid ℝ} (hl : Lawful g) (i j : ℤ) :
    HxInside g i j ↔ (g.T ≤ i ∧ i ≤ g.Nx - 1 - g.T) ∧ (g.T ≤ j ∧ j < g.Ny - 1 - g.T) := by
  have e1 : g.Lx - g.dx * (g.T : ℝ) = g.dx * ((g.Nx - 1 - g.T : ℤ) : ℝ) := by rw [hl.Lx]; push_cast; ring
  have e2 : g.Ly - g.dx * (g.T : ℝ) = g.dx * ((g.Ny - 1 - g.T : ℤ) : ℝ) := by rw [hl.Ly]; push_cast; ring
  unfold HxInside VolHas Grid.interior Vol.make
  simp only [ofInt_real, e1, e2, mul_node hl.dx, Int.cast_le, half_up, half_down]

theorem hyInside_iff {g : Grid ℝ} (hl : Lawful g) (i j : ℤ) :
    HyInside g i j ↔ (g.T ≤ i ∧ i < g.Nx - 1 - g.T) ∧ (g.T ≤ j ∧ j ≤ g.Ny - 1 - g.T) := by
  have e1 : g.Lx - g.dx * (g.T : ℝ) = g.dx * ((g.Nx - 1 - g.T : ℤ) : ℝ) := by rw [hl.Lx]; push_cast; ring
  have e2 : g.Ly - g.dx * (g.T : ℝ) = g.dx * ((g.Ny - 1 - g.T : ℤ) : ℝ) := by rw [hl.Ly]; push_cast; ring
  unfold HyInside VolHas Grid.interior Vol.make
  simp only [ofInt_real, e1, e2, mul_node hl.dx, Int.cast_le, half_up, half_down]

/-- **C21** (exact arithmetic). On every grid with a layer of at least one cell, in every state a program can reach, an update and
the same update of a simulation that has no absorbing layer and the plain cell size everywhere give the same field at every point of
`grid.interior()`: `Ez`, `Hx`, `Hy` at the points where they live, and the polarization currents. Neither update faults. -/
theorem C21_interior (g : Grid ℝ) (hg : g.Wide) (hl : Lawful g) (hT : 2 ≤ g.T) (c : Core ℝ) (hr : Reach g c) (l : List (Source ℝ))
    (fl : ∀ s ∈ l, Fits g s) :
    ∃ c' d' k k', c.update l = .ok (c', k) ∧ bareUpdate (plainSc g) c l = .ok (d', k') ∧
      Undisturbed (EzInside g) (HxInside g) (HyInside g) c' d' := by
  obtain ⟨hs, hq⟩ := hr.std hg hl (.inr hT)
  obtain ⟨hw, rfl⟩ := hr.wf hg
  rw [← plainSc_eq hs]
  refine bare_update ?_ ?_ ?_ ?_ hw hg ?_ ?_ fl
  · intro i j h; rw [hxInside_iff hl] at h; rw [ezInside_iff hl]; omega
  · intro i j h; rw [hxInside_iff hl] at h; rw [ezInside_iff hl]; omega
  · intro i j h; rw [hyInside_iff hl] at h; rw [ezInside_iff hl]; omega
  · intro i j h; rw [hyInside_iff hl] at h; rw [ezInside_iff hl]; omega
  · refine ⟨_, _, Pml.updateE_closed hw.pml hg.nx hg.ny hw.f.Hx hw.f.Hy hw.f.Cb hw.f.Ez, hw.f.Ez, ?_⟩
    intro i j h
    rw [ezInside_iff hl] at h
    rw [Tensor.setv_val, hq.corrE hs _ _ _ h.1.1 h.1.2 h.2.1 h.2.2, add_zero]
  · intro p hp Ez Db Hx Hy d1 d2 d3 d4 p' X Y h
    obtain ⟨a, b⟩ := Pml.updateH_outside h
    rw [hp.thk, hp.ny] at a
    rw [hp.thk, hp.nx] at b
    constructor
    · intro i j h; rw [hxInside_iff hl] at h; exact a i j h.2
    · intro i j h; rw [hyInside_iff hl] at h; exact b i j h.1

/-- **C21** in any arithmetic, floating point included: strictly inside the interior an update is the update without the layer, with
the spacings stored in the simulation. -/
theorem C21_any_arithmetic {K : Type} [Scalar K] (g : Grid K) (hg : g.Wide) (c : Core K) (hr : Reach g c) (l : List (Source K))
    (fl : ∀ s ∈ l, Fits g s) :
    ∃ c' d' k k', c.update l = .ok (c', k) ∧ bareUpdate c.sc c l = .ok (d', k') ∧
      Undisturbed (fun i j => (g.T < i ∧ i < g.Nx - 1 - g.T) ∧ (g.T < j ∧ j < g.Ny - 1 - g.T))
        (fun i j => (g.T < i ∧ i < g.Nx - 1 - g.T) ∧ (g.T < j ∧ j < g.Ny - 2 - g.T))
        (fun i j => (g.T < i ∧ i < g.Nx - 2 - g.T) ∧ (g.T < j ∧ j < g.Ny - 1 - g.T)) c' d' := by
  obtain ⟨hw, rfl⟩ := hr.wf hg
  refine bare_update ?_ ?_ ?_ ?_ hw hg ?_ ?_ fl
  · intro i j h; omega
  · intro i j h; omega
  · intro i j h; omega
  · intro i j h; omega
  · obtain ⟨p', E', h, -, d⟩ := Pml.updateE_ok hw.pml hg.nx hg.ny hw.f.Hx hw.f.Hy hw.f.Cb
      (Ez := c.f.Ez.upd (rect 1 (c.g.Nx - 1) 1 (c.g.Ny - 1)) (ezVal c.f c.sc)) hw.f.Ez
    refine ⟨p', E', h, d, ?_⟩
    have := Pml.updateE_outside h
    rw [hw.pml.thk, hw.pml.nx, hw.pml.ny] at this
    exact this
  · intro p hp Ez Db Hx Hy d1 d2 d3 d4 p' X Y h
    obtain ⟨a, b⟩ := Pml.updateH_outside h
    rw [hp.thk, hp.ny] at a
    rw [hp.thk, hp.nx] at b
    constructor
    · intro i j h; exact a i j (by omega)
    · intro i j h; exact b i j (by omega)

/-- **C21** The recursion coefficients a simulation uses in its layer, in every reachable state and for every thickness of at least
one cell: `0 < b < 1` and `-1 < c ≤ 0`, so every stored value is a contraction of the previous one plus a bounded share of the field
gradient; at the inner edge `c = 0`. Electric coefficients are used at `1 ≤ i ≤ T`, magnetic ones at `1 ≤ i < T`. -/
theorem C21_coefficients (g : Grid ℝ) (hg : g.Wide) (hl : Lawful g) (hT : 2 ≤ g.T) (c : Core ℝ) (hr : Reach g c) :
    (∀ i : ℤ, 1 ≤ i → i ≤ g.T →
      (0 < c.pml.co.be_x.val i ∧ c.pml.co.be_x.val i < 1) ∧ (-1 < c.pml.co.ce_x.val i ∧ c.pml.co.ce_x.val i ≤ 0) ∧
      (0 < c.pml.co.be_y.val i ∧ c.pml.co.be_y.val i < 1) ∧ (-1 < c.pml.co.ce_y.val i ∧ c.pml.co.ce_y.val i ≤ 0)) ∧
    (∀ i : ℤ, 1 ≤ i → i < g.T →
      (0 < c.pml.co.bh_x.val i ∧ c.pml.co.bh_x.val i < 1) ∧ (-1 < c.pml.co.ch_x.val i ∧ c.pml.co.ch_x.val i ≤ 0) ∧
      (0 < c.pml.co.bh_y.val i ∧ c.pml.co.bh_y.val i < 1) ∧ (-1 < c.pml.co.ch_y.val i ∧ c.pml.co.ch_y.val i ≤ 0)) ∧
    c.pml.co.ce_x.val g.T = 0 ∧ c.pml.co.ce_y.val g.T = 0 := by
  obtain ⟨hs, -⟩ := hr.std hg hl (.inr hT)
  obtain ⟨hw, rfl⟩ := hr.wf hg
  have eT : c.pml.par.T = c.g.T := hw.pml.thk
  have hd := hs.dt_pos
  have hE := hs.ce_edge
  rw [eT] at hE
  refine ⟨fun i h1 h2 => ?_, fun i h1 h2 => ?_, hE.1, hE.2⟩
  · have r1 : (1 : ℝ) ≤ i := by exact_mod_cast h1
    have r2 : (i : ℝ) ≤ c.g.T := by exact_mod_cast h2
    have b := bF_bounds hl.dx hd hT r1 r2
    have k := cF_bounds hl.dx hd hT r1 r2
    rw [hs.co.be_x i (by omega) (by omega), hs.co.ce_x i (by omega) (by omega), hs.co.be_y i (by omega) (by omega),
      hs.co.ce_y i (by omega) (by omega), hs.par]
    exact ⟨b, k, b, k⟩
  · have r1 : (1 : ℝ) ≤ (i : ℝ) + 1 / 2 := by
      have : (1 : ℝ) ≤ i := by exact_mod_cast h1
      linarith
    have r2 : (i : ℝ) + 1 / 2 ≤ c.g.T := by
      have : (i : ℝ) + 1 ≤ c.g.T := by exact_mod_cast h2
      linarith
    have b := bF_bounds hl.dx hd hT r1 r2
    have k := cF_bounds hl.dx hd hT r1 r2
    rw [hs.co.bh_x i (by omega) (by omega), hs.co.ch_x i (by omega) (by omega), hs.co.bh_y i (by omega) (by omega),
      hs.co.ch_y i (by omega) (by omega), hs.par]
    exact ⟨b, k, b, k⟩

/-- The layer does act right outside the interior: for every grid with a layer the coefficient one row outside the inner edge is
negative, so the claim of C21 is tight. -/
theorem C21_tight (g : Grid ℝ) (hg : g.Wide) (hl : Lawful g) (hT : 2 ≤ g.T) (c : Core ℝ) (hr : Reach g c) :
    c.pml.co.ce_x.val (g.T - 1) < 0 := by
  obtain ⟨hs, -⟩ := hr.std hg hl (.inr hT)
  obtain ⟨hw, rfl⟩ := hr.wf hg
  have eT : c.pml.par.T = c.g.T := hw.pml.thk
  rw [hs.co.ce_x _ (by omega) (by omega), hs.par]
  refine cF_neg hl.dx hs.dt_pos hT ?_ ?_
  · have : (2 : ℝ) ≤ c.g.T := by exact_mod_cast hT
    push_cast; linarith
  · push_cast; linarith

/-- A non-trivial case of C21: the example grid with an arbitrary magnetic field, after one step. -/
example (u : ℤ → ℤ → ℝ) : ∃ c : Core ℝ, Reach gEx c ∧ gEx.Wide ∧ Lawful gEx ∧ 2 ≤ gEx.T ∧ (∃ i j, EzInside gEx i j) ∧ c.tStep = 1 := by
  obtain ⟨c, hm, hs, hg, hz⟩ := gEx_std
  have r0 : Reach gEx c := .make hm
  have r1 : Reach gEx { c with f := { c.f with Hy := c.f.Hy.setv u } } := r0.poke _ { hs.wf.f with Hy := hs.wf.f.Hy }
  obtain ⟨c1, l1, h1, -, -, -, k1, -⟩ := Core.update_ok (r1.wf gEx_wide).1 (by rw [(r1.wf gEx_wide).2]; exact gEx_wide) [] (by simp)
  refine ⟨c1, r1.update h1, gEx_wide, gEx_lawful, by rw [gEx_T]; norm_num, ⟨10, 10, ?_⟩, ?_⟩
  · rw [ezInside_iff gEx_lawful, gEx_T, gEx_Nx, gEx_Ny]; norm_num
  · rw [k1]
    show c.tStep + 1 = 1
    have : c.tStep = 0 := by
      obtain ⟨c', e, -, -, e2, -⟩ := Core.make_ok (g := gEx) (by rw [gEx_Nx, gEx_T]; norm_num) (by rw [gEx_Ny, gEx_T]; norm_num)
      rw [hm] at e; cases e; exact e2
    omega

end Qbox.Props
