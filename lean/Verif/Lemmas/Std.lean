import Verif.Lemmas.CoreReal
import Verif.Lemmas.TfsfReal
import Verif.Spec.MaterialSpec

/-!
# Simulations as the constructor builds them, in exact arithmetic

`Core.Std` collects what the constructor establishes and no operation changes: spacings, absorbing-layer parameters and
coefficients.
-/

namespace Qbox
open Scalar Spec

set_option linter.unusedSectionVars false
set_option linter.unusedSimpArgs false

/-- The coefficient arrays of the layer. -/
structure PmlCoef.Vals (co : PmlCoef ℝ) (p : PmlPar ℝ) : Prop where
  be_x : ∀ i : ℤ, 0 ≤ i → i ≤ p.T → co.be_x.val i = p.bF (i : ℝ)
  ce_x : ∀ i : ℤ, 0 ≤ i → i ≤ p.T → co.ce_x.val i = p.cF (i : ℝ)
  bh_x : ∀ i : ℤ, 0 ≤ i → i ≤ p.T → co.bh_x.val i = p.bF ((i : ℝ) + 1 / 2)
  ch_x : ∀ i : ℤ, 0 ≤ i → i ≤ p.T → co.ch_x.val i = p.cF ((i : ℝ) + 1 / 2)
  be_y : ∀ i : ℤ, 0 ≤ i → i ≤ p.T → co.be_y.val i = p.bF (i : ℝ)
  ce_y : ∀ i : ℤ, 0 ≤ i → i ≤ p.T → co.ce_y.val i = p.cF (i : ℝ)
  bh_y : ∀ i : ℤ, 0 ≤ i → i ≤ p.T → co.bh_y.val i = p.bF ((i : ℝ) + 1 / 2)
  ch_y : ∀ i : ℤ, 0 ≤ i → i ≤ p.T → co.ch_y.val i = p.cF ((i : ℝ) + 1 / 2)

/-- The spacings are the cell size everywhere. -/
structure Scaling.Plain (s : Scaling ℝ) (dx : ℝ) : Prop where
  kedx : ∀ i, s.kedx.val i = dx
  khdx : ∀ i, s.khdx.val i = dx
  kedy : ∀ i, s.kedy.val i = dx
  khdy : ∀ i, s.khdy.val i = dx

/-- A simulation as built by the constructor on a grid with an absorbing layer of at least one cell (`2 ≤ T`, since
`T` is the thickness plus one), or with none (`T = 0`, which a program gets with the argument `pml_thickness = -1`). `T = 1`, the
argument `0`, is left out: the profiles of the layer then divide by `thickness - 1 = 0`. -/
structure Core.Std (c : Core ℝ) : Prop where
  wf : c.WF
  wide : c.g.Wide
  law : Lawful c.g
  thick : c.g.T = 0 ∨ 2 ≤ c.g.T
  sc : c.sc.Plain c.g.dx
  par : c.pml.par = PmlPar.default c.g
  co : c.pml.co.Vals c.pml.par

theorem kF_default (g : Grid ℝ) (t : ℝ) : (PmlPar.default g).kF t = 1 := by
  simp [PmlPar.kF, PmlPar.default]

theorem PmlPar.scaling_plain (g : Grid ℝ) {Nx Ny : ℤ} (hx : g.T ≤ Nx) (hy : g.T ≤ Ny) {sc : Scaling ℝ}
    (h : (PmlPar.default g).scaling Nx Ny = .ok sc) : sc.Plain g.dx := by
  have h2 : ∃ sc', (PmlPar.default g).scaling Nx Ny = .ok sc' ∧ (sc'.Dims Nx Ny ∧ sc'.Plain g.dx) := by
    unfold PmlPar.scaling
    refine forRange_inv (fun sc : Scaling ℝ => sc.Dims Nx Ny ∧ sc.Plain g.dx) 0 _ _ ?_ _ ⟨⟨rfl, rfl, rfl, rfl⟩, ?_⟩
    · rintro i h0 h1 s ⟨⟨e1, e2, e3, e4⟩, p1, p2, p3, p4⟩
      have hT : (PmlPar.default g).T = g.T := rfl
      rw [hT] at h1
      simp (disch := first | omega | (simp only [Arr.setv_n]; omega)) only [Arr.wr_in, Except.ok_bind, Except.pure_eq]
      refine ⟨_, rfl, ⟨e1, e2, e3, e4⟩, ?_, ?_, ?_, ?_⟩
      all_goals
        intro k
        simp only [Arr.setv_val, kF_default, p1, p2, p3, p4]
        split_ifs <;> simp [PmlPar.default]
    · constructor <;> intro i <;> simp [Arr.const, PmlPar.default]
  obtain ⟨sc', h3, -, h4⟩ := h2
  rw [h] at h3
  cases h3
  exact h4

theorem PmlCoef.init_vals (p : PmlPar ℝ) {Nx Ny : ℤ} (hx : p.T + 1 ≤ Nx) (hy : p.T + 1 ≤ Ny) {co : PmlCoef ℝ}
    (h : PmlCoef.init p Nx Ny = .ok co) : co.Vals p := by
  let A (N : ℤ) (f : ℤ → ℝ) (D : Finset ℤ) : Arr ℝ := ⟨N, fun k => if k ∈ D then f k else 0⟩
  have key := forRange_closed (fun D => (⟨A Nx (fun i => p.bF (i : ℝ)) D, A Nx (fun i => p.cF (i : ℝ)) D,
      A Nx (fun i => p.bF ((i : ℝ) + 1 / 2)) D, A Nx (fun i => p.cF ((i : ℝ) + 1 / 2)) D,
      A Ny (fun i => p.bF (i : ℝ)) D, A Ny (fun i => p.cF (i : ℝ)) D,
      A Ny (fun i => p.bF ((i : ℝ) + 1 / 2)) D, A Ny (fun i => p.cF ((i : ℝ) + 1 / 2)) D⟩ : PmlCoef ℝ)) 0 (p.T + 1)
    (fun i c => do
      let be_x ← c.be_x.wr i (p.bF (ofInt i))
      let ce_x ← c.ce_x.wr i (p.cF (ofInt i))
      let bh_x ← c.bh_x.wr i (p.bF (ofInt i + half))
      let ch_x ← c.ch_x.wr i (p.cF (ofInt i + half))
      let be_y ← c.be_y.wr i (p.bF (ofInt i))
      let ce_y ← c.ce_y.wr i (p.cF (ofInt i))
      let bh_y ← c.bh_y.wr i (p.bF (ofInt i + half))
      let ch_y ← c.ch_y.wr i (p.cF (ofInt i + half))
      pure ⟨be_x, ce_x, bh_x, ch_x, be_y, ce_y, bh_y, ch_y⟩)
    (by
      intro i h1 h2 D hDs hD
      have hA : ∀ (N : ℤ) (f : ℤ → ℝ), i < N → (A N f D).wr i (f i) = .ok (A N f (insert i D)) := by
        intro N f hN
        rw [Arr.wr_in h1 hN]
        refine congrArg Except.ok (Arr.ext' rfl fun x => ?_)
        simp only [A, Arr.setv_val, Finset.mem_insert]
        by_cases hx : x = i
        · subst hx; simp
        · simp [hx]
      simp only [half_real, ofInt_real]
      rw [hA Nx (fun i => p.bF (i : ℝ)) (by omega), Except.ok_bind, hA Nx (fun i => p.cF (i : ℝ)) (by omega), Except.ok_bind,
        hA Nx (fun i => p.bF ((i : ℝ) + 1 / 2)) (by omega), Except.ok_bind,
        hA Nx (fun i => p.cF ((i : ℝ) + 1 / 2)) (by omega), Except.ok_bind,
        hA Ny (fun i => p.bF (i : ℝ)) (by omega), Except.ok_bind, hA Ny (fun i => p.cF (i : ℝ)) (by omega), Except.ok_bind,
        hA Ny (fun i => p.bF ((i : ℝ) + 1 / 2)) (by omega), Except.ok_bind,
        hA Ny (fun i => p.cF ((i : ℝ) + 1 / 2)) (by omega), Except.ok_bind]
      rfl)
  have e0 : ∀ (N : ℤ) (f : ℤ → ℝ), A N f ∅ = Arr.const N 0 := by intro N f; simp [A, Arr.const]
  simp only [e0] at key
  unfold PmlCoef.init at h
  rw [key] at h
  cases h
  constructor
  all_goals
    intro i h1 h2
    simp only [A, List.mem_toFinset, mem_intRange, Int.lt_add_one_iff, h1, h2, and_self, if_true]

theorem Core.make_std {g : Grid ℝ} (hg : g.Wide) (hl : Lawful g) (hT : g.T = 0 ∨ 2 ≤ g.T) :
    ∃ c, Core.make g = .ok c ∧ c.Std ∧ c.g = g ∧ c.tStep = 0 ∧ c.t = 0 ∧ c.tfsf = none := by
  obtain ⟨h1, h2⟩ := hg
  obtain ⟨c, hm, hw, rfl, e1, e2, e3⟩ := Core.make_ok (g := g) (by omega) (by omega)
  refine ⟨c, hm, ?_, rfl, e1, e2, e3⟩
  have hm' := hm
  unfold Core.make Pml.make Pml.makeWith at hm'
  simp only [Except.bind_ok, Except.pure_eq] at hm'
  obtain ⟨f, -, p, ⟨co, hco, hp⟩, sc, hsc, hcc⟩ := hm'
  have hpe : c.pml = p := (congrArg Core.pml (Except.ok.inj hcc)).symm
  have hpar : c.pml.par = PmlPar.default c.g := by rw [hpe]; cases hp; rfl
  refine ⟨hw, ⟨h1, h2⟩, hl, hT, ?_, hpar, ?_⟩
  · have : c.sc = sc := (congrArg Core.sc (Except.ok.inj hcc)).symm
    rw [this]
    have hp' : p.par = PmlPar.default c.g := by rw [← hpe]; exact hpar
    rw [hp'] at hsc
    exact PmlPar.scaling_plain c.g (by omega) (by omega) hsc
  · rw [hpar]
    have : c.pml.co = co := by rw [hpe]; cases hp; rfl
    rw [this]
    exact PmlCoef.init_vals _ (by show c.g.T + 1 ≤ c.g.Nx; omega) (by show c.g.T + 1 ≤ c.g.Ny; omega) hco

/-- Operations that keep the grid, the spacings and the layer keep `Std`. -/
theorem Core.Std.dt_pos {c : Core ℝ} (h : c.Std) : 0 < c.g.dt := by
  have := h.law.dx
  rw [h.law.dt]; positivity

theorem Core.Std.of_same {c c' : Core ℝ} (h : c.Std) (w : c'.WF) (e1 : c'.g = c.g) (e2 : c'.sc = c.sc)
    (e3 : c'.pml.par = c.pml.par) (e4 : c'.pml.co = c.pml.co) : c'.Std where
  wf := w
  wide := by rw [e1]; exact h.wide
  law := by rw [e1]; exact h.law
  thick := by rw [e1]; exact h.thick
  sc := by rw [e1, e2]; exact h.sc
  par := by rw [e1, e3]; exact h.par
  co := by rw [e3, e4]; exact h.co

theorem Core.stageE_std {c : Core ℝ} (h : c.Std) : ∃ c', c.stageE = .ok c' ∧ c'.Std := by
  obtain ⟨c', h1, w, e1, e2, -⟩ := Core.stageE_ok h.wf h.wide
  obtain ⟨ld, E2, lr, E3, ll, E4, E5, -, -, -, -, -, -, -, -, h2⟩ := Core.stageE_parts h.wf h.wide
  have h3 := h1
  rw [h2] at h3
  refine ⟨c', h1, h.of_same w e1 e2 ?_ ?_⟩
  · cases h3; rfl
  · cases h3; rfl

theorem Core.stageH_std {c : Core ℝ} (h : c.Std) : ∃ c', c.stageH = .ok c' ∧ c'.Std := by
  obtain ⟨c', h1, w, e1, e2, -⟩ := Core.stageH_ok h.wf h.wide
  obtain ⟨tf, h', -, -, h2⟩ := Core.stageH_parts h.wf h.wide
  have h3 := h1
  rw [h2] at h3
  refine ⟨c', h1, h.of_same w e1 e2 ?_ ?_⟩
  · cases h3; rfl
  · cases h3; rfl

theorem Core.update_std {c : Core ℝ} (h : c.Std) (srcs : List (Source ℝ)) (hs : ∀ s ∈ srcs, Fits c.g s) :
    ∃ c' srcs', c.update srcs = .ok (c', srcs') ∧ c'.Std ∧ c'.g = c.g ∧ (∀ s ∈ srcs', Fits c'.g s) := by
  obtain ⟨c', srcs', h1, w, e1, e2, -, -, -, hf, -⟩ := Core.update_ok h.wf h.wide srcs hs
  refine ⟨c', srcs', h1, ?_, e1, hf⟩
  have h2 := h1
  unfold Core.update at h2
  simp only [Except.bind_ok, Except.pure_eq] at h2
  obtain ⟨c1, g1, ⟨s', f'⟩, g2, c2, g3, g4⟩ := h2
  obtain ⟨d1, k1, k2⟩ := Core.stageE_std h
  rw [g1] at k1
  cases k1
  obtain ⟨s'', f'', j1, j2, -⟩ := pulseAll_ok (g := c1.g) c1.t srcs c1.f (by
    have : c1.g = c.g := by
      obtain ⟨cc, q1, -, q2, -⟩ := Core.stageE_ok h.wf h.wide
      rw [g1] at q1; cases q1; exact q2
    rw [this]; exact hs) k2.wf.f
  rw [g2] at j1
  cases j1
  have k3 : ({ c1 with f := f' } : Core ℝ).Std := k2.of_same { k2.wf with f := j2 } rfl rfl rfl rfl
  obtain ⟨d2, k4, k5⟩ := Core.stageH_std k3
  rw [g3] at k4
  cases k4
  cases g4
  exact k5

theorem Core.run_std : ∀ (n : ℕ) {c : Core ℝ} (_ : c.Std) (srcs : List (Source ℝ)) (_ : ∀ s ∈ srcs, Fits c.g s),
    ∃ c' srcs', c.run n srcs = .ok (c', srcs') ∧ c'.Std ∧ c'.g = c.g ∧ (∀ s ∈ srcs', Fits c'.g s)
  | 0, c, h, srcs, hs => ⟨c, srcs, rfl, h, rfl, hs⟩
  | n + 1, c, h, srcs, hs => by
    obtain ⟨c1, s1, h1, w1, g1, f1⟩ := Core.update_std h srcs hs
    obtain ⟨c2, s2, h2, w2, g2, f2⟩ := Core.run_std n w1 s1 f1
    refine ⟨c2, s2, ?_, w2, g2.trans g1, f2⟩
    unfold Core.run
    rw [h1]; exact h2

end Qbox
