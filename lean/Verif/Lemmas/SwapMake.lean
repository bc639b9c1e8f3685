import Verif.Lemmas.Swap

/-! # The constructor and the exchange of the axes -/

namespace Qbox
open Scalar Spec Props

set_option linter.unusedSectionVars false
set_option linter.unusedSimpArgs false

theorem init_swap (p : PmlPar ℝ) {Nx Ny : ℤ} (hx : p.T + 1 ≤ Nx) (hy : p.T + 1 ≤ Ny) :
    ∃ co, PmlCoef.init p Nx Ny = .ok co ∧ PmlCoef.init p Ny Nx = .ok (swapCoef co) := by
  have key := forRange_rel (fun (c d : PmlCoef ℝ) => d = swapCoef c ∧ (c.be_x.n = Nx ∧ c.ce_x.n = Nx ∧ c.bh_x.n = Nx ∧ c.ch_x.n = Nx ∧
      c.be_y.n = Ny ∧ c.ce_y.n = Ny ∧ c.bh_y.n = Ny ∧ c.ch_y.n = Ny)) 0 (p.T + 1)
    (fun i c => do
      let be_x ← c.be_x.wr i (p.bF (ofInt i))
      let ce_x ← c.ce_x.wr i (p.cF (ofInt i))
      let bh_x ← c.bh_x.wr i (p.bF (ofInt i + half))
      let ch_x ← c.ch_x.wr i (p.cF (ofInt i + half))
      let be_y ← c.be_y.wr i (p.bF (ofInt i))
      let ce_y ← c.ce_y.wr i (p.cF (ofInt i))
      let bh_y ← c.bh_y.wr i (p.bF (ofInt i + half))
      let ch_y ← c.ch_y.wr i (p.cF (ofInt i + half))
      pure ⟨be_x, ce_x, bh_x, ch_x, be_y, ce_y, bh_y, ch_y⟩)
    (fun i c => do
      let be_x ← c.be_x.wr i (p.bF (ofInt i))
      let ce_x ← c.ce_x.wr i (p.cF (ofInt i))
      let bh_x ← c.bh_x.wr i (p.bF (ofInt i + half))
      let ch_x ← c.ch_x.wr i (p.cF (ofInt i + half))
      let be_y ← c.be_y.wr i (p.bF (ofInt i))
      let ce_y ← c.ce_y.wr i (p.cF (ofInt i))
      let bh_y ← c.bh_y.wr i (p.bF (ofInt i + half))
      let ch_y ← c.ch_y.wr i (p.cF (ofInt i + half))
      pure ⟨be_x, ce_x, bh_x, ch_x, be_y, ce_y, bh_y, ch_y⟩) (by
      rintro i h0 h1 s t ⟨rfl, e1, e2, e3, e4, e5, e6, e7, e8⟩
      simp only [swapCoef]
      simp (disch := omega) only [Arr.wr_in, Except.ok_bind, Except.pure_eq]
      exact ⟨_, _, rfl, rfl, rfl, e1, e2, e3, e4, e5, e6, e7, e8⟩)
    ⟨.const Nx 0, .const Nx 0, .const Nx 0, .const Nx 0, .const Ny 0, .const Ny 0, .const Ny 0, .const Ny 0⟩ _
    ⟨rfl, rfl, rfl, rfl, rfl, rfl, rfl, rfl, rfl⟩
  obtain ⟨s, t, h1, h2, rfl, -⟩ := key
  exact ⟨s, h1, h2⟩

theorem make_swap {g : Grid ℝ} (hg : g.Wide) (hl : Lawful g) (hT : g.T = 0 ∨ 2 ≤ g.T) :
    ∃ c, Core.make g = .ok c ∧ Core.make (swapGrid g) = .ok (swapCore c) := by
  obtain ⟨h1, h2⟩ := hg
  obtain ⟨co, c1, c2⟩ := init_swap (PmlPar.default g) (Nx := g.Nx) (Ny := g.Ny) (by show g.T + 1 ≤ _; omega) (by show g.T + 1 ≤ _; omega)
  obtain ⟨sc, s1, d1⟩ := PmlPar.scaling_ok (PmlPar.default g) (Nx := g.Nx) (Ny := g.Ny) (by show g.T ≤ _; omega) (by show g.T ≤ _; omega)
  obtain ⟨sc', s2, d2⟩ := PmlPar.scaling_ok (PmlPar.default (swapGrid g)) (Nx := g.Ny) (Ny := g.Nx) (by show g.T ≤ _; omega)
    (by show g.T ≤ _; omega)
  have p1 := PmlPar.scaling_plain g (by omega) (by omega) s1
  have p2 := PmlPar.scaling_plain (swapGrid g) (by show g.T ≤ _; omega) (by show g.T ≤ _; omega) s2
  have es : sc' = swapScaling sc := by
    obtain ⟨a1, a2, a3, a4⟩ := sc
    obtain ⟨b1, b2, b3, b4⟩ := sc'
    obtain ⟨q1, q2, q3, q4⟩ := d1
    obtain ⟨r1, r2, r3, r4⟩ := d2
    obtain ⟨t1, t2, t3, t4⟩ := p1
    obtain ⟨u1, u2, u3, u4⟩ := p2
    simp only at q1 q2 q3 q4 r1 r2 r3 r4 t1 t2 t3 t4 u1 u2 u3 u4
    simp only [swapScaling, Scaling.mk.injEq]
    exact ⟨Arr.ext' (by rw [r1, q3]) fun i => by rw [u1, t3]; rfl, Arr.ext' (by rw [r2, q4]) fun i => by rw [u2, t4]; rfl,
      Arr.ext' (by rw [r3, q1]) fun i => by rw [u3, t1]; rfl, Arr.ext' (by rw [r4, q2]) fun i => by rw [u4, t2]; rfl⟩
  have z : ∀ g : Grid ℝ, (⟨.const g.Nx g.Ny 0, .const g.Nx g.Ny 0, .const g.Nx g.Ny 0, .const g.Nx g.Ny 0, .const g.Nx g.Ny 0,
      .const g.Nx g.Ny 0, .const g.Nx g.Ny 0⟩ : Flds ℝ).Dims g.Nx g.Ny := fun g =>
    ⟨⟨rfl, rfl⟩, ⟨rfl, rfl⟩, ⟨rfl, rfl⟩, ⟨rfl, rfl⟩, ⟨rfl, rfl⟩, ⟨rfl, rfl⟩, ⟨rfl, rfl⟩⟩
  have k1 := clearMaterials_closed (z g)
  have k2 := clearMaterials_closed (z (swapGrid g))
  unfold Core.make Pml.make Pml.makeWith
  simp only
  rw [k1, k2]; simp only [Except.ok_bind]
  rw [c1, show PmlCoef.init (PmlPar.default (swapGrid g)) (swapGrid g).Nx (swapGrid g).Ny = _ from c2]
  simp only [Except.ok_bind, Except.pure_eq]
  rw [s1, show (PmlPar.default (swapGrid g)).scaling (swapGrid g).Nx (swapGrid g).Ny = _ from s2]
  simp only [Except.ok_bind, Except.pure_eq]
  refine ⟨_, rfl, congrArg Except.ok ?_⟩
  simp only [swapCore, Core.mk.injEq, true_and, List.map_nil, Option.map_none, and_true]
  refine ⟨?_, es, ?_⟩
  · simp only [Flds.paint, swapFlds, Flds.mk.injEq]
    refine ⟨Tensor.ext' rfl rfl fun x y => rfl, Tensor.ext' rfl rfl fun x y => ?_, Tensor.ext' rfl rfl fun x y => ?_,
      Tensor.ext' rfl rfl fun x y => ?_, Tensor.ext' rfl rfl fun x y => ?_, Tensor.ext' rfl rfl fun x y => ?_,
      Tensor.ext' rfl rfl fun x y => ?_⟩
    · simp [Tensor.const]
    · simp [Tensor.const]
    all_goals
      simp only [Tensor.setv_val, tr_val, swapGrid, mem_rect_swap (x := x) (y := y)]
      rfl
  · have e : ∀ n m : ℤ, trn (Tensor.const n m 0) = Tensor.const m n 0 := fun n m => Tensor.ext' rfl rfl fun x y => by simp [Tensor.const]
    simp only [swapPml, swapPsi, PmlPsi.init, e, Pml.mk.injEq]
    exact ⟨rfl, rfl, rfl, trivial, rfl⟩

end Qbox
