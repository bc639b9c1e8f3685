import Verif.Lemmas.CoreOps

/-! # A grid that is too narrow for the absorbing layer -/

namespace Qbox
open Scalar

set_option linter.unusedSectionVars false
set_option linter.unusedSimpArgs false

variable {K : Type} [Scalar K]

set_option maxHeartbeats 1000000 in
theorem pmlEyBody_row {be ce : Arr K} {dx : K} {Nx Ny T : ℤ} {Hx Cb : Tensor K} (hN : Ny = T + 1)
    (hbe : be.n = Ny) (hce : ce.n = Ny) (hS : Hx.Dim Nx Ny) (hC : Cb.Dim Nx Ny) (i j : ℤ)
    (h1 : 1 ≤ i) (h2 : i < Nx - 1) (h3 : 1 ≤ j) (h4 : j < T + 1) (s : Psi2 K) (hs : s.Dims Nx (T + 1) Nx Ny) :
    (j < T → ∃ s', pmlEyBody be ce dx (Ny - 1) Hx Cb i j s = .ok s' ∧ s'.Dims Nx (T + 1) Nx Ny) ∧
    (j = T → pmlEyBody be ce dx (Ny - 1) Hx Cb i j s = .error (.ub .oob)) := by
  obtain ⟨e1, e1'⟩ := hS
  obtain ⟨e2, e2'⟩ := hC
  obtain ⟨⟨e3, e3'⟩, ⟨e4, e4'⟩, ⟨e5, e5'⟩⟩ := hs
  constructor
  · intro hj
    unfold pmlEyBody
    simp (disch := first | omega | (simp only [Tensor.setv_nx, Tensor.setv_ny]; omega)) only
      [Tensor.rd_in, Tensor.wr_in, Arr.rd_in, Except.ok_bind, Except.pure_eq]
    exact ⟨_, rfl, ⟨e3, e3'⟩, ⟨e4, e4'⟩, ⟨e5, e5'⟩⟩
  · intro hj
    have hr : Hx.rd i (Ny - 1 - j - 1) = .error (.ub .oob) := Tensor.rd_out fun h => by
      have := h.2.2.1; omega
    unfold pmlEyBody
    simp (disch := first | omega | (simp only [Tensor.setv_nx, Tensor.setv_ny]; omega)) only
      [Tensor.rd_in, Tensor.wr_in, Arr.rd_in, Except.ok_bind, Except.pure_eq, hr, Except.error_bind]

set_option maxHeartbeats 1000000 in
theorem pmlExBody_row {be ce : Arr K} {dx : K} {Nx Ny T : ℤ} {Hy Cb : Tensor K} (hN : Nx = T + 1)
    (hbe : be.n = Nx) (hce : ce.n = Nx) (hS : Hy.Dim Nx Ny) (hC : Cb.Dim Nx Ny) (i j : ℤ)
    (h1 : 1 ≤ i) (h2 : i < T + 1) (h3 : 1 ≤ j) (h4 : j < Ny - 1) (s : Psi2 K) (hs : s.Dims (T + 1) Ny Nx Ny) :
    (i < T → ∃ s', pmlExBody be ce dx (Nx - 1) Hy Cb i j s = .ok s' ∧ s'.Dims (T + 1) Ny Nx Ny) ∧
    (i = T → pmlExBody be ce dx (Nx - 1) Hy Cb i j s = .error (.ub .oob)) := by
  obtain ⟨e1, e1'⟩ := hS
  obtain ⟨e2, e2'⟩ := hC
  obtain ⟨⟨e3, e3'⟩, ⟨e4, e4'⟩, ⟨e5, e5'⟩⟩ := hs
  constructor
  · intro hj
    unfold pmlExBody
    simp (disch := first | omega | (simp only [Tensor.setv_nx, Tensor.setv_ny]; omega)) only
      [Tensor.rd_in, Tensor.wr_in, Arr.rd_in, Except.ok_bind, Except.pure_eq]
    exact ⟨_, rfl, ⟨e3, e3'⟩, ⟨e4, e4'⟩, ⟨e5, e5'⟩⟩
  · intro hj
    have hr : Hy.rd (Nx - 1 - i - 1) j = .error (.ub .oob) := Tensor.rd_out fun h => by
      have := h.1; omega
    unfold pmlExBody
    simp (disch := first | omega | (simp only [Tensor.setv_nx, Tensor.setv_ny]; omega)) only
      [Tensor.rd_in, Tensor.wr_in, Arr.rd_in, Except.ok_bind, Except.pure_eq, hr, Except.error_bind]

/-- The electric layer update reads out of range when the grid is only one node wider than the layer. -/
theorem Pml.updateE_narrow {p : Pml K} {Nx Ny T : ℤ} (hp : p.WF Nx Ny T) (hx : T + 1 ≤ Nx) (hy : T + 1 ≤ Ny)
    (hn : T + 1 = Nx ∨ T + 1 = Ny) (h3x : 3 ≤ Nx) (h3y : 3 ≤ Ny)
    {Hx Hy Cb Ez : Tensor K} (hHx : Hx.Dim Nx Ny) (hHy : Hy.Dim Nx Ny) (hCb : Cb.Dim Nx Ny) (hEz : Ez.Dim Nx Ny) :
    p.updateE Hx Hy Cb Ez = .error (.ub .oob) := by
  obtain ⟨q1, q2, q3, q4, q5, q6, q7, q8, q9, q10, q11, q12, q13, q14, q15, q16, q17, q18, q19⟩ := hp
  have hT : 0 ≤ T := by omega
  unfold Pml.updateE
  simp only [q1, q2, q3]
  by_cases hyy : T + 1 = Ny
  · have := forRange_fail (fun s : Psi2 K => s.Dims Nx (T + 1) Nx Ny) (.ub .oob) 1 (Nx - 1)
      (fun i s => forRange 1 (T + 1) s (fun j s => pmlEyBody p.co.be_y p.co.ce_y p.par.dx (Ny - 1) Hx Cb i j s))
      (by
        intro i h1 h2 s hs
        right
        refine forRange_fail (fun s : Psi2 K => s.Dims Nx (T + 1) Nx Ny) (.ub .oob) 1 (T + 1) _ ?_ T (by omega)
          (by omega) ?_ s hs
        · intro j h3 h4 s hs
          obtain ⟨a, b⟩ := pmlEyBody_row (dx := p.par.dx) hyy.symm q8 q9 hHx hCb i j h1 h2 h3 h4 s hs
          by_cases hj : j = T
          · exact Or.inr (b hj)
          · exact Or.inl (a (by omega))
        · intro s hs
          exact (pmlEyBody_row hyy.symm q8 q9 hHx hCb i T h1 h2 (by omega) (by omega) s hs).2 rfl)
      1 (le_refl _) (by omega)
      (by
        intro s hs
        refine forRange_fail (fun s : Psi2 K => s.Dims Nx (T + 1) Nx Ny) (.ub .oob) 1 (T + 1) _ ?_ T (by omega)
          (by omega) ?_ s hs
        · intro j h3 h4 s hs
          obtain ⟨a, b⟩ := pmlEyBody_row (dx := p.par.dx) hyy.symm q8 q9 hHx hCb 1 j (by omega) (by omega) h3 h4 s hs
          by_cases hj : j = T
          · exact Or.inr (b hj)
          · exact Or.inl (a (by omega))
        · intro s hs
          exact (pmlEyBody_row hyy.symm q8 q9 hHx hCb 1 T (by omega) (by omega) (by omega) (by omega) s hs).2 rfl)
      ⟨p.psi.Ezy1, p.psi.Ezy2, Ez⟩ ⟨q16, q17, hEz⟩
    rw [this]
    rfl
  · have hxx : T + 1 = Nx := by tauto
    obtain ⟨s, h1, d1, d2, d3⟩ := forRange2_inv (fun s : Psi2 K => s.Dims Nx (T + 1) Nx Ny) 1 (Nx - 1) 1 (T + 1)
      (pmlEyBody p.co.be_y p.co.ce_y p.par.dx (Ny - 1) Hx Cb)
      (fun i j h1 h2 h3 h4 s hs => pmlEyBody_ok (by omega) q8 q9 hHx hCb i j h1 h2 h3 h4 s hs)
      ⟨p.psi.Ezy1, p.psi.Ezy2, Ez⟩ ⟨q16, q17, hEz⟩
    rw [h1]
    simp only [Except.ok_bind]
    have := forRange_fail (fun s : Psi2 K => s.Dims (T + 1) Ny Nx Ny) (.ub .oob) 1 (T + 1)
      (fun i s => forRange 1 (Ny - 1) s (fun j s => pmlExBody p.co.be_x p.co.ce_x p.par.dx (Nx - 1) Hy Cb i j s))
      (by
        intro i h1 h2 s hs
        by_cases hi : i = T
        · right
          refine forRange_fail (fun s : Psi2 K => s.Dims (T + 1) Ny Nx Ny) (.ub .oob) 1 (Ny - 1) _ ?_ 1 (by omega)
            (by omega) ?_ s hs
          · intro j h3 h4 s hs
            exact Or.inr ((pmlExBody_row hxx.symm q4 q5 hHy hCb i j h1 h2 h3 h4 s hs).2 hi)
          · intro s hs
            exact (pmlExBody_row hxx.symm q4 q5 hHy hCb i 1 h1 h2 (by omega) (by omega) s hs).2 hi
        · left
          exact forRange_inv _ 1 (Ny - 1) _ (fun j h3 h4 s hs =>
            (pmlExBody_row hxx.symm q4 q5 hHy hCb i j h1 h2 h3 h4 s hs).1 (by omega)) s hs)
      T (by omega) (by omega)
      (by
        intro s hs
        refine forRange_fail (fun s : Psi2 K => s.Dims (T + 1) Ny Nx Ny) (.ub .oob) 1 (Ny - 1) _ ?_ 1 (by omega)
          (by omega) ?_ s hs
        · intro j h3 h4 s hs
          exact Or.inr ((pmlExBody_row hxx.symm q4 q5 hHy hCb T j (by omega) (by omega) h3 h4 s hs).2 rfl)
        · intro s hs
          exact (pmlExBody_row hxx.symm q4 q5 hHy hCb T 1 (by omega) (by omega) (by omega) (by omega) s hs).2 rfl)
      ⟨p.psi.Ezx1, p.psi.Ezx2, s.F⟩ ⟨q12, q13, d3⟩
    rw [this]
    rfl

theorem Core.update_narrow {c : Core K} (hc : c.WF) (hx : c.g.T + 1 ≤ c.g.Nx) (hy : c.g.T + 1 ≤ c.g.Ny)
    (hn : ¬ c.g.Wide) (h3x : 3 ≤ c.g.Nx) (h3y : 3 ≤ c.g.Ny) (srcs : List (Source K)) :
    c.update srcs = .error (.ub .oob) := by
  have hn' : c.g.T + 1 = c.g.Nx ∨ c.g.T + 1 = c.g.Ny := by
    by_contra h
    push Not at h
    exact hn ⟨by omega, by omega⟩
  unfold Core.update Core.stageE
  simp only
  rw [ezLoop_closed c.g.Nx c.g.Ny c.f c.sc hc.f hc.sc]
  simp only [Except.ok_bind]
  rw [Pml.updateE_narrow hc.pml hx hy hn' h3x h3y hc.f.Hx hc.f.Hy hc.f.Cb
    (Ez := c.f.Ez.upd (rect 1 (c.g.Nx - 1) 1 (c.g.Ny - 1)) (ezVal c.f c.sc)) hc.f.Ez]
  rfl

theorem PmlCoef.init_narrow (p : PmlPar K) {Nx Ny : ℤ} (h0 : 0 ≤ Nx) (h0y : 0 ≤ Ny) (hn : Nx < p.T + 1 ∨ Ny < p.T + 1) :
    PmlCoef.init p Nx Ny = .error (.ub .oob) := by
  unfold PmlCoef.init
  have hstep : ∀ i, 0 ≤ i → i < p.T + 1 → ∀ c : PmlCoef K, (c.be_x.n = Nx ∧ c.ce_x.n = Nx ∧ c.bh_x.n = Nx ∧
      c.ch_x.n = Nx ∧ c.be_y.n = Ny ∧ c.ce_y.n = Ny ∧ c.bh_y.n = Ny ∧ c.ch_y.n = Ny) →
      ((i < Nx ∧ i < Ny) → ∃ s', (do
        let be_x ← c.be_x.wr i (p.bF (ofInt i))
        let ce_x ← c.ce_x.wr i (p.cF (ofInt i))
        let bh_x ← c.bh_x.wr i (p.bF (ofInt i + half))
        let ch_x ← c.ch_x.wr i (p.cF (ofInt i + half))
        let be_y ← c.be_y.wr i (p.bF (ofInt i))
        let ce_y ← c.ce_y.wr i (p.cF (ofInt i))
        let bh_y ← c.bh_y.wr i (p.bF (ofInt i + half))
        let ch_y ← c.ch_y.wr i (p.cF (ofInt i + half))
        pure (⟨be_x, ce_x, bh_x, ch_x, be_y, ce_y, bh_y, ch_y⟩ : PmlCoef K) : M (PmlCoef K)) = .ok s' ∧
        (s'.be_x.n = Nx ∧ s'.ce_x.n = Nx ∧ s'.bh_x.n = Nx ∧
          s'.ch_x.n = Nx ∧ s'.be_y.n = Ny ∧ s'.ce_y.n = Ny ∧ s'.bh_y.n = Ny ∧ s'.ch_y.n = Ny)) ∧
      (¬ (i < Nx ∧ i < Ny) → (do
        let be_x ← c.be_x.wr i (p.bF (ofInt i))
        let ce_x ← c.ce_x.wr i (p.cF (ofInt i))
        let bh_x ← c.bh_x.wr i (p.bF (ofInt i + half))
        let ch_x ← c.ch_x.wr i (p.cF (ofInt i + half))
        let be_y ← c.be_y.wr i (p.bF (ofInt i))
        let ce_y ← c.ce_y.wr i (p.cF (ofInt i))
        let bh_y ← c.bh_y.wr i (p.bF (ofInt i + half))
        let ch_y ← c.ch_y.wr i (p.cF (ofInt i + half))
        pure (⟨be_x, ce_x, bh_x, ch_x, be_y, ce_y, bh_y, ch_y⟩ : PmlCoef K) : M (PmlCoef K)) = .error (.ub .oob)) := by
    rintro i h0 h1 s ⟨e1, e2, e3, e4, e5, e6, e7, e8⟩
    constructor
    · intro hi
      simp (disch := omega) only [Arr.wr_in, Except.ok_bind, Except.pure_eq]
      exact ⟨_, rfl, e1, e2, e3, e4, e5, e6, e7, e8⟩
    · intro hi
      by_cases hx : i < Nx
      · have hw : ∀ v, s.be_y.wr i v = .error (.ub .oob) := fun v => Arr.wr_out (by omega)
        simp (disch := omega) only [Arr.wr_in, Except.ok_bind, Except.pure_eq, hw, Except.error_bind]
      · have hw : ∀ v, s.be_x.wr i v = .error (.ub .oob) := fun v => Arr.wr_out (by omega)
        simp only [hw, Except.error_bind]
  refine forRange_fail (fun c : PmlCoef K => c.be_x.n = Nx ∧ c.ce_x.n = Nx ∧ c.bh_x.n = Nx ∧
      c.ch_x.n = Nx ∧ c.be_y.n = Ny ∧ c.ce_y.n = Ny ∧ c.bh_y.n = Ny ∧ c.ch_y.n = Ny) (.ub .oob) 0 (p.T + 1) _ ?_
      (min Nx Ny) (by omega) (by omega) ?_ _ ⟨rfl, rfl, rfl, rfl, rfl, rfl, rfl, rfl⟩
  · intro i h1 h2 s hs
    by_cases h : i < Nx ∧ i < Ny
    · exact Or.inl ((hstep i h1 h2 s hs).1 h)
    · exact Or.inr ((hstep i h1 h2 s hs).2 h)
  · intro s hs
    exact (hstep (min Nx Ny) (by omega) (by omega) s hs).2 (by omega)

theorem Core.make_narrow {g : Grid K} (h0 : 0 ≤ g.Nx) (h0y : 0 ≤ g.Ny) (hn : g.Nx < g.T + 1 ∨ g.Ny < g.T + 1) :
    Core.make g = .error (.ub .oob) := by
  have h3 := clearMaterials_closed (g := g) (f := ⟨.const g.Nx g.Ny 0, .const g.Nx g.Ny 0, .const g.Nx g.Ny 0,
    .const g.Nx g.Ny 0, .const g.Nx g.Ny 0, .const g.Nx g.Ny 0, .const g.Nx g.Ny 0⟩)
    ⟨⟨rfl, rfl⟩, ⟨rfl, rfl⟩, ⟨rfl, rfl⟩, ⟨rfl, rfl⟩, ⟨rfl, rfl⟩, ⟨rfl, rfl⟩, ⟨rfl, rfl⟩⟩
  unfold Core.make Pml.make Pml.makeWith
  simp only
  rw [h3]; simp only [Except.ok_bind]
  rw [PmlCoef.init_narrow (PmlPar.default g) h0 h0y hn]
  rfl

end Qbox
