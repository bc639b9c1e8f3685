import Verif.Lemmas.Loops
import Verif.Model.Core

/-!
# Shapes of the arrays of a simulation, and that every stage of `update()` keeps them without a fault
-/

namespace Qbox
open Scalar

set_option linter.unusedSectionVars false
set_option linter.unusedSimpArgs false

variable {K : Type} [Scalar K]

/-- Shapes of the absorbing layer's arrays. -/
structure Pml.WF (p : Pml K) (Nx Ny T : ℤ) : Prop where
  nx : p.Nx = Nx
  ny : p.Ny = Ny
  thk : p.par.T = T
  be_x : p.co.be_x.n = Nx
  ce_x : p.co.ce_x.n = Nx
  bh_x : p.co.bh_x.n = Nx
  ch_x : p.co.ch_x.n = Nx
  be_y : p.co.be_y.n = Ny
  ce_y : p.co.ce_y.n = Ny
  bh_y : p.co.bh_y.n = Ny
  ch_y : p.co.ch_y.n = Ny
  Ezx1 : p.psi.Ezx1.Dim (T + 1) Ny
  Ezx2 : p.psi.Ezx2.Dim (T + 1) Ny
  Hyx1 : p.psi.Hyx1.Dim (T + 1) Ny
  Hyx2 : p.psi.Hyx2.Dim (T + 1) Ny
  Ezy1 : p.psi.Ezy1.Dim Nx (T + 1)
  Ezy2 : p.psi.Ezy2.Dim Nx (T + 1)
  Hxy1 : p.psi.Hxy1.Dim Nx (T + 1)
  Hxy2 : p.psi.Hxy2.Dim Nx (T + 1)

/-- Shape of a rank-3 tensor. -/
def Tensor3.Dim (a : Tensor3 K) (n m k : ℤ) : Prop := a.nx = n ∧ a.ny = m ∧ a.nz = k

/-- Shapes of a Debye polarization. -/
structure DebyePol.WF (P : DebyePol K) (Nx Ny : ℤ) : Prop where
  np : P.np = P.mat.poles.length
  J : P.J.Dim Nx Ny P.np
  beta : P.beta.Dim Nx Ny P.np

/-- Shapes of a Drude polarization. -/
structure DrudePol.WF (P : DrudePol K) (Nx Ny : ℤ) : Prop where
  np : P.np = P.mat.poles.length
  J : P.J.Dim Nx Ny P.np
  beta : P.beta.Dim Nx Ny P.np

/-- Shapes of a Lorentz polarization. -/
structure LorentzPol.WF (P : LorentzPol K) (Nx Ny : ℤ) : Prop where
  np : P.np = P.mat.poles.length
  J : P.J.Dim Nx Ny P.np
  delta : P.delta.Dim Nx Ny P.np
  prevJ : P.prevJ.Dim Nx Ny P.np

/-- Lengths of the 1D arrays of a TFSF source. -/
structure Tfsf.Shape (w : Tfsf K) : Prop where
  nx : 5 ≤ w.Nx
  Ez : w.Ez.n = w.Nx
  Dz : w.Dz.n = w.Nx
  Hx : w.Hx.n = w.Nx
  Iz : w.Iz.n = w.Nx
  ca : w.ca.n = w.Nx
  cb : w.cb.n = w.Nx
  keys : ∀ d, w.fourier = some d → ∀ p ∈ d.acc, p.1 = "E" ∨ p.1 = "H"

/-- The region of a TFSF source is inside a grid of `Nx` by `Ny` nodes, one cell away from the lower edges. -/
structure Tfsf.InGrid (w : Tfsf K) (Nx Ny : ℤ) : Prop where
  len : w.Nx = w.jb - w.ja + 5
  ia : 1 ≤ w.ia
  ab : w.ia ≤ w.ib
  ib : w.ib < Nx
  ja : 1 ≤ w.ja
  jab : w.ja ≤ w.jb
  jb : w.jb < Ny

/-- `opt` holds a tensor of the given shape, if it holds one. -/
def OptDim (o : Option (Tensor K)) (n m : ℤ) : Prop := ∀ a, o = some a → a.Dim n m

/-- Shapes of all arrays of a simulation. -/
structure Core.WF (c : Core K) : Prop where
  f : c.f.Dims c.g.Nx c.g.Ny
  sc : c.sc.Dims c.g.Nx c.g.Ny
  pml : c.pml.WF c.g.Nx c.g.Ny c.g.T
  prevE : OptDim c.prevE c.g.Nx c.g.Ny
  prev2E : OptDim c.prev2E c.g.Nx c.g.Ny
  hasE : c.debye ≠ [] ∨ c.drude ≠ [] ∨ c.lorentz ≠ [] → c.prevE.isSome
  has2E : c.lorentz ≠ [] → c.prev2E.isSome
  debye : ∀ p ∈ c.debye, p.2.WF c.g.Nx c.g.Ny
  drude : ∀ p ∈ c.drude, p.2.WF c.g.Nx c.g.Ny
  lorentz : ∀ p ∈ c.lorentz, p.2.WF c.g.Nx c.g.Ny
  tfsf : ∀ w, c.tfsf = some w → w.Shape ∧ w.InGrid c.g.Nx c.g.Ny

/-! ## Absorbing layer -/

/-- Shapes of the loop state of the absorbing layer. -/
def Psi2.Dims (s : Psi2 K) (a b Nx Ny : ℤ) : Prop := s.p1.Dim a b ∧ s.p2.Dim a b ∧ s.F.Dim Nx Ny

theorem pmlEyBody_ok {be ce : Arr K} {dx : K} {Nx Ny T : ℤ} {Hx Cb : Tensor K} (hN : T + 2 ≤ Ny)
    (hbe : be.n = Ny) (hce : ce.n = Ny) (hS : Hx.Dim Nx Ny) (hC : Cb.Dim Nx Ny) (i j : ℤ)
    (h1 : 1 ≤ i) (h2 : i < Nx - 1) (h3 : 1 ≤ j) (h4 : j < T + 1) (s : Psi2 K) (hs : s.Dims Nx (T + 1) Nx Ny) :
    ∃ s', pmlEyBody be ce dx (Ny - 1) Hx Cb i j s = .ok s' ∧ s'.Dims Nx (T + 1) Nx Ny := by
  obtain ⟨e1, e1'⟩ := hS
  obtain ⟨e2, e2'⟩ := hC
  obtain ⟨⟨e3, e3'⟩, ⟨e4, e4'⟩, ⟨e5, e5'⟩⟩ := hs
  unfold pmlEyBody
  simp (disch := first | omega | (simp only [Tensor.setv_nx, Tensor.setv_ny]; omega)) only
    [Tensor.rd_in, Tensor.wr_in, Arr.rd_in, Except.ok_bind, Except.pure_eq]
  exact ⟨_, rfl, ⟨e3, e3'⟩, ⟨e4, e4'⟩, ⟨e5, e5'⟩⟩

theorem pmlExBody_ok {be ce : Arr K} {dx : K} {Nx Ny T : ℤ} {Hy Cb : Tensor K} (hN : T + 2 ≤ Nx)
    (hbe : be.n = Nx) (hce : ce.n = Nx) (hS : Hy.Dim Nx Ny) (hC : Cb.Dim Nx Ny) (i j : ℤ)
    (h1 : 1 ≤ i) (h2 : i < T + 1) (h3 : 1 ≤ j) (h4 : j < Ny - 1) (s : Psi2 K) (hs : s.Dims (T + 1) Ny Nx Ny) :
    ∃ s', pmlExBody be ce dx (Nx - 1) Hy Cb i j s = .ok s' ∧ s'.Dims (T + 1) Ny Nx Ny := by
  obtain ⟨e1, e1'⟩ := hS
  obtain ⟨e2, e2'⟩ := hC
  obtain ⟨⟨e3, e3'⟩, ⟨e4, e4'⟩, ⟨e5, e5'⟩⟩ := hs
  unfold pmlExBody
  simp (disch := first | omega | (simp only [Tensor.setv_nx, Tensor.setv_ny]; omega)) only
    [Tensor.rd_in, Tensor.wr_in, Arr.rd_in, Except.ok_bind, Except.pure_eq]
  exact ⟨_, rfl, ⟨e3, e3'⟩, ⟨e4, e4'⟩, ⟨e5, e5'⟩⟩

theorem pmlHyBody_ok {bh ch : Arr K} {dx : K} {Nx Ny T : ℤ} {Ez Db : Tensor K} (hN : T + 2 ≤ Ny)
    (hbh : bh.n = Ny) (hch : ch.n = Ny) (hS : Ez.Dim Nx Ny) (hC : Db.Dim Nx Ny) (i j : ℤ)
    (h1 : 1 ≤ i) (h2 : i < Nx - 1) (h3 : 1 ≤ j) (h4 : j < T) (s : Psi2 K) (hs : s.Dims Nx (T + 1) Nx Ny) :
    ∃ s', pmlHyBody bh ch dx (Ny - 1) Ez Db i j s = .ok s' ∧ s'.Dims Nx (T + 1) Nx Ny := by
  obtain ⟨e1, e1'⟩ := hS
  obtain ⟨e2, e2'⟩ := hC
  obtain ⟨⟨e3, e3'⟩, ⟨e4, e4'⟩, ⟨e5, e5'⟩⟩ := hs
  unfold pmlHyBody
  simp (disch := first | omega | (simp only [Tensor.setv_nx, Tensor.setv_ny]; omega)) only
    [Tensor.rd_in, Tensor.wr_in, Arr.rd_in, Except.ok_bind, Except.pure_eq]
  exact ⟨_, rfl, ⟨e3, e3'⟩, ⟨e4, e4'⟩, ⟨e5, e5'⟩⟩

theorem pmlHxBody_ok {bh ch : Arr K} {dx : K} {Nx Ny T : ℤ} {Ez Db : Tensor K} (hN : T + 2 ≤ Nx)
    (hbh : bh.n = Nx) (hch : ch.n = Nx) (hS : Ez.Dim Nx Ny) (hC : Db.Dim Nx Ny) (i j : ℤ)
    (h1 : 1 ≤ i) (h2 : i < T) (h3 : 1 ≤ j) (h4 : j < Ny - 1) (s : Psi2 K) (hs : s.Dims (T + 1) Ny Nx Ny) :
    ∃ s', pmlHxBody bh ch dx (Nx - 1) Ez Db i j s = .ok s' ∧ s'.Dims (T + 1) Ny Nx Ny := by
  obtain ⟨e1, e1'⟩ := hS
  obtain ⟨e2, e2'⟩ := hC
  obtain ⟨⟨e3, e3'⟩, ⟨e4, e4'⟩, ⟨e5, e5'⟩⟩ := hs
  unfold pmlHxBody
  simp (disch := first | omega | (simp only [Tensor.setv_nx, Tensor.setv_ny]; omega)) only
    [Tensor.rd_in, Tensor.wr_in, Arr.rd_in, Except.ok_bind, Except.pure_eq]
  exact ⟨_, rfl, ⟨e3, e3'⟩, ⟨e4, e4'⟩, ⟨e5, e5'⟩⟩

theorem Pml.updateE_ok {p : Pml K} {Nx Ny T : ℤ} (hp : p.WF Nx Ny T) (hx : T + 2 ≤ Nx) (hy : T + 2 ≤ Ny)
    {Hx Hy Cb Ez : Tensor K} (dHx : Hx.Dim Nx Ny) (dHy : Hy.Dim Nx Ny) (dCb : Cb.Dim Nx Ny) (dEz : Ez.Dim Nx Ny) :
    ∃ p' Ez', p.updateE Hx Hy Cb Ez = .ok (p', Ez') ∧ p'.WF Nx Ny T ∧ Ez'.Dim Nx Ny := by
  have hT := hp.thk
  have hnx := hp.nx
  have hny := hp.ny
  obtain ⟨s, h1, d1⟩ := forRange2_inv (fun s : Psi2 K => s.Dims Nx (T + 1) Nx Ny) 1 (Nx - 1) 1 (T + 1) _
    (fun i j h1 h2 h3 h4 => pmlEyBody_ok (be := p.co.be_y) (ce := p.co.ce_y) (dx := p.par.dx) hy hp.be_y hp.ce_y
      dHx dCb i j h1 h2 h3 h4) ⟨p.psi.Ezy1, p.psi.Ezy2, Ez⟩ ⟨hp.Ezy1, hp.Ezy2, dEz⟩
  obtain ⟨r, h2, d2⟩ := forRange2_inv (fun s : Psi2 K => s.Dims (T + 1) Ny Nx Ny) 1 (T + 1) 1 (Ny - 1) _
    (fun i j h1 h2 h3 h4 => pmlExBody_ok (be := p.co.be_x) (ce := p.co.ce_x) (dx := p.par.dx) hx hp.be_x hp.ce_x
      dHy dCb i j h1 h2 h3 h4) ⟨p.psi.Ezx1, p.psi.Ezx2, s.F⟩ ⟨hp.Ezx1, hp.Ezx2, d1.2.2⟩
  refine ⟨{ p with psi := { p.psi with Ezy1 := s.p1, Ezy2 := s.p2, Ezx1 := r.p1, Ezx2 := r.p2 } }, r.F, ?_, ?_, d2.2.2⟩
  · unfold Pml.updateE
    simp only [hT, hnx, hny]
    rw [h1]; simp only [Except.ok_bind]
    rw [h2]; simp only [Except.ok_bind]
    rfl
  · exact { hp with Ezy1 := d1.1, Ezy2 := d1.2.1, Ezx1 := d2.1, Ezx2 := d2.2.1 }

theorem Pml.updateH_ok {p : Pml K} {Nx Ny T : ℤ} (hp : p.WF Nx Ny T) (hx : T + 2 ≤ Nx) (hy : T + 2 ≤ Ny)
    {Ez Db Hx Hy : Tensor K} (dEz : Ez.Dim Nx Ny) (dDb : Db.Dim Nx Ny) (dHx : Hx.Dim Nx Ny) (dHy : Hy.Dim Nx Ny) :
    ∃ p' Hx' Hy', p.updateH Ez Db Hx Hy = .ok (p', Hx', Hy') ∧ p'.WF Nx Ny T ∧ Hx'.Dim Nx Ny ∧ Hy'.Dim Nx Ny := by
  have hT := hp.thk
  have hnx := hp.nx
  have hny := hp.ny
  obtain ⟨s, h1, d1⟩ := forRange2_inv (fun s : Psi2 K => s.Dims Nx (T + 1) Nx Ny) 1 (Nx - 1) 1 (T - 1 + 1) _
    (fun i j h1 h2 h3 h4 => pmlHyBody_ok (bh := p.co.bh_y) (ch := p.co.ch_y) (dx := p.par.dx) hy hp.bh_y hp.ch_y
      dEz dDb i j h1 h2 h3 (by omega)) ⟨p.psi.Hxy1, p.psi.Hxy2, Hx⟩ ⟨hp.Hxy1, hp.Hxy2, dHx⟩
  obtain ⟨r, h2, d2⟩ := forRange2_inv (fun s : Psi2 K => s.Dims (T + 1) Ny Nx Ny) 1 (T - 1 + 1) 1 (Ny - 1) _
    (fun i j h1 h2 h3 h4 => pmlHxBody_ok (bh := p.co.bh_x) (ch := p.co.ch_x) (dx := p.par.dx) hx hp.bh_x hp.ch_x
      dEz dDb i j h1 (by omega) h3 h4) ⟨p.psi.Hyx1, p.psi.Hyx2, Hy⟩ ⟨hp.Hyx1, hp.Hyx2, dHy⟩
  refine ⟨{ p with psi := { p.psi with Hxy1 := s.p1, Hxy2 := s.p2, Hyx1 := r.p1, Hyx2 := r.p2 } }, s.F, r.F, ?_, ?_,
    d1.2.2, d2.2.2⟩
  · unfold Pml.updateH
    simp only [hT, hnx, hny]
    rw [h1]; simp only [Except.ok_bind]
    rw [h2]; simp only [Except.ok_bind]
    rfl
  · exact { hp with Hxy1 := d1.1, Hxy2 := d1.2.1, Hyx1 := d2.1, Hyx2 := d2.2.1 }

/-! ## Polarizations -/

theorem debyeBody_ok {dt Cb : K} {kappa : Arr K} {beta : Tensor3 K} {pE : Tensor K} {Nx Ny np : ℤ}
    (hk : kappa.n = np) (hb : beta.Dim Nx Ny np) (hp : pE.Dim Nx Ny) (i j N : ℤ)
    (h1 : 0 ≤ i) (h2 : i < Nx) (h3 : 0 ≤ j) (h4 : j < Ny) (h5 : 0 ≤ N) (h6 : N < np) (s : EJ K)
    (hs : s.Ez.Dim Nx Ny ∧ s.J.Dim Nx Ny np) :
    ∃ s', debyeBody dt Cb kappa beta (some pE) i j N s = .ok s' ∧ s'.Ez.Dim Nx Ny ∧ s'.J.Dim Nx Ny np := by
  obtain ⟨⟨e1, e1'⟩, ⟨e2, e2', e2''⟩⟩ := hs
  obtain ⟨e3, e3', e3''⟩ := hb
  obtain ⟨e4, e4'⟩ := hp
  unfold debyeBody derefOpt
  simp (disch := first | omega | (simp only [Tensor.setv_nx, Tensor.setv_ny]; omega)) only
    [Tensor.rd_in, Tensor.wr_in, Arr.rd_in, Tensor3.rd_in, Tensor3.wr_in, Except.ok_bind, Except.pure_eq]
  exact ⟨_, rfl, ⟨e1, e1'⟩, ⟨e2, e2', e2''⟩⟩

theorem drudeBody_ok {Cb : K} {kappa : Arr K} {beta : Tensor3 K} {pE : Tensor K} {Nx Ny np : ℤ}
    (hk : kappa.n = np) (hb : beta.Dim Nx Ny np) (hp : pE.Dim Nx Ny) (i j N : ℤ)
    (h1 : 0 ≤ i) (h2 : i < Nx) (h3 : 0 ≤ j) (h4 : j < Ny) (h5 : 0 ≤ N) (h6 : N < np) (s : EJ K)
    (hs : s.Ez.Dim Nx Ny ∧ s.J.Dim Nx Ny np) :
    ∃ s', drudeBody Cb kappa beta (some pE) i j N s = .ok s' ∧ s'.Ez.Dim Nx Ny ∧ s'.J.Dim Nx Ny np := by
  obtain ⟨⟨e1, e1'⟩, ⟨e2, e2', e2''⟩⟩ := hs
  obtain ⟨e3, e3', e3''⟩ := hb
  obtain ⟨e4, e4'⟩ := hp
  unfold drudeBody derefOpt
  simp (disch := first | omega | (simp only [Tensor.setv_nx, Tensor.setv_ny]; omega)) only
    [Tensor.rd_in, Tensor.wr_in, Arr.rd_in, Tensor3.rd_in, Tensor3.wr_in, Except.ok_bind, Except.pure_eq]
  exact ⟨_, rfl, ⟨e1, e1'⟩, ⟨e2, e2', e2''⟩⟩

theorem lorentzBody_ok {dt Cb CaPrev : K} {alpha beta : Arr K} {delta : Tensor3 K} {pE : Tensor K} {Nx Ny np : ℤ}
    (ha : alpha.n = np) (hk : beta.n = np) (hb : delta.Dim Nx Ny np) (hp : pE.Dim Nx Ny) (i j N : ℤ)
    (h1 : 0 ≤ i) (h2 : i < Nx) (h3 : 0 ≤ j) (h4 : j < Ny) (h5 : 0 ≤ N) (h6 : N < np) (s : EJJ K)
    (hs : s.Ez.Dim Nx Ny ∧ s.J.Dim Nx Ny np ∧ s.prevJ.Dim Nx Ny np) :
    ∃ s', lorentzBody dt Cb CaPrev alpha beta delta (some pE) i j N s = .ok s' ∧ s'.Ez.Dim Nx Ny ∧
      s'.J.Dim Nx Ny np ∧ s'.prevJ.Dim Nx Ny np := by
  obtain ⟨⟨e1, e1'⟩, ⟨e2, e2', e2''⟩, ⟨e5, e5', e5''⟩⟩ := hs
  obtain ⟨e3, e3', e3''⟩ := hb
  obtain ⟨e4, e4'⟩ := hp
  unfold lorentzBody derefOpt
  simp (disch := first | omega | (simp only [Tensor.setv_nx, Tensor.setv_ny]; omega)) only
    [Tensor.rd_in, Tensor.wr_in, Arr.rd_in, Tensor3.rd_in, Tensor3.wr_in, Except.ok_bind, Except.pure_eq]
  exact ⟨_, rfl, ⟨e1, e1'⟩, ⟨e2, e2', e2''⟩, ⟨e5, e5', e5''⟩⟩

@[simp] theorem Arr.ofList_n (l : List K) : (Arr.ofList l).n = l.length := rfl

theorem DebyePol.updateJ_ok {g : Grid K} {P : DebyePol K} (hP : P.WF g.Nx g.Ny) {pE Ez : Tensor K}
    (hp : pE.Dim g.Nx g.Ny) (hE : Ez.Dim g.Nx g.Ny) :
    ∃ P' Ez', P.updateJ g (some pE) Ez = .ok (P', Ez') ∧ P'.WF g.Nx g.Ny ∧ Ez'.Dim g.Nx g.Ny := by
  obtain ⟨s, h, d⟩ := forRange3_inv (fun s : EJ K => s.Ez.Dim g.Nx g.Ny ∧ s.J.Dim g.Nx g.Ny P.np) 0 g.Nx 0 g.Ny 0 P.np
    (debyeBody g.dt (P.mat.Cb g.dt) (Arr.ofList (P.mat.poles.map (·.kappa g.dt))) P.beta (some pE))
    (fun i j N h1 h2 h3 h4 h5 h6 s hs => debyeBody_ok (by simp [hP.np]) hP.beta hp i j N h1 h2 h3 h4 h5 h6 s hs)
    ⟨Ez, P.J⟩ ⟨hE, hP.J⟩
  refine ⟨{ P with J := s.J }, s.Ez, ?_, ?_, d.1⟩
  · unfold DebyePol.updateJ
    simp only
    rw [h]; rfl
  · exact { hP with J := d.2 }

theorem DrudePol.updateJ_ok {g : Grid K} {P : DrudePol K} (hP : P.WF g.Nx g.Ny) {pE Ez : Tensor K}
    (hp : pE.Dim g.Nx g.Ny) (hE : Ez.Dim g.Nx g.Ny) :
    ∃ P' Ez', P.updateJ g (some pE) Ez = .ok (P', Ez') ∧ P'.WF g.Nx g.Ny ∧ Ez'.Dim g.Nx g.Ny := by
  obtain ⟨s, h, d⟩ := forRange3_inv (fun s : EJ K => s.Ez.Dim g.Nx g.Ny ∧ s.J.Dim g.Nx g.Ny P.np) 0 g.Nx 0 g.Ny 0 P.np
    (drudeBody (P.mat.Cb g.dt) (Arr.ofList (P.mat.poles.map (·.kappa g.dt))) P.beta (some pE))
    (fun i j N h1 h2 h3 h4 h5 h6 s hs => drudeBody_ok (by simp [hP.np]) hP.beta hp i j N h1 h2 h3 h4 h5 h6 s hs)
    ⟨Ez, P.J⟩ ⟨hE, hP.J⟩
  refine ⟨{ P with J := s.J }, s.Ez, ?_, ?_, d.1⟩
  · unfold DrudePol.updateJ
    simp only
    rw [h]; rfl
  · exact { hP with J := d.2 }

theorem LorentzPol.updateJ_ok {g : Grid K} {P : LorentzPol K} (hP : P.WF g.Nx g.Ny) {pE Ez : Tensor K}
    (hp : pE.Dim g.Nx g.Ny) (hE : Ez.Dim g.Nx g.Ny) :
    ∃ P' Ez', P.updateJ g (some pE) Ez = .ok (P', Ez') ∧ P'.WF g.Nx g.Ny ∧ Ez'.Dim g.Nx g.Ny := by
  obtain ⟨s, h, d⟩ := forRange3_inv
    (fun s : EJJ K => s.Ez.Dim g.Nx g.Ny ∧ s.J.Dim g.Nx g.Ny P.np ∧ s.prevJ.Dim g.Nx g.Ny P.np) 0 g.Nx 0 g.Ny 0 P.np
    (lorentzBody g.dt (P.mat.Cb g.dt) (P.mat.CaPrev g.dt) (Arr.ofList (P.mat.poles.map (·.alpha g.dt)))
      (Arr.ofList (P.mat.poles.map (·.beta g.dt))) P.delta (some pE))
    (fun i j N h1 h2 h3 h4 h5 h6 s hs =>
      lorentzBody_ok (by simp [hP.np]) (by simp [hP.np]) hP.delta hp i j N h1 h2 h3 h4 h5 h6 s hs)
    ⟨Ez, P.J, P.prevJ⟩ ⟨hE, hP.J, hP.prevJ⟩
  refine ⟨{ P with J := s.J, prevJ := s.prevJ }, s.Ez, ?_, ?_, d.1⟩
  · unfold LorentzPol.updateJ
    simp only
    rw [h]; rfl
  · exact { hP with J := d.2.1, prevJ := d.2.2 }

theorem mapUpdateJ_ok {α : Type} (WF : α → Prop) {n m : ℤ} (upd : α → Tensor K → M (α × Tensor K))
    (h : ∀ P Ez, WF P → Ez.Dim n m → ∃ P' Ez', upd P Ez = .ok (P', Ez') ∧ WF P' ∧ Ez'.Dim n m) :
    ∀ (l : List (String × α)) (Ez : Tensor K), (∀ p ∈ l, WF p.2) → Ez.Dim n m →
      ∃ l' Ez', mapUpdateJ upd l Ez = .ok (l', Ez') ∧ (∀ p ∈ l', WF p.2) ∧ Ez'.Dim n m ∧
        l'.map Prod.fst = l.map Prod.fst := by
  intro l
  induction l with
  | nil => intro Ez _ hE; exact ⟨[], Ez, rfl, by simp, hE, rfl⟩
  | cons a l ih =>
    intro Ez hl hE
    obtain ⟨n, P⟩ := a
    obtain ⟨P', E1, h1, w1, d1⟩ := h P Ez (hl (n, P) (by simp)) hE
    obtain ⟨l', E2, h2, w2, d2, k2⟩ := ih E1 (fun p hp => hl p (by simp [hp])) d1
    refine ⟨(n, P') :: l', E2, ?_, ?_, d2, by simp [k2]⟩
    · unfold mapUpdateJ; rw [h1]; simp only [Except.ok_bind]; rw [h2]; rfl
    · intro p hp
      rcases List.mem_cons.mp hp with rfl | hp
      · exact w1
      · exact w2 p hp

/-! ## DFT, profiles, sources -/

theorem accPoint_ok {P σ : Type} [DecidableEq P] (freq : List K) (t : K) (g : P → σ → M (K × σ)) (Q : σ → Prop)
    (hg : ∀ p m, Q m → ∃ v m', g p m = .ok (v, m') ∧ Q m') (p : P) (s : Acc K P × σ) (hs : Q s.2) :
    ∃ s', accPoint freq t g p s = .ok s' ∧ Q s'.2 := by
  obtain ⟨v, m', h, hq⟩ := hg p s.2 hs
  unfold accPoint
  rw [h]
  exact ⟨_, rfl, hq⟩

theorem accLoop_ok {P σ : Type} [DecidableEq P] (freq : List K) (t : K) (g : String → P → σ → M (K × σ)) (Q : σ → Prop)
    (l : List (String × Acc K P)) (hg : ∀ a ∈ l, ∀ p m, Q m → ∃ v m', g a.1 p m = .ok (v, m') ∧ Q m') :
    ∀ m, Q m → ∃ l' m', accLoop freq t g l m = .ok (l', m') ∧ Q m' ∧ l'.map Prod.fst = l.map Prod.fst := by
  induction l with
  | nil => intro m hm; exact ⟨[], m, rfl, hm, rfl⟩
  | cons a l ih =>
    intro m hm
    obtain ⟨n, a⟩ := a
    obtain ⟨⟨a', m1⟩, h1, q1⟩ := forList_inv (fun s : Acc K P × σ => Q s.2) a.pos (accPoint freq t (g n))
      (fun p _ s hs => accPoint_ok freq t (g n) Q (hg (n, a) (by simp)) p s hs) (a, m) hm
    obtain ⟨l', m2, h2, q2, k2⟩ := ih (fun a ha => hg a (by simp [ha])) m1 q1
    refine ⟨(n, a') :: l', m2, ?_, q2, by simp [k2]⟩
    unfold accLoop
    rw [h1]; simp only [Except.ok_bind]; rw [h2]; rfl

theorem Dft.update_ok {P σ : Type} [DecidableEq P] (d : Dft K P) (g : String → P → σ → M (K × σ)) (t : K) (Q : σ → Prop)
    (hg : ∀ a ∈ d.acc, ∀ p m, Q m → ∃ v m', g a.1 p m = .ok (v, m') ∧ Q m') (m : σ) (hm : Q m) :
    ∃ d' m', d.update g t m = .ok (d', m') ∧ Q m' ∧ d'.acc.map Prod.fst = d.acc.map Prod.fst ∧ d'.freq = d.freq := by
  unfold Dft.update
  split
  · exact ⟨d, m, rfl, hm, rfl, rfl⟩
  · obtain ⟨l', m', h, q, k⟩ := accLoop_ok d.freq t g Q d.acc hg m hm
    rw [h]
    exact ⟨_, m', rfl, q, k, rfl⟩

theorem TimeProfile.response_ok (tp : TimeProfile K) (t : K) :
    ∃ tp', tp.response t = .ok (tp.resp t, tp') ∧ tp'.resp = tp.resp := by
  unfold TimeProfile.response
  cases hd : tp.dft with
  | none => exact ⟨tp, rfl, rfl⟩
  | some d =>
    obtain ⟨d', m', h, -⟩ := Dft.update_ok d (fun _ _ (m : Unit) => .ok (tp.resp t, m)) t (fun _ => True)
      (fun a _ p m _ => ⟨_, m, rfl, trivial⟩) () trivial
    simp only
    rw [h]
    exact ⟨_, rfl, rfl⟩

/-! ## TFSF -/

theorem Tensor.addTo_in {a : Tensor K} {i j : ℤ} {v : K} (h1 : 0 ≤ i) (h2 : i < a.nx) (h3 : 0 ≤ j) (h4 : j < a.ny) :
    a.addTo i j v = .ok (a.setv fun x y => if x = i ∧ y = j then a.val i j + v else a.val x y) := by
  unfold Tensor.addTo
  rw [Tensor.rd_in h1 h2 h3 h4]
  exact Tensor.wr_in h1 h2 h3 h4

theorem Tfsf.updateD_ok {w : Tfsf K} {Nx Ny : ℤ} (hw : w.Shape) (hg : w.InGrid Nx Ny) {Ez : Tensor K}
    (hE : Ez.Dim Nx Ny) : ∃ Ez', w.updateD Ez = .ok Ez' ∧ Ez'.Dim Nx Ny := by
  obtain ⟨g0, g1, g2, g3, g4, g5, g6⟩ := hg
  obtain ⟨w0, w1, w2, w3, w4, w5, w6, -⟩ := hw
  unfold Tfsf.updateD
  refine forRange_inv (fun E : Tensor K => E.Dim Nx Ny) _ _ _ ?_ Ez hE
  intro i h1 h2 E hE
  obtain ⟨e1, e2⟩ := hE
  simp (disch := first | omega | (simp only [Tensor.setv_nx, Tensor.setv_ny]; omega)) only
    [Arr.rd_in, Tensor.addTo_in, Except.ok_bind]
  exact ⟨_, rfl, e1, e2⟩

theorem Tfsf.updateH_ok {w : Tfsf K} {Nx Ny : ℤ} (hw : w.Shape) (hg : w.InGrid Nx Ny) {h : HPair K}
    (hX : h.Hx.Dim Nx Ny) (hY : h.Hy.Dim Nx Ny) :
    ∃ h', w.updateH h = .ok h' ∧ h'.Hx.Dim Nx Ny ∧ h'.Hy.Dim Nx Ny := by
  obtain ⟨g0, g1, g2, g3, g4, g5, g6⟩ := hg
  obtain ⟨w0, w1, w2, w3, w4, w5, w6, -⟩ := hw
  unfold Tfsf.updateH
  obtain ⟨X, h1, d1⟩ := forRange_inv (fun E : Tensor K => E.Dim Nx Ny) w.ia (w.ib + 1)
    (fun i Hx => do
      let Hx ← Hx.addTo i (w.ja - 1) (half * (← w.Ez.rd 3))
      Hx.addTo i w.jb (-half * (← w.Ez.rd (w.Nx - 2))))
    (by
      intro i h1 h2 E hE
      obtain ⟨e1, e2⟩ := hE
      simp (disch := first | omega | (simp only [Tensor.setv_nx, Tensor.setv_ny]; omega)) only
        [Arr.rd_in, Tensor.addTo_in, Except.ok_bind]
      exact ⟨_, rfl, e1, e2⟩) h.Hx hX
  obtain ⟨Y, h2, d2⟩ := forRange_inv (fun E : Tensor K => E.Dim Nx Ny) w.ja (w.jb + 1)
    (fun j Hy => do
      let Hy ← Hy.addTo (w.ia - 1) j (-half * (← w.Ez.rd (j - w.ja + 3)))
      Hy.addTo w.ib j (half * (← w.Ez.rd (j - w.ja + 3))))
    (by
      intro i h1 h2 E hE
      obtain ⟨e1, e2⟩ := hE
      simp (disch := first | omega | (simp only [Tensor.setv_nx, Tensor.setv_ny]; omega)) only
        [Arr.rd_in, Tensor.addTo_in, Except.ok_bind]
      exact ⟨_, rfl, e1, e2⟩) h.Hy hY
  rw [h1]; simp only [Except.ok_bind]; rw [h2]
  exact ⟨_, rfl, d1, d2⟩

theorem Tfsf.pulse_ok {w : Tfsf K} (hw : w.Shape) :
    ∃ w', w.pulse = .ok w' ∧ w'.Shape ∧ w'.Nx = w.Nx ∧ w'.ia = w.ia ∧ w'.ib = w.ib ∧ w'.ja = w.ja ∧ w'.jb = w.jb := by
  obtain ⟨w0, w1, w2, w3, w4, w5, w6, w7⟩ := hw
  obtain ⟨s, hs, d1, d2, d3⟩ := forRange_inv (fun s : Line3 K => s.Dz.n = w.Nx ∧ s.Ez.n = w.Nx ∧ s.Iz.n = w.Nx)
    1 w.Nx (lineEBody w.Hx w.ca w.cb)
    (by
      intro k h1 h2 s ⟨e1, e2, e3⟩
      unfold lineEBody
      simp (disch := first | omega | (simp only [Arr.setv_n]; omega)) only
        [Arr.rd_in, Arr.wr_in, Except.ok_bind, Except.pure_eq]
      exact ⟨_, rfl, e1, e2, e3⟩) ⟨w.Dz, w.Ez, w.Iz⟩ ⟨w2, w1, w4⟩
  obtain ⟨tp', htp, -⟩ := TimeProfile.response_ok w.tp (w.t + w.dt)
  unfold Tfsf.pulse
  rw [Arr.rd_in (by omega) (by omega)]
  simp only [Except.ok_bind]
  rw [hs]; simp only [Except.ok_bind]
  rw [htp]; simp only [Except.ok_bind]
  simp (disch := first | omega | (simp only [Arr.setv_n]; omega)) only
        [Arr.rd_in, Arr.wr_in, Except.ok_bind, Except.pure_eq]
  have hH : ∀ E : Arr K, E.n = w.Nx → ∃ H', forRange 0 (w.Nx - 1) w.Hx (lineHBody E) = .ok H' ∧ H'.n = w.Nx := by
    intro E hE
    refine forRange_inv (fun H : Arr K => H.n = w.Nx) _ _ _ ?_ w.Hx w3
    intro k h1 h2 H hH
    unfold lineHBody
    simp (disch := first | omega | (simp only [Arr.setv_n]; omega)) only
        [Arr.rd_in, Arr.wr_in, Except.ok_bind, Except.pure_eq]
    exact ⟨_, rfl, hH⟩
  have hF : ∀ (E H : Arr K) (pE t : K), E.n = w.Nx → H.n = w.Nx → ∃ fo, tfsfFourier E H pE t w.fourier = .ok fo ∧
      ∀ d, fo = some d → ∀ p ∈ d.acc, p.1 = "E" ∨ p.1 = "H" := by
    intro E H pE t hE hHn
    cases hf : w.fourier with
    | none => exact ⟨none, rfl, by simp⟩
    | some d =>
      unfold tfsfFourier
      simp (disch := omega) only [Arr.rd_in, Except.ok_bind]
      obtain ⟨d', m', h3, -, h4, -⟩ := Dft.update_ok d
        (tfsfSample ((E.val 2 + pE) / ofInt 2) ((H.val 2 + H.val 1) / ofInt 2)) t (fun _ => True)
        (by
          intro a ha p m _
          rcases w7 d hf a ha with h | h
          · exact ⟨_, m, by simp only [tfsfSample, h, if_true]; rfl, trivial⟩
          · exact ⟨_, m, by simp only [tfsfSample, h, show ("H" : String) ≠ "E" by decide, if_true, if_false]; rfl,
              trivial⟩) () trivial
      rw [h3]
      refine ⟨some d', rfl, ?_⟩
      intro e he p hp
      cases he
      have : p.1 ∈ d.acc.map Prod.fst := by rw [← h4]; exact List.mem_map_of_mem hp
      obtain ⟨q, hq, hq'⟩ := List.mem_map.mp this
      rw [← hq']
      exact w7 d hf q hq
  generalize hEd : ((s.Ez.setv _).setv _).setv _ = E
  have hE : E.n = w.Nx := by rw [← hEd]; exact d2
  obtain ⟨fo, h5, h6⟩ := hF E w.Hx (w.Ez.val 2) (w.t + w.dt) hE w3
  rw [h5]; simp only [Except.ok_bind]
  obtain ⟨H', h1, h2⟩ := hH E hE
  rw [h1]
  exact ⟨_, rfl, ⟨w0, hE, d1, h2, d3, w5, w6, h6⟩, rfl, rfl, rfl, rfl, rfl⟩

theorem Tfsf.make_shape (g : Grid K) (tp : TimeProfile K) (vol : Vol K) (dt : K) : (Tfsf.make g tp vol dt).Shape := by
  have hn : 5 ≤ (g.toGridV vol).dim.y + 5 := by
    have : 0 ≤ (g.toGridV vol).dim.y := by
      simp [Grid.toGridV, IVol.make, V2.icabs]
    omega
  refine ⟨hn, rfl, rfl, rfl, rfl, rfl, rfl, ?_⟩
  intro d hd p hp
  simp only [Tfsf.make, Option.map_eq_some_iff] at hd
  obtain ⟨d0, -, rfl⟩ := hd
  simp only [Dft.make, Dft.add, accAdd, show ("E" : String) ≠ "H" by decide, if_false] at hp
  split at hp <;> simp at hp <;> rcases hp with rfl | rfl <;> simp

/-! ## Stages of `update()` -/

/-- The grid is at least two nodes wider than the absorbing layer, in both directions. -/
structure Grid.Wide (g : Grid K) : Prop where
  nx : g.T + 2 ≤ g.Nx
  ny : g.T + 2 ≤ g.Ny

theorem Core.stageE_ok {c : Core K} (hc : c.WF) (hg : c.g.Wide) :
    ∃ c', c.stageE = .ok c' ∧ c'.WF ∧ c'.g = c.g ∧ c'.sc = c.sc ∧ c'.tStep = c.tStep + 1 ∧ c'.t = c.t + c.g.dt ∧
      c'.tfsf = c.tfsf := by
  have hEz := ezLoop_closed c.g.Nx c.g.Ny c.f c.sc hc.f hc.sc
  obtain ⟨p', E1, hp, wp, d1⟩ := Pml.updateE_ok hc.pml hg.nx hg.ny hc.f.Hx hc.f.Hy hc.f.Cb
    (Ez := c.f.Ez.upd (rect 1 (c.g.Nx - 1) 1 (c.g.Ny - 1)) (ezVal c.f c.sc)) hc.f.Ez
  -- polarizations
  have hpe : ∀ (l : c.debye ≠ [] ∨ c.drude ≠ [] ∨ c.lorentz ≠ []),
      (assignIf c.prevE (some c.f.Ez)) = some c.f.Ez := by
    intro l
    have := hc.hasE l
    cases h : c.prevE with
    | none => simp [h] at this
    | some a => rfl
  obtain ⟨ld, E2, h2, wd, d2, kd⟩ : ∃ l' E2, mapUpdateJ (fun P Ez => P.updateJ c.g
      (assignIf c.prevE (some c.f.Ez)) Ez) c.debye E1 = .ok (l', E2) ∧
      (∀ p ∈ l', p.2.WF c.g.Nx c.g.Ny) ∧ E2.Dim c.g.Nx c.g.Ny ∧ l'.map Prod.fst = c.debye.map Prod.fst := by
    by_cases hn : c.debye = []
    · rw [hn]; exact ⟨[], E1, rfl, by simp, d1, rfl⟩
    · rw [hpe (Or.inl hn)]
      exact mapUpdateJ_ok (fun P => P.WF c.g.Nx c.g.Ny) _
        (fun P Ez hP hE => DebyePol.updateJ_ok hP hc.f.Ez hE) c.debye E1 hc.debye d1
  obtain ⟨lr, E3, h3, wr, d3, kr⟩ : ∃ l' E3, mapUpdateJ (fun P Ez => P.updateJ c.g
      (assignIf c.prevE (some c.f.Ez)) Ez) c.drude E2 = .ok (l', E3) ∧
      (∀ p ∈ l', p.2.WF c.g.Nx c.g.Ny) ∧ E3.Dim c.g.Nx c.g.Ny ∧ l'.map Prod.fst = c.drude.map Prod.fst := by
    by_cases hn : c.drude = []
    · rw [hn]; exact ⟨[], E2, rfl, by simp, d2, rfl⟩
    · rw [hpe (Or.inr (Or.inl hn))]
      exact mapUpdateJ_ok (fun P => P.WF c.g.Nx c.g.Ny) _
        (fun P Ez hP hE => DrudePol.updateJ_ok hP hc.f.Ez hE) c.drude E2 hc.drude d2
  obtain ⟨ll, E4, h4, wl, d4, kl⟩ : ∃ l' E4, mapUpdateJ (fun P Ez => P.updateJ c.g
      (assignIf c.prev2E c.prevE) Ez) c.lorentz E3 = .ok (l', E4) ∧
      (∀ p ∈ l', p.2.WF c.g.Nx c.g.Ny) ∧ E4.Dim c.g.Nx c.g.Ny ∧ l'.map Prod.fst = c.lorentz.map Prod.fst := by
    by_cases hn : c.lorentz = []
    · rw [hn]; exact ⟨[], E3, rfl, by simp, d3, rfl⟩
    · have h1 := hc.has2E hn
      have h2 := hc.hasE (Or.inr (Or.inr hn))
      cases h : c.prev2E with
      | none => simp [h] at h1
      | some a =>
        cases h' : c.prevE with
        | none => simp [h'] at h2
        | some b =>
          exact mapUpdateJ_ok (fun P => P.WF c.g.Nx c.g.Ny) _
            (fun P Ez hP hE => LorentzPol.updateJ_ok hP (hc.prevE b h') hE) c.lorentz E3 hc.lorentz d3
  obtain ⟨E5, h5, d5⟩ : ∃ E5, optUpdateD c.tfsf E4 = .ok E5 ∧
      E5.Dim c.g.Nx c.g.Ny := by
    cases h : c.tfsf with
    | none => exact ⟨E4, rfl, d4⟩
    | some w => exact Tfsf.updateD_ok (hc.tfsf w h).1 (hc.tfsf w h).2 d4
  have ne_of_map : ∀ {α : Type} {l l' : List (String × α)}, l'.map Prod.fst = l.map Prod.fst → l' ≠ [] → l ≠ [] := by
    intro α l l' h h' he
    subst he
    simp at h
    exact h' h
  refine ⟨{ c with
    tStep := c.tStep + 1, t := c.t + c.g.dt, prevE := assignIf c.prevE (some c.f.Ez),
    prev2E := assignIf c.prev2E c.prevE, f := { c.f with Ez := E5 },
    pml := p', debye := ld, drude := lr, lorentz := ll }, ?_, ?_, rfl, rfl, rfl, rfl, rfl⟩
  · unfold Core.stageE
    simp only
    rw [hEz]; simp only [Except.ok_bind]
    rw [hp]; simp only [Except.ok_bind]
    rw [h2]; simp only [Except.ok_bind]
    rw [h3]; simp only [Except.ok_bind]
    rw [h4]; simp only [Except.ok_bind]
    rw [h5]; simp only [Except.ok_bind]
    rfl
  · refine { f := { hc.f with Ez := d5 }, sc := hc.sc, pml := wp, prevE := ?_, prev2E := ?_, hasE := ?_, has2E := ?_,
             debye := wd, drude := wr, lorentz := wl, tfsf := hc.tfsf }
    · intro a ha
      cases h : c.prevE with
      | none => simp [h, assignIf] at ha
      | some b => simp [h, assignIf] at ha; subst ha; exact hc.f.Ez
    · intro a ha
      cases h : c.prev2E with
      | none => simp [h, assignIf] at ha
      | some b => simp [h, assignIf] at ha; exact hc.prevE a ha
    · intro h
      have h' : c.debye ≠ [] ∨ c.drude ≠ [] ∨ c.lorentz ≠ [] := by
        rcases h with h | h | h
        · exact Or.inl (ne_of_map kd h)
        · exact Or.inr (Or.inl (ne_of_map kr h))
        · exact Or.inr (Or.inr (ne_of_map kl h))
      simp [hpe h']
    · intro h
      have h0 := ne_of_map kl h
      have h1 := hc.has2E h0
      have h2 := hc.hasE (Or.inr (Or.inr h0))
      cases h : c.prev2E with
      | none => simp [h] at h1
      | some a => simpa [assignIf, h] using h2

theorem Core.stageH_ok {c : Core K} (hc : c.WF) (hg : c.g.Wide) :
    ∃ c', c.stageH = .ok c' ∧ c'.WF ∧ c'.g = c.g ∧ c'.sc = c.sc ∧ c'.tStep = c.tStep ∧ c'.t = c.t ∧
      c'.tfsf.isSome = c.tfsf.isSome := by
  obtain ⟨tf, h1, w1, s1⟩ : ∃ tf, optPulse c.tfsf = .ok tf ∧ (∀ w, tf = some w → w.Shape ∧ w.InGrid c.g.Nx c.g.Ny) ∧
      tf.isSome = c.tfsf.isSome := by
    cases h : c.tfsf with
    | none => exact ⟨none, rfl, by simp, rfl⟩
    | some w =>
      obtain ⟨hs, hi⟩ := hc.tfsf w h
      obtain ⟨w', hw, hs', e0, e1, e2, e3, e4⟩ := Tfsf.pulse_ok hs
      refine ⟨some w', ?_, ?_, rfl⟩
      · simp only [optPulse]; rw [hw]; rfl
      · intro w2 hw2
        cases hw2
        refine ⟨hs', ?_⟩
        obtain ⟨g0, g1, g2, g3, g4, g5, g6⟩ := hi
        constructor <;> omega
  have hH := hLoop_closed c.g.Nx c.g.Ny c.f c.sc hc.f hc.sc
  obtain ⟨p', Hx1, Hy1, hp, wp, dX, dY⟩ := Pml.updateH_ok hc.pml hg.nx hg.ny hc.f.Ez hc.f.Db
    (Hx := c.f.Hx.upd (rect 1 (c.g.Nx - 1) 1 (c.g.Ny - 1)) (hxVal c.f c.sc))
    (Hy := c.f.Hy.upd (rect 1 (c.g.Nx - 1) 1 (c.g.Ny - 1)) (hyVal c.f c.sc)) hc.f.Hx hc.f.Hy
  obtain ⟨h', h2, d2X, d2Y⟩ : ∃ h', optUpdateH tf ⟨Hx1, Hy1⟩ = .ok h' ∧ h'.Hx.Dim c.g.Nx c.g.Ny ∧ h'.Hy.Dim c.g.Nx c.g.Ny := by
    cases h : tf with
    | none => exact ⟨_, rfl, dX, dY⟩
    | some w => exact Tfsf.updateH_ok (w1 w h).1 (w1 w h).2 dX dY
  refine ⟨{ c with tfsf := tf, pml := p', f := { c.f with Hx := h'.Hx, Hy := h'.Hy } }, ?_, ?_,
    rfl, rfl, rfl, rfl, s1⟩
  · unfold Core.stageH
    rw [h1]; simp only [Except.ok_bind]
    rw [hH]; simp only [Except.ok_bind]
    rw [hp]; simp only [Except.ok_bind]
    rw [h2]; rfl
  · exact { hc with f := { hc.f with Hx := d2X, Hy := d2Y }, pml := wp, tfsf := w1 }

end Qbox
