import Verif.Model.Grid

/-!
# `include/pml.h`, `src/pml.cpp`: convolutional perfectly matched layer
-/

namespace Qbox
open Scalar

/-- Parameters of `class pml` (`include/pml.h`, constructor `src/pml.cpp:12-15`). `T` is `thickness`. -/
structure PmlPar (K : Type) where
  T : ℤ
  dx : K
  dt : K
  m : ℕ
  ma : ℕ
  kMax : K
  aMax : K
  sigMax : K

/-- The eight coefficient arrays, `src/pml.cpp:18-26`. -/
structure PmlCoef (K : Type) where
  be_x : Arr K
  ce_x : Arr K
  bh_x : Arr K
  ch_x : Arr K
  be_y : Arr K
  ce_y : Arr K
  bh_y : Arr K
  ch_y : Arr K

/-- The eight auxiliary tensors, `src/pml.cpp:41-49`. -/
structure PmlPsi (K : Type) where
  Ezx1 : Tensor K
  Ezx2 : Tensor K
  Hyx1 : Tensor K
  Hyx2 : Tensor K
  Ezy1 : Tensor K
  Ezy2 : Tensor K
  Hxy1 : Tensor K
  Hxy2 : Tensor K

/-- `class pml`. `Nx`, `Ny` come from its copy of the grid. -/
structure Pml (K : Type) where
  Nx : ℤ
  Ny : ℤ
  par : PmlPar K
  co : PmlCoef K
  psi : PmlPsi K

section
variable {K : Type} [Scalar K]

/-- `pml::sig_func`, `src/pml.cpp:69-72`. -/
def PmlPar.sigF (p : PmlPar K) (t : K) : K := p.sigMax * npow ((ofInt p.T - t) / ofInt (p.T - 1)) p.m
/-- `pml::k_func`, `src/pml.cpp:65-67`. -/
def PmlPar.kF (p : PmlPar K) (t : K) : K := 1 + (p.kMax - 1) * npow ((ofInt p.T - t) / ofInt (p.T - 1)) p.m
/-- `pml::a_func`, `src/pml.cpp:61-63`. -/
def PmlPar.aF (p : PmlPar K) (t : K) : K := p.aMax * npow ((t - 1) / ofInt (p.T - 1)) p.ma
/-- `pml::b_func`, `src/pml.cpp:53-55`. -/
def PmlPar.bF (p : PmlPar K) (t : K) : K := Scalar.exp (-p.dt * (p.sigF t / p.kF t + p.aF t))
/-- `pml::c_func`, `src/pml.cpp:57-59`. -/
def PmlPar.cF (p : PmlPar K) (t : K) : K :=
  p.sigF t / (p.sigF t * p.kF t + npow (p.kF t) 2 * p.aF t) * (p.bF t - 1)

/-- Parameters with the default arguments of `include/pml.h` (`m = 3, ma = 1, k_max = 1, a_max = 0.2,
sig_scale = 1`), the only ones used by `Field2D` (`src/field2.cpp:43`); `src/pml.cpp:13-15`. -/
def PmlPar.default (g : Grid K) : PmlPar K :=
  { T := g.T, dx := g.dx, dt := g.dt, m := 3, ma := 1, kMax := 1, aMax := lit0_2,
    sigMax := lit0_8 * ofInt 4 / g.dx * 1 }

/-- The loop of the constructor, `src/pml.cpp:28-38`. -/
def PmlCoef.init (p : PmlPar K) (Nx Ny : ℤ) : M (PmlCoef K) :=
  forRange 0 (p.T + 1)
    ⟨.const Nx 0, .const Nx 0, .const Nx 0, .const Nx 0, .const Ny 0, .const Ny 0, .const Ny 0, .const Ny 0⟩
    (fun i c => do
      let be_x ← c.be_x.wr i (p.bF (ofInt i))
      let ce_x ← c.ce_x.wr i (p.cF (ofInt i))
      let bh_x ← c.bh_x.wr i (p.bF (ofInt i + half))
      let ch_x ← c.ch_x.wr i (p.cF (ofInt i + half))
      let be_y ← c.be_y.wr i (p.bF (ofInt i))
      let ce_y ← c.ce_y.wr i (p.cF (ofInt i))
      let bh_y ← c.bh_y.wr i (p.bF (ofInt i + half))
      let ch_y ← c.ch_y.wr i (p.cF (ofInt i + half))
      pure ⟨be_x, ce_x, bh_x, ch_x, be_y, ce_y, bh_y, ch_y⟩)

/-- The auxiliary tensors of a new layer, `src/pml.cpp:41-49`. -/
def PmlPsi.init (T Nx Ny : ℤ) : PmlPsi K :=
  { Ezx1 := .const (T + 1) Ny 0, Ezx2 := .const (T + 1) Ny 0, Hyx1 := .const (T + 1) Ny 0,
    Hyx2 := .const (T + 1) Ny 0, Ezy1 := .const Nx (T + 1) 0, Ezy2 := .const Nx (T + 1) 0,
    Hxy1 := .const Nx (T + 1) 0, Hxy2 := .const Nx (T + 1) 0 }

/-- `pml::pml`, `src/pml.cpp:12-51`, with the parameters `p`. -/
def Pml.makeWith (p : PmlPar K) (Nx Ny : ℤ) : M (Pml K) := do
  let co ← PmlCoef.init p Nx Ny
  pure ⟨Nx, Ny, p, co, PmlPsi.init p.T Nx Ny⟩

/-- `make_unique<pml>(grid)`, `src/field2.cpp:43`. -/
def Pml.make (g : Grid K) : M (Pml K) := Pml.makeWith (PmlPar.default g) g.Nx g.Ny

/-- The four scaling arrays of `Field2D`, `include/field2.h:110`. -/
structure Scaling (K : Type) where
  kedx : Arr K
  khdx : Arr K
  kedy : Arr K
  khdy : Arr K

/-- `pml::set_scaling_factors`, `src/pml.cpp:74-92`. -/
def PmlPar.scaling (p : PmlPar K) (Nx Ny : ℤ) : M (Scaling K) :=
  forRange 0 p.T
    ⟨.const Nx (p.dx * 1), .const Nx (p.dx * 1), .const Ny (p.dx * 1), .const Ny (p.dx * 1)⟩
    (fun i s => do
      let kedx ← s.kedx.wr i (p.kF (ofInt i) * p.dx)
      let khdx ← s.khdx.wr i (p.kF (ofInt i + half) * p.dx)
      let kedx ← kedx.wr (Nx - 1 - i) (p.kF (ofInt i) * p.dx)
      let khdx ← khdx.wr (Nx - 1 - i) (p.kF (ofInt i - half) * p.dx)
      let kedy ← s.kedy.wr i (p.kF (ofInt i) * p.dx)
      let khdy ← s.khdy.wr i (p.kF (ofInt i + half) * p.dx)
      let kedy ← kedy.wr (Ny - 1 - i) (p.kF (ofInt i) * p.dx)
      let khdy ← khdy.wr (Ny - 1 - i) (p.kF (ofInt i - half) * p.dx)
      pure ⟨kedx, khdx, kedy, khdy⟩)

/-- Loop state: two auxiliary tensors and the field they correct. -/
structure Psi2 (K : Type) where
  p1 : Tensor K
  p2 : Tensor K
  F : Tensor K

/-- Body of the first loop of `pml::update_E`, `src/pml.cpp:101-109`. -/
def pmlEyBody (be ce : Arr K) (dx : K) (je : ℤ) (Hx Cb : Tensor K) (i j : ℤ) (s : Psi2 K) : M (Psi2 K) := do
  let p1 ← s.p1.wr i j ((← be.rd j) * (← s.p1.rd i j)
    + (← ce.rd j) * ((← Hx.rd i j) - (← Hx.rd i (j - 1))) / dx)
  let p2 ← s.p2.wr i j ((← be.rd j) * (← s.p2.rd i j)
    + (← ce.rd j) * ((← Hx.rd i (je - j)) - (← Hx.rd i (je - j - 1))) / dx)
  let F ← s.F.wr i j ((← s.F.rd i j) - (← Cb.rd i j) * (← p1.rd i j))
  let F ← F.wr i (je - j) ((← F.rd i (je - j)) - (← Cb.rd i (je - j)) * (← p2.rd i j))
  pure ⟨p1, p2, F⟩

/-- Body of the second loop of `pml::update_E`, `src/pml.cpp:116-124`. -/
def pmlExBody (be ce : Arr K) (dx : K) (ie : ℤ) (Hy Cb : Tensor K) (i j : ℤ) (s : Psi2 K) : M (Psi2 K) := do
  let p1 ← s.p1.wr i j ((← be.rd i) * (← s.p1.rd i j)
    + (← ce.rd i) * ((← Hy.rd i j) - (← Hy.rd (i - 1) j)) / dx)
  let p2 ← s.p2.wr i j ((← be.rd i) * (← s.p2.rd i j)
    + (← ce.rd i) * ((← Hy.rd (ie - i) j) - (← Hy.rd (ie - i - 1) j)) / dx)
  let F ← s.F.wr i j ((← s.F.rd i j) + (← Cb.rd i j) * (← p1.rd i j))
  let F ← F.wr (ie - i) j ((← F.rd (ie - i) j) + (← Cb.rd (ie - i) j) * (← p2.rd i j))
  pure ⟨p1, p2, F⟩

/-- Body of the first loop of `pml::update_H`, `src/pml.cpp:136-143`. -/
def pmlHyBody (bh ch : Arr K) (dx : K) (je : ℤ) (Ez Db : Tensor K) (i j : ℤ) (s : Psi2 K) : M (Psi2 K) := do
  let p1 ← s.p1.wr i j ((← bh.rd j) * (← s.p1.rd i j)
    + (← ch.rd j) * ((← Ez.rd i (j + 1)) - (← Ez.rd i j)) / dx)
  let p2 ← s.p2.wr i j ((← bh.rd j) * (← s.p2.rd i j)
    + (← ch.rd j) * ((← Ez.rd i (je - j)) - (← Ez.rd i (je - j - 1))) / dx)
  let F ← s.F.wr i j ((← s.F.rd i j) - (← Db.rd i j) * (← p1.rd i j))
  let F ← F.wr i (je - j - 1) ((← F.rd i (je - j - 1)) - (← Db.rd i (je - j - 1)) * (← p2.rd i j))
  pure ⟨p1, p2, F⟩

/-- Body of the second loop of `pml::update_H`, `src/pml.cpp:150-157`. -/
def pmlHxBody (bh ch : Arr K) (dx : K) (ie : ℤ) (Ez Db : Tensor K) (i j : ℤ) (s : Psi2 K) : M (Psi2 K) := do
  let p1 ← s.p1.wr i j ((← bh.rd i) * (← s.p1.rd i j)
    + (← ch.rd i) * ((← Ez.rd (i + 1) j) - (← Ez.rd i j)) / dx)
  let p2 ← s.p2.wr i j ((← bh.rd i) * (← s.p2.rd i j)
    + (← ch.rd i) * ((← Ez.rd (ie - i) j) - (← Ez.rd (ie - i - 1) j)) / dx)
  let F ← s.F.wr i j ((← s.F.rd i j) + (← Db.rd i j) * (← p1.rd i j))
  let F ← F.wr (ie - i - 1) j ((← F.rd (ie - i - 1) j) + (← Db.rd (ie - i - 1) j) * (← p2.rd i j))
  pure ⟨p1, p2, F⟩

/-- `pml::update_E`, `src/pml.cpp:94-127`: new auxiliary tensors and new `Ez`. -/
def Pml.updateE (p : Pml K) (Hx Hy Cb Ez : Tensor K) : M (Pml K × Tensor K) := do
  let ie := p.Nx - 1
  let je := p.Ny - 1
  let s ← forRange 1 ie ⟨p.psi.Ezy1, p.psi.Ezy2, Ez⟩ (fun i s => forRange 1 (p.par.T + 1) s (fun j s =>
    pmlEyBody p.co.be_y p.co.ce_y p.par.dx je Hx Cb i j s))
  let r ← forRange 1 (p.par.T + 1) ⟨p.psi.Ezx1, p.psi.Ezx2, s.F⟩ (fun i s => forRange 1 je s (fun j s =>
    pmlExBody p.co.be_x p.co.ce_x p.par.dx ie Hy Cb i j s))
  pure ({ p with psi := { p.psi with Ezy1 := s.p1, Ezy2 := s.p2, Ezx1 := r.p1, Ezx2 := r.p2 } }, r.F)

/-- `pml::update_H`, `src/pml.cpp:129-160`: new auxiliary tensors, new `Hx` and new `Hy`. -/
def Pml.updateH (p : Pml K) (Ez Db Hx Hy : Tensor K) : M (Pml K × Tensor K × Tensor K) := do
  let ie := p.Nx - 1
  let je := p.Ny - 1
  let s ← forRange 1 ie ⟨p.psi.Hxy1, p.psi.Hxy2, Hx⟩ (fun i s => forRange 1 (p.par.T - 1 + 1) s (fun j s =>
    pmlHyBody p.co.bh_y p.co.ch_y p.par.dx je Ez Db i j s))
  let r ← forRange 1 (p.par.T - 1 + 1) ⟨p.psi.Hyx1, p.psi.Hyx2, Hy⟩ (fun i s => forRange 1 je s (fun j s =>
    pmlHxBody p.co.bh_x p.co.ch_x p.par.dx ie Ez Db i j s))
  pure ({ p with psi := { p.psi with Hxy1 := s.p1, Hxy2 := s.p2, Hyx1 := r.p1, Hyx2 := r.p2 } }, s.F, r.F)

end

end Qbox
