import Verif.Model.Yee

/-!
# Closed forms of the main loops and of the absorbing-layer loops
-/

namespace Qbox
open Scalar

/-- `a` with the cells of `D` replaced by `f`. -/
def Tensor.upd {K : Type} (a : Tensor K) (D : Finset (ℤ × ℤ)) (f : ℤ → ℤ → K) : Tensor K :=
  ⟨a.nx, a.ny, fun i j => if (i, j) ∈ D then f i j else a.val i j⟩

/-- `a` with new values everywhere, same shape. -/
def Tensor.setv {K : Type} (a : Tensor K) (f : ℤ → ℤ → K) : Tensor K := ⟨a.nx, a.ny, f⟩

section
variable {K : Type}

@[simp] theorem Tensor.upd_nx (a : Tensor K) (D f) : (a.upd D f).nx = a.nx := rfl
@[simp] theorem Tensor.upd_ny (a : Tensor K) (D f) : (a.upd D f).ny = a.ny := rfl
@[simp] theorem Tensor.setv_nx (a : Tensor K) (f) : (a.setv f).nx = a.nx := rfl
@[simp] theorem Tensor.setv_ny (a : Tensor K) (f) : (a.setv f).ny = a.ny := rfl
@[simp] theorem Tensor.setv_val (a : Tensor K) (f) : (a.setv f).val = f := rfl
@[simp] theorem Tensor.upd_empty (a : Tensor K) (f) : a.upd ∅ f = a := by simp [Tensor.upd]

theorem Tensor.upd_val (a : Tensor K) (D f) (i j : ℤ) :
    (a.upd D f).val i j = if (i, j) ∈ D then f i j else a.val i j := rfl

theorem Tensor.rd_in {a : Tensor K} {i j : ℤ} (h1 : 0 ≤ i) (h2 : i < a.nx) (h3 : 0 ≤ j) (h4 : j < a.ny) :
    a.rd i j = .ok (a.val i j) := Tensor.rd_ok ⟨h1, h2, h3, h4⟩

theorem Tensor.wr_in {a : Tensor K} {i j : ℤ} {v : K} (h1 : 0 ≤ i) (h2 : i < a.nx) (h3 : 0 ≤ j)
    (h4 : j < a.ny) :
    a.wr i j v = .ok (a.setv fun x y => if x = i ∧ y = j then v else a.val x y) :=
  Tensor.wr_ok ⟨h1, h2, h3, h4⟩

theorem Arr.rd_in {a : Arr K} {i : ℤ} (h1 : 0 ≤ i) (h2 : i < a.n) : a.rd i = .ok (a.val i) :=
  Arr.rd_ok ⟨h1, h2⟩

theorem Tensor.ext' {a b : Tensor K} (h1 : a.nx = b.nx) (h2 : a.ny = b.ny)
    (h3 : ∀ i j, a.val i j = b.val i j) : a = b := by
  cases a; cases b; simp only [Tensor.mk.injEq] at *
  exact ⟨h1, h2, funext fun i => funext fun j => h3 i j⟩

/-- same shape -/
def Tensor.Dim (a : Tensor K) (n m : ℤ) : Prop := a.nx = n ∧ a.ny = m

end

variable {K : Type} [Scalar K]

/-! ## Main loops -/

/-- New value of `Ez` at an interior cell. -/
def ezVal (f : Flds K) (sc : Scaling K) (i j : ℤ) : K :=
  f.Ca.val i j * f.Ez.val i j
    + f.Cb.val i j * ((f.Hy.val i j - f.Hy.val (i - 1) j) / sc.kedx.val i
      + (f.Hx.val i (j - 1) - f.Hx.val i j) / sc.kedy.val j)

/-- Shapes of the field tensors. -/
structure Flds.Dims (f : Flds K) (Nx Ny : ℤ) : Prop where
  Ez : f.Ez.nx = Nx ∧ f.Ez.ny = Ny
  Hx : f.Hx.nx = Nx ∧ f.Hx.ny = Ny
  Hy : f.Hy.nx = Nx ∧ f.Hy.ny = Ny
  Ca : f.Ca.nx = Nx ∧ f.Ca.ny = Ny
  Cb : f.Cb.nx = Nx ∧ f.Cb.ny = Ny
  Da : f.Da.nx = Nx ∧ f.Da.ny = Ny
  Db : f.Db.nx = Nx ∧ f.Db.ny = Ny

/-- Shapes of the scaling arrays. -/
structure Scaling.Dims (s : Scaling K) (Nx Ny : ℤ) : Prop where
  kedx : s.kedx.n = Nx
  khdx : s.khdx.n = Nx
  kedy : s.kedy.n = Ny
  khdy : s.khdy.n = Ny

theorem ezBody_closed (Nx Ny : ℤ) (f : Flds K) (sc : Scaling K) (hf : f.Dims Nx Ny) (hs : sc.Dims Nx Ny)
    (i j : ℤ) (h1 : 1 ≤ i) (h2 : i < Nx - 1) (h3 : 1 ≤ j) (h4 : j < Ny - 1) (D : Finset (ℤ × ℤ))
    (hD : (i, j) ∉ D) :
    ezBody f.Hx f.Hy f.Ca f.Cb sc.kedx sc.kedy i j (f.Ez.upd D (ezVal f sc)) =
      .ok (f.Ez.upd (insert (i, j) D) (ezVal f sc)) := by
  obtain ⟨⟨e1, e1'⟩, ⟨e2, e2'⟩, ⟨e3, e3'⟩, ⟨e4, e4'⟩, ⟨e5, e5'⟩, -, -⟩ := hf
  obtain ⟨k1, -, k2, -⟩ := hs
  unfold ezBody
  simp (disch := first | omega | (simp only [Tensor.upd_nx, Tensor.upd_ny]; omega)) only
    [Tensor.rd_in, Tensor.wr_in, Arr.rd_in, Except.ok_bind, Except.pure_eq]
  refine congrArg Except.ok (Tensor.ext' rfl rfl ?_)
  intro x y
  simp only [Tensor.setv_val, Tensor.upd_val, Finset.mem_insert, Prod.mk.injEq, hD, if_false]
  by_cases h : x = i ∧ y = j
  · obtain ⟨rfl, rfl⟩ := h
    simp [ezVal]
  · simp [h]

/-- The sequential electric loop equals the simultaneous update of all interior cells. -/
theorem ezLoop_closed (Nx Ny : ℤ) (f : Flds K) (sc : Scaling K) (hf : f.Dims Nx Ny) (hs : sc.Dims Nx Ny) :
    ezLoop Nx Ny f sc = .ok (f.Ez.upd (rect 1 (Nx - 1) 1 (Ny - 1)) (ezVal f sc)) := by
  have := forRange2_closed (fun D => f.Ez.upd D (ezVal f sc)) 1 (Nx - 1) 1 (Ny - 1)
    (ezBody f.Hx f.Hy f.Ca f.Cb sc.kedx sc.kedy)
    (fun i j h1 h2 h3 h4 D _ hn => ezBody_closed Nx Ny f sc hf hs i j h1 h2 h3 h4 D hn)
  simpa [ezLoop] using this

/-- New value of `Hx` at an interior cell. -/
def hxVal (f : Flds K) (sc : Scaling K) (i j : ℤ) : K :=
  f.Da.val i j * f.Hx.val i j - f.Db.val i j * (f.Ez.val i (j + 1) - f.Ez.val i j) / sc.khdy.val j

/-- New value of `Hy` at an interior cell. -/
def hyVal (f : Flds K) (sc : Scaling K) (i j : ℤ) : K :=
  f.Da.val i j * f.Hy.val i j + f.Db.val i j * (f.Ez.val (i + 1) j - f.Ez.val i j) / sc.khdx.val i

theorem hBody_closed (Nx Ny : ℤ) (f : Flds K) (sc : Scaling K) (hf : f.Dims Nx Ny) (hs : sc.Dims Nx Ny)
    (i j : ℤ) (h1 : 1 ≤ i) (h2 : i < Nx - 1) (h3 : 1 ≤ j) (h4 : j < Ny - 1) (D : Finset (ℤ × ℤ))
    (hD : (i, j) ∉ D) :
    hBody f.Ez f.Da f.Db sc.khdx sc.khdy i j ⟨f.Hx.upd D (hxVal f sc), f.Hy.upd D (hyVal f sc)⟩ =
      .ok ⟨f.Hx.upd (insert (i, j) D) (hxVal f sc), f.Hy.upd (insert (i, j) D) (hyVal f sc)⟩ := by
  obtain ⟨⟨e1, e1'⟩, ⟨e2, e2'⟩, ⟨e3, e3'⟩, -, -, ⟨e4, e4'⟩, ⟨e5, e5'⟩⟩ := hf
  obtain ⟨-, k1, -, k2⟩ := hs
  unfold hBody
  simp (disch := first | omega | (simp only [Tensor.upd_nx, Tensor.upd_ny]; omega)) only
    [Tensor.rd_in, Tensor.wr_in, Arr.rd_in, Except.ok_bind, Except.pure_eq]
  refine congrArg Except.ok ?_
  congr 1
  all_goals
    refine Tensor.ext' rfl rfl ?_
    intro x y
    simp only [Tensor.setv_val, Tensor.upd_val, Finset.mem_insert, Prod.mk.injEq, hD, if_false]
    by_cases h : x = i ∧ y = j
    · obtain ⟨rfl, rfl⟩ := h
      simp [hxVal, hyVal]
    · simp [h]

/-- The sequential magnetic loop equals the simultaneous update of all interior cells. -/
theorem hLoop_closed (Nx Ny : ℤ) (f : Flds K) (sc : Scaling K) (hf : f.Dims Nx Ny) (hs : sc.Dims Nx Ny) :
    hLoop Nx Ny f sc = .ok ⟨f.Hx.upd (rect 1 (Nx - 1) 1 (Ny - 1)) (hxVal f sc),
      f.Hy.upd (rect 1 (Nx - 1) 1 (Ny - 1)) (hyVal f sc)⟩ := by
  have := forRange2_closed (fun D => HPair.mk (f.Hx.upd D (hxVal f sc)) (f.Hy.upd D (hyVal f sc)))
    1 (Nx - 1) 1 (Ny - 1) (hBody f.Ez f.Da f.Db sc.khdx sc.khdy)
    (fun i j h1 h2 h3 h4 D _ hn => hBody_closed Nx Ny f sc hf hs i j h1 h2 h3 h4 D hn)
  simpa [hLoop] using this

end Qbox
