import Verif.Lemmas.Upd

/-!
# Closed forms of the loops of `pml::update_E` and `pml::update_H`
-/

namespace Qbox
open Scalar
variable {K : Type} [Scalar K]

/-- New `psi_Ezy1` / `psi_Ezy2`. -/
def pEy1 (be ce : Arr K) (dx : K) (Hx p : Tensor K) (i j : ℤ) : K :=
  be.val j * p.val i j + ce.val j * (Hx.val i j - Hx.val i (j - 1)) / dx
def pEy2 (be ce : Arr K) (dx : K) (je : ℤ) (Hx p : Tensor K) (i j : ℤ) : K :=
  be.val j * p.val i j + ce.val j * (Hx.val i (je - j) - Hx.val i (je - j - 1)) / dx
/-- New `psi_Ezx1` / `psi_Ezx2`. -/
def pEx1 (be ce : Arr K) (dx : K) (Hy p : Tensor K) (i j : ℤ) : K :=
  be.val i * p.val i j + ce.val i * (Hy.val i j - Hy.val (i - 1) j) / dx
def pEx2 (be ce : Arr K) (dx : K) (ie : ℤ) (Hy p : Tensor K) (i j : ℤ) : K :=
  be.val i * p.val i j + ce.val i * (Hy.val (ie - i) j - Hy.val (ie - i - 1) j) / dx
/-- New `psi_Hxy1` / `psi_Hxy2`. -/
def pHy1 (bh ch : Arr K) (dx : K) (Ez p : Tensor K) (i j : ℤ) : K :=
  bh.val j * p.val i j + ch.val j * (Ez.val i (j + 1) - Ez.val i j) / dx
def pHy2 (bh ch : Arr K) (dx : K) (je : ℤ) (Ez p : Tensor K) (i j : ℤ) : K :=
  bh.val j * p.val i j + ch.val j * (Ez.val i (je - j) - Ez.val i (je - j - 1)) / dx
/-- New `psi_Hyx1` / `psi_Hyx2`. -/
def pHx1 (bh ch : Arr K) (dx : K) (Ez p : Tensor K) (i j : ℤ) : K :=
  bh.val i * p.val i j + ch.val i * (Ez.val (i + 1) j - Ez.val i j) / dx
def pHx2 (bh ch : Arr K) (dx : K) (ie : ℤ) (Ez p : Tensor K) (i j : ℤ) : K :=
  bh.val i * p.val i j + ch.val i * (Ez.val (ie - i) j - Ez.val (ie - i - 1) j) / dx

/-- The corrected field after the iterations in `D`: first strip `op F1`, mirrored strip `op F2`. -/
def corr (F : Tensor K) (D : Finset (ℤ × ℤ)) (mir : ℤ → ℤ → ℤ × ℤ) (f1 f2 : ℤ → ℤ → K) : Tensor K :=
  F.setv fun x y => if (x, y) ∈ D then f1 x y else if mir x y ∈ D then f2 x y else F.val x y

@[simp] theorem corr_nx (F : Tensor K) (D mir f1 f2) : (corr F D mir f1 f2).nx = F.nx := rfl
@[simp] theorem corr_ny (F : Tensor K) (D mir f1 f2) : (corr F D mir f1 f2).ny = F.ny := rfl
theorem corr_val (F : Tensor K) (D mir f1 f2) (x y : ℤ) : (corr F D mir f1 f2).val x y =
    if (x, y) ∈ D then f1 x y else if mir x y ∈ D then f2 x y else F.val x y := rfl
@[simp] theorem corr_empty (F : Tensor K) (mir f1 f2) : corr F ∅ mir f1 f2 = F := by
  simp [corr, Tensor.setv]

/-- State of the loop of `pmlEyBody` after the iterations in `D`. -/
def pmlEySt (be ce : Arr K) (dx : K) (Ny : ℤ) (Hx Cb p1 p2 F : Tensor K)
    (D : Finset (ℤ × ℤ)) : Psi2 K :=
  ⟨p1.upd D (pEy1 be ce dx Hx p1),
         p2.upd D (pEy2 be ce dx (Ny - 1) Hx p2),
         corr F D (fun x y => (x, Ny - 1 - y))
           (fun x y => F.val x y - Cb.val x y * pEy1 be ce dx Hx p1 x y)
           (fun x y => F.val x y - Cb.val x y * pEy2 be ce dx (Ny - 1) Hx p2 x (Ny - 1 - y))⟩

theorem pmlEy_step (be ce : Arr K) (dx : K) (Nx Ny T : ℤ) (Hx Cb p1 p2 F : Tensor K)
    (hov : 2 * T < Ny - 1) (hT : 1 ≤ T)
    (hbe : be.n = Ny) (hce : ce.n = Ny) (hS : Hx.nx = Nx ∧ Hx.ny = Ny) (hC : Cb.nx = Nx ∧ Cb.ny = Ny)
    (hp1 : p1.nx = Nx ∧ p1.ny = T + 1) (hp2 : p2.nx = Nx ∧ p2.ny = T + 1) (hF : F.nx = Nx ∧ F.ny = Ny)
    (i j : ℤ) (hr : (i, j) ∈ rect 1 (Nx - 1) 1 (T + 1)) (D : Finset (ℤ × ℤ)) (hDs : D ⊆ rect 1 (Nx - 1) 1 (T + 1)) (hD : (i, j) ∉ D) :
    pmlEyBody be ce dx (Ny - 1) Hx Cb i j (pmlEySt be ce dx Ny Hx Cb p1 p2 F D) =
      .ok (pmlEySt be ce dx Ny Hx Cb p1 p2 F (insert (i, j) D)) := by
  obtain ⟨⟨h1, h2⟩, h3, h4⟩ := mem_rect.mp hr
  simp only at h1 h2 h3 h4
  have hm : (i, Ny - 1 - j) ∉ D := by
    intro h; have := mem_rect.mp (hDs h); simp only at this; omega
  have hinv : Ny - 1 - (Ny - 1 - j) = j := by omega
  obtain ⟨e1, e1'⟩ := hS
  obtain ⟨e2, e2'⟩ := hC
  obtain ⟨e3, e3'⟩ := hp1
  obtain ⟨e4, e4'⟩ := hp2
  obtain ⟨e5, e5'⟩ := hF
  have hne : ¬ (Ny - 1 - j = j) := by omega
  have hne' : ¬ (j = Ny - 1 - j) := by omega
  unfold pmlEyBody pmlEySt
  simp (disch := first | omega | (simp only [Tensor.upd_nx, Tensor.upd_ny, Tensor.setv_nx, Tensor.setv_ny, corr_nx, corr_ny]; omega)) only
    [Tensor.rd_in, Tensor.wr_in, Arr.rd_in, Except.ok_bind, Except.pure_eq, Tensor.setv_val, Tensor.upd_val,
     corr_val, hD, hm, if_false, hne, and_false, false_and, and_self, if_true, hinv]
  refine congrArg Except.ok ?_
  congr 1
  · refine Tensor.ext' rfl rfl fun x y => ?_
    simp only [Tensor.setv_val, Tensor.upd_val, Finset.mem_insert, Prod.mk.injEq]
    by_cases h : x = i ∧ y = j
    · obtain ⟨rfl, rfl⟩ := h; simp [pEy1]
    · simp [h]
  · refine Tensor.ext' rfl rfl fun x y => ?_
    simp only [Tensor.setv_val, Tensor.upd_val, Finset.mem_insert, Prod.mk.injEq]
    by_cases h : x = i ∧ y = j
    · obtain ⟨rfl, rfl⟩ := h; simp [pEy2]
    · simp [h]
  · refine Tensor.ext' rfl rfl fun x y => ?_
    simp only [Tensor.setv_val, corr_val, Finset.mem_insert, Prod.mk.injEq]
    by_cases hb : x = i ∧ y = Ny - 1 - j
    · obtain ⟨rfl, rfl⟩ := hb
      simp only [hne, and_false, false_and, false_or, hm, if_false, hinv, and_self, true_or, if_true, pEy2]
    · have hb' : ¬ (x = i ∧ Ny - 1 - y = j) := by omega
      by_cases h : x = i ∧ y = j
      · obtain ⟨rfl, rfl⟩ := h
        simp only [hne', and_false, false_and, if_false, and_self, if_true, true_or, pEy1]
      · simp only [h, hb, hb', if_false, false_or]

theorem pmlEy_closed (be ce : Arr K) (dx : K) (Nx Ny T : ℤ) (Hx Cb p1 p2 F : Tensor K)
    (hov : 2 * T < Ny - 1) (hT : 1 ≤ T)
    (hbe : be.n = Ny) (hce : ce.n = Ny) (hS : Hx.nx = Nx ∧ Hx.ny = Ny) (hC : Cb.nx = Nx ∧ Cb.ny = Ny)
    (hp1 : p1.nx = Nx ∧ p1.ny = T + 1) (hp2 : p2.nx = Nx ∧ p2.ny = T + 1) (hF : F.nx = Nx ∧ F.ny = Ny) :
    forRange 1 (Nx - 1) (⟨p1, p2, F⟩ : Psi2 K) (fun i s => forRange 1 (T + 1) s (fun j s =>
      pmlEyBody be ce dx (Ny - 1) Hx Cb i j s)) =
    .ok (pmlEySt be ce dx Ny Hx Cb p1 p2 F (rect 1 (Nx - 1) 1 (T + 1))) := by
  have := forRange2_closed (pmlEySt be ce dx Ny Hx Cb p1 p2 F)
    1 (Nx - 1) 1 (T + 1) (pmlEyBody be ce dx (Ny - 1) Hx Cb)
    (fun i j h1 h2 h3 h4 D hD hn => pmlEy_step be ce dx Nx Ny T Hx Cb p1 p2 F hov hT hbe hce hS hC hp1 hp2 hF
      i j (mem_rect.mpr ⟨⟨h1, h2⟩, h3, h4⟩) D hD hn)
  simpa [pmlEySt] using this

/-- State of the loop of `pmlExBody` after the iterations in `D`. -/
def pmlExSt (be ce : Arr K) (dx : K) (Nx : ℤ) (Hy Cb p1 p2 F : Tensor K)
    (D : Finset (ℤ × ℤ)) : Psi2 K :=
  ⟨p1.upd D (pEx1 be ce dx Hy p1),
         p2.upd D (pEx2 be ce dx (Nx - 1) Hy p2),
         corr F D (fun x y => (Nx - 1 - x, y))
           (fun x y => F.val x y + Cb.val x y * pEx1 be ce dx Hy p1 x y)
           (fun x y => F.val x y + Cb.val x y * pEx2 be ce dx (Nx - 1) Hy p2 (Nx - 1 - x) y)⟩

theorem pmlEx_step (be ce : Arr K) (dx : K) (Nx Ny T : ℤ) (Hy Cb p1 p2 F : Tensor K)
    (hov : 2 * T < Nx - 1) (hT : 1 ≤ T)
    (hbe : be.n = Nx) (hce : ce.n = Nx) (hS : Hy.nx = Nx ∧ Hy.ny = Ny) (hC : Cb.nx = Nx ∧ Cb.ny = Ny)
    (hp1 : p1.nx = T + 1 ∧ p1.ny = Ny) (hp2 : p2.nx = T + 1 ∧ p2.ny = Ny) (hF : F.nx = Nx ∧ F.ny = Ny)
    (i j : ℤ) (hr : (i, j) ∈ rect 1 (T + 1) 1 (Ny - 1)) (D : Finset (ℤ × ℤ)) (hDs : D ⊆ rect 1 (T + 1) 1 (Ny - 1)) (hD : (i, j) ∉ D) :
    pmlExBody be ce dx (Nx - 1) Hy Cb i j (pmlExSt be ce dx Nx Hy Cb p1 p2 F D) =
      .ok (pmlExSt be ce dx Nx Hy Cb p1 p2 F (insert (i, j) D)) := by
  obtain ⟨⟨h1, h2⟩, h3, h4⟩ := mem_rect.mp hr
  simp only at h1 h2 h3 h4
  have hm : (Nx - 1 - i, j) ∉ D := by
    intro h; have := mem_rect.mp (hDs h); simp only at this; omega
  have hinv : Nx - 1 - (Nx - 1 - i) = i := by omega
  obtain ⟨e1, e1'⟩ := hS
  obtain ⟨e2, e2'⟩ := hC
  obtain ⟨e3, e3'⟩ := hp1
  obtain ⟨e4, e4'⟩ := hp2
  obtain ⟨e5, e5'⟩ := hF
  have hne : ¬ (Nx - 1 - i = i) := by omega
  have hne' : ¬ (i = Nx - 1 - i) := by omega
  unfold pmlExBody pmlExSt
  simp (disch := first | omega | (simp only [Tensor.upd_nx, Tensor.upd_ny, Tensor.setv_nx, Tensor.setv_ny, corr_nx, corr_ny]; omega)) only
    [Tensor.rd_in, Tensor.wr_in, Arr.rd_in, Except.ok_bind, Except.pure_eq, Tensor.setv_val, Tensor.upd_val,
     corr_val, hD, hm, if_false, hne, and_false, false_and, and_self, if_true, hinv]
  refine congrArg Except.ok ?_
  congr 1
  · refine Tensor.ext' rfl rfl fun x y => ?_
    simp only [Tensor.setv_val, Tensor.upd_val, Finset.mem_insert, Prod.mk.injEq]
    by_cases h : x = i ∧ y = j
    · obtain ⟨rfl, rfl⟩ := h; simp [pEx1]
    · simp [h]
  · refine Tensor.ext' rfl rfl fun x y => ?_
    simp only [Tensor.setv_val, Tensor.upd_val, Finset.mem_insert, Prod.mk.injEq]
    by_cases h : x = i ∧ y = j
    · obtain ⟨rfl, rfl⟩ := h; simp [pEx2]
    · simp [h]
  · refine Tensor.ext' rfl rfl fun x y => ?_
    simp only [Tensor.setv_val, corr_val, Finset.mem_insert, Prod.mk.injEq]
    by_cases hb : x = Nx - 1 - i ∧ y = j
    · obtain ⟨rfl, rfl⟩ := hb
      simp only [hne, and_false, false_and, false_or, hm, if_false, hinv, and_self, true_or, if_true, pEx2]
    · have hb' : ¬ (Nx - 1 - x = i ∧ y = j) := by omega
      by_cases h : x = i ∧ y = j
      · obtain ⟨rfl, rfl⟩ := h
        simp only [hne', and_false, false_and, if_false, and_self, if_true, true_or, pEx1]
      · simp only [h, hb, hb', if_false, false_or]

theorem pmlEx_closed (be ce : Arr K) (dx : K) (Nx Ny T : ℤ) (Hy Cb p1 p2 F : Tensor K)
    (hov : 2 * T < Nx - 1) (hT : 1 ≤ T)
    (hbe : be.n = Nx) (hce : ce.n = Nx) (hS : Hy.nx = Nx ∧ Hy.ny = Ny) (hC : Cb.nx = Nx ∧ Cb.ny = Ny)
    (hp1 : p1.nx = T + 1 ∧ p1.ny = Ny) (hp2 : p2.nx = T + 1 ∧ p2.ny = Ny) (hF : F.nx = Nx ∧ F.ny = Ny) :
    forRange 1 (T + 1) (⟨p1, p2, F⟩ : Psi2 K) (fun i s => forRange 1 (Ny - 1) s (fun j s =>
      pmlExBody be ce dx (Nx - 1) Hy Cb i j s)) =
    .ok (pmlExSt be ce dx Nx Hy Cb p1 p2 F (rect 1 (T + 1) 1 (Ny - 1))) := by
  have := forRange2_closed (pmlExSt be ce dx Nx Hy Cb p1 p2 F)
    1 (T + 1) 1 (Ny - 1) (pmlExBody be ce dx (Nx - 1) Hy Cb)
    (fun i j h1 h2 h3 h4 D hD hn => pmlEx_step be ce dx Nx Ny T Hy Cb p1 p2 F hov hT hbe hce hS hC hp1 hp2 hF
      i j (mem_rect.mpr ⟨⟨h1, h2⟩, h3, h4⟩) D hD hn)
  simpa [pmlExSt] using this

/-- State of the loop of `pmlHyBody` after the iterations in `D`. -/
def pmlHySt (bh ch : Arr K) (dx : K) (Ny : ℤ) (Ez Db p1 p2 F : Tensor K)
    (D : Finset (ℤ × ℤ)) : Psi2 K :=
  ⟨p1.upd D (pHy1 bh ch dx Ez p1),
         p2.upd D (pHy2 bh ch dx (Ny - 1) Ez p2),
         corr F D (fun x y => (x, Ny - 1 - y - 1))
           (fun x y => F.val x y - Db.val x y * pHy1 bh ch dx Ez p1 x y)
           (fun x y => F.val x y - Db.val x y * pHy2 bh ch dx (Ny - 1) Ez p2 x (Ny - 1 - y - 1))⟩

theorem pmlHy_step (bh ch : Arr K) (dx : K) (Nx Ny T : ℤ) (Ez Db p1 p2 F : Tensor K)
    (hov : 2 * T < Ny - 1) (hT : 1 ≤ T)
    (hbe : bh.n = Ny) (hce : ch.n = Ny) (hS : Ez.nx = Nx ∧ Ez.ny = Ny) (hC : Db.nx = Nx ∧ Db.ny = Ny)
    (hp1 : p1.nx = Nx ∧ p1.ny = T + 1) (hp2 : p2.nx = Nx ∧ p2.ny = T + 1) (hF : F.nx = Nx ∧ F.ny = Ny)
    (i j : ℤ) (hr : (i, j) ∈ rect 1 (Nx - 1) 1 (T - 1 + 1)) (D : Finset (ℤ × ℤ)) (hDs : D ⊆ rect 1 (Nx - 1) 1 (T - 1 + 1)) (hD : (i, j) ∉ D) :
    pmlHyBody bh ch dx (Ny - 1) Ez Db i j (pmlHySt bh ch dx Ny Ez Db p1 p2 F D) =
      .ok (pmlHySt bh ch dx Ny Ez Db p1 p2 F (insert (i, j) D)) := by
  obtain ⟨⟨h1, h2⟩, h3, h4⟩ := mem_rect.mp hr
  simp only at h1 h2 h3 h4
  have hm : (i, Ny - 1 - j - 1) ∉ D := by
    intro h; have := mem_rect.mp (hDs h); simp only at this; omega
  have hinv : Ny - 1 - (Ny - 1 - j - 1) - 1 = j := by omega
  obtain ⟨e1, e1'⟩ := hS
  obtain ⟨e2, e2'⟩ := hC
  obtain ⟨e3, e3'⟩ := hp1
  obtain ⟨e4, e4'⟩ := hp2
  obtain ⟨e5, e5'⟩ := hF
  have hne : ¬ (Ny - 1 - j - 1 = j) := by omega
  have hne' : ¬ (j = Ny - 1 - j - 1) := by omega
  unfold pmlHyBody pmlHySt
  simp (disch := first | omega | (simp only [Tensor.upd_nx, Tensor.upd_ny, Tensor.setv_nx, Tensor.setv_ny, corr_nx, corr_ny]; omega)) only
    [Tensor.rd_in, Tensor.wr_in, Arr.rd_in, Except.ok_bind, Except.pure_eq, Tensor.setv_val, Tensor.upd_val,
     corr_val, hD, hm, if_false, hne, and_false, false_and, and_self, if_true, hinv]
  refine congrArg Except.ok ?_
  congr 1
  · refine Tensor.ext' rfl rfl fun x y => ?_
    simp only [Tensor.setv_val, Tensor.upd_val, Finset.mem_insert, Prod.mk.injEq]
    by_cases h : x = i ∧ y = j
    · obtain ⟨rfl, rfl⟩ := h; simp [pHy1]
    · simp [h]
  · refine Tensor.ext' rfl rfl fun x y => ?_
    simp only [Tensor.setv_val, Tensor.upd_val, Finset.mem_insert, Prod.mk.injEq]
    by_cases h : x = i ∧ y = j
    · obtain ⟨rfl, rfl⟩ := h; simp [pHy2]
    · simp [h]
  · refine Tensor.ext' rfl rfl fun x y => ?_
    simp only [Tensor.setv_val, corr_val, Finset.mem_insert, Prod.mk.injEq]
    by_cases hb : x = i ∧ y = Ny - 1 - j - 1
    · obtain ⟨rfl, rfl⟩ := hb
      simp only [hne, and_false, false_and, false_or, hm, if_false, hinv, and_self, true_or, if_true, pHy2]
    · have hb' : ¬ (x = i ∧ Ny - 1 - y - 1 = j) := by omega
      by_cases h : x = i ∧ y = j
      · obtain ⟨rfl, rfl⟩ := h
        simp only [hne', and_false, false_and, if_false, and_self, if_true, true_or, pHy1]
      · simp only [h, hb, hb', if_false, false_or]

theorem pmlHy_closed (bh ch : Arr K) (dx : K) (Nx Ny T : ℤ) (Ez Db p1 p2 F : Tensor K)
    (hov : 2 * T < Ny - 1) (hT : 1 ≤ T)
    (hbe : bh.n = Ny) (hce : ch.n = Ny) (hS : Ez.nx = Nx ∧ Ez.ny = Ny) (hC : Db.nx = Nx ∧ Db.ny = Ny)
    (hp1 : p1.nx = Nx ∧ p1.ny = T + 1) (hp2 : p2.nx = Nx ∧ p2.ny = T + 1) (hF : F.nx = Nx ∧ F.ny = Ny) :
    forRange 1 (Nx - 1) (⟨p1, p2, F⟩ : Psi2 K) (fun i s => forRange 1 (T - 1 + 1) s (fun j s =>
      pmlHyBody bh ch dx (Ny - 1) Ez Db i j s)) =
    .ok (pmlHySt bh ch dx Ny Ez Db p1 p2 F (rect 1 (Nx - 1) 1 (T - 1 + 1))) := by
  have := forRange2_closed (pmlHySt bh ch dx Ny Ez Db p1 p2 F)
    1 (Nx - 1) 1 (T - 1 + 1) (pmlHyBody bh ch dx (Ny - 1) Ez Db)
    (fun i j h1 h2 h3 h4 D hD hn => pmlHy_step bh ch dx Nx Ny T Ez Db p1 p2 F hov hT hbe hce hS hC hp1 hp2 hF
      i j (mem_rect.mpr ⟨⟨h1, h2⟩, h3, h4⟩) D hD hn)
  simpa [pmlHySt] using this

/-- State of the loop of `pmlHxBody` after the iterations in `D`. -/
def pmlHxSt (bh ch : Arr K) (dx : K) (Nx : ℤ) (Ez Db p1 p2 F : Tensor K)
    (D : Finset (ℤ × ℤ)) : Psi2 K :=
  ⟨p1.upd D (pHx1 bh ch dx Ez p1),
         p2.upd D (pHx2 bh ch dx (Nx - 1) Ez p2),
         corr F D (fun x y => (Nx - 1 - x - 1, y))
           (fun x y => F.val x y + Db.val x y * pHx1 bh ch dx Ez p1 x y)
           (fun x y => F.val x y + Db.val x y * pHx2 bh ch dx (Nx - 1) Ez p2 (Nx - 1 - x - 1) y)⟩

theorem pmlHx_step (bh ch : Arr K) (dx : K) (Nx Ny T : ℤ) (Ez Db p1 p2 F : Tensor K)
    (hov : 2 * T < Nx - 1) (hT : 1 ≤ T)
    (hbe : bh.n = Nx) (hce : ch.n = Nx) (hS : Ez.nx = Nx ∧ Ez.ny = Ny) (hC : Db.nx = Nx ∧ Db.ny = Ny)
    (hp1 : p1.nx = T + 1 ∧ p1.ny = Ny) (hp2 : p2.nx = T + 1 ∧ p2.ny = Ny) (hF : F.nx = Nx ∧ F.ny = Ny)
    (i j : ℤ) (hr : (i, j) ∈ rect 1 (T - 1 + 1) 1 (Ny - 1)) (D : Finset (ℤ × ℤ)) (hDs : D ⊆ rect 1 (T - 1 + 1) 1 (Ny - 1)) (hD : (i, j) ∉ D) :
    pmlHxBody bh ch dx (Nx - 1) Ez Db i j (pmlHxSt bh ch dx Nx Ez Db p1 p2 F D) =
      .ok (pmlHxSt bh ch dx Nx Ez Db p1 p2 F (insert (i, j) D)) := by
  obtain ⟨⟨h1, h2⟩, h3, h4⟩ := mem_rect.mp hr
  simp only at h1 h2 h3 h4
  have hm : (Nx - 1 - i - 1, j) ∉ D := by
    intro h; have := mem_rect.mp (hDs h); simp only at this; omega
  have hinv : Nx - 1 - (Nx - 1 - i - 1) - 1 = i := by omega
  obtain ⟨e1, e1'⟩ := hS
  obtain ⟨e2, e2'⟩ := hC
  obtain ⟨e3, e3'⟩ := hp1
  obtain ⟨e4, e4'⟩ := hp2
  obtain ⟨e5, e5'⟩ := hF
  have hne : ¬ (Nx - 1 - i - 1 = i) := by omega
  have hne' : ¬ (i = Nx - 1 - i - 1) := by omega
  unfold pmlHxBody pmlHxSt
  simp (disch := first | omega | (simp only [Tensor.upd_nx, Tensor.upd_ny, Tensor.setv_nx, Tensor.setv_ny, corr_nx, corr_ny]; omega)) only
    [Tensor.rd_in, Tensor.wr_in, Arr.rd_in, Except.ok_bind, Except.pure_eq, Tensor.setv_val, Tensor.upd_val,
     corr_val, hD, hm, if_false, hne, and_false, false_and, and_self, if_true, hinv]
  refine congrArg Except.ok ?_
  congr 1
  · refine Tensor.ext' rfl rfl fun x y => ?_
    simp only [Tensor.setv_val, Tensor.upd_val, Finset.mem_insert, Prod.mk.injEq]
    by_cases h : x = i ∧ y = j
    · obtain ⟨rfl, rfl⟩ := h; simp [pHx1]
    · simp [h]
  · refine Tensor.ext' rfl rfl fun x y => ?_
    simp only [Tensor.setv_val, Tensor.upd_val, Finset.mem_insert, Prod.mk.injEq]
    by_cases h : x = i ∧ y = j
    · obtain ⟨rfl, rfl⟩ := h; simp [pHx2]
    · simp [h]
  · refine Tensor.ext' rfl rfl fun x y => ?_
    simp only [Tensor.setv_val, corr_val, Finset.mem_insert, Prod.mk.injEq]
    by_cases hb : x = Nx - 1 - i - 1 ∧ y = j
    · obtain ⟨rfl, rfl⟩ := hb
      simp only [hne, and_false, false_and, false_or, hm, if_false, hinv, and_self, true_or, if_true, pHx2]
    · have hb' : ¬ (Nx - 1 - x - 1 = i ∧ y = j) := by omega
      by_cases h : x = i ∧ y = j
      · obtain ⟨rfl, rfl⟩ := h
        simp only [hne', and_false, false_and, if_false, and_self, if_true, true_or, pHx1]
      · simp only [h, hb, hb', if_false, false_or]

theorem pmlHx_closed (bh ch : Arr K) (dx : K) (Nx Ny T : ℤ) (Ez Db p1 p2 F : Tensor K)
    (hov : 2 * T < Nx - 1) (hT : 1 ≤ T)
    (hbe : bh.n = Nx) (hce : ch.n = Nx) (hS : Ez.nx = Nx ∧ Ez.ny = Ny) (hC : Db.nx = Nx ∧ Db.ny = Ny)
    (hp1 : p1.nx = T + 1 ∧ p1.ny = Ny) (hp2 : p2.nx = T + 1 ∧ p2.ny = Ny) (hF : F.nx = Nx ∧ F.ny = Ny) :
    forRange 1 (T - 1 + 1) (⟨p1, p2, F⟩ : Psi2 K) (fun i s => forRange 1 (Ny - 1) s (fun j s =>
      pmlHxBody bh ch dx (Nx - 1) Ez Db i j s)) =
    .ok (pmlHxSt bh ch dx Nx Ez Db p1 p2 F (rect 1 (T - 1 + 1) 1 (Ny - 1))) := by
  have := forRange2_closed (pmlHxSt bh ch dx Nx Ez Db p1 p2 F)
    1 (T - 1 + 1) 1 (Ny - 1) (pmlHxBody bh ch dx (Nx - 1) Ez Db)
    (fun i j h1 h2 h3 h4 D hD hn => pmlHx_step bh ch dx Nx Ny T Ez Db p1 p2 F hov hT hbe hce hS hC hp1 hp2 hF
      i j (mem_rect.mpr ⟨⟨h1, h2⟩, h3, h4⟩) D hD hn)
  simpa [pmlHxSt] using this

end Qbox
