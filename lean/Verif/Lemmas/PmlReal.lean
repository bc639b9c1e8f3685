import Verif.Lemmas.PmlClosed
import Verif.Lemmas.WF

/-!
# Closed forms of `pml::update_E` and `pml::update_H` in exact arithmetic

Over the reals the two strips of the layer may overlap: the corrections of a node add up.
-/

namespace Qbox
open Scalar

set_option linter.unusedSectionVars false
set_option linter.unusedSimpArgs false
set_option linter.unusedVariables false

/-- State of the loop of `pmlEyBody` after the iterations in `D`. -/
noncomputable def pmlEyR (be ce : Arr ℝ) (dx : ℝ) (Ny : ℤ) (Hx Cb p1 p2 F : Tensor ℝ)
    (D : Finset (ℤ × ℤ)) : Psi2 ℝ :=
  ⟨p1.upd D (pEy1 be ce dx Hx p1),
    p2.upd D (pEy2 be ce dx (Ny - 1) Hx p2),
    F.setv fun x y => F.val x y - (if (x, y) ∈ D then Cb.val x y * pEy1 be ce dx Hx p1 x y else 0)
      - (if (x, Ny - 1 - y) ∈ D then Cb.val x y * pEy2 be ce dx (Ny - 1) Hx p2 x (Ny - 1 - y) else 0)⟩

theorem pmlEyR_step (be ce : Arr ℝ) (dx : ℝ) (Nx Ny T : ℤ) (Hx Cb p1 p2 F : Tensor ℝ)
    (hov : T + 2 ≤ Ny)
    (hbe : be.n = Ny) (hce : ce.n = Ny) (hS : Hx.nx = Nx ∧ Hx.ny = Ny) (hC : Cb.nx = Nx ∧ Cb.ny = Ny)
    (hp1 : p1.nx = Nx ∧ p1.ny = T + 1) (hp2 : p2.nx = Nx ∧ p2.ny = T + 1) (hF : F.nx = Nx ∧ F.ny = Ny)
    (i j : ℤ) (hr : (i, j) ∈ rect 1 (Nx - 1) 1 (T + 1)) (D : Finset (ℤ × ℤ)) (hDs : D ⊆ rect 1 (Nx - 1) 1 (T + 1)) (hD : (i, j) ∉ D) :
    pmlEyBody be ce dx (Ny - 1) Hx Cb i j (pmlEyR be ce dx Ny Hx Cb p1 p2 F D) =
      .ok (pmlEyR be ce dx Ny Hx Cb p1 p2 F (insert (i, j) D)) := by
  obtain ⟨⟨h1, h2⟩, h3, h4⟩ := mem_rect.mp hr
  simp only at h1 h2 h3 h4
  have hinv : Ny - 1 - (Ny - 1 - j) = j := by omega
  obtain ⟨e1, e1'⟩ := hS
  obtain ⟨e2, e2'⟩ := hC
  obtain ⟨e3, e3'⟩ := hp1
  obtain ⟨e4, e4'⟩ := hp2
  obtain ⟨e5, e5'⟩ := hF
  unfold pmlEyBody pmlEyR
  simp (disch := first | omega | (simp only [Tensor.upd_nx, Tensor.upd_ny, Tensor.setv_nx, Tensor.setv_ny]; omega)) only
    [Tensor.rd_in, Tensor.wr_in, Arr.rd_in, Except.ok_bind, Except.pure_eq, Tensor.setv_val, Tensor.upd_val,
     hD, if_false, and_self, if_true, hinv]
  refine congrArg Except.ok ?_
  congr 1
  · refine Tensor.ext' rfl rfl fun x y => ?_
    simp only [Tensor.setv_val, Tensor.upd_val, Finset.mem_insert, Prod.mk.injEq]
    by_cases h : x = i ∧ y = j
    · obtain ⟨rfl, rfl⟩ := h; simp [pEy1]
    · simp [h]
  · refine Tensor.ext' rfl rfl fun x y => ?_
    simp only [Tensor.setv_val, Tensor.upd_val, Finset.mem_insert, Prod.mk.injEq]
    by_cases h : x = i ∧ y = j
    · obtain ⟨rfl, rfl⟩ := h; simp [pEy2]
    · simp [h]
  · refine Tensor.ext' rfl rfl fun x y => ?_
    simp only [Tensor.setv_val, Finset.mem_insert, Prod.mk.injEq]
    by_cases hb : x = i ∧ y = Ny - 1 - j
    · by_cases h : x = i ∧ y = j
      · obtain ⟨rfl, rfl⟩ := h
        have hk : Ny - 1 - y = y := by omega
        simp only [hk, hD, and_self, if_true, true_or, if_false, pEy1, pEy2]
        ring_nf
      · obtain ⟨rfl, rfl⟩ := hb
        have hne : ¬ (Ny - 1 - j = j) := by omega
        simp only [hne, hinv, hD, and_self, and_false, false_and, if_true, true_or, if_false, pEy2, false_or]
        ring
    · have hb' : ¬ (x = i ∧ Ny - 1 - y = j) := by omega
      by_cases h : x = i ∧ y = j
      · obtain ⟨rfl, rfl⟩ := h
        have hk : ¬ y = Ny - 1 - y := by omega
        have hk' : ¬ Ny - 1 - y = y := by omega
        simp only [hb', hD, hk, hk', and_self, and_false, false_and, if_true, true_or, if_false, pEy1, false_or]
        ring
      · simp only [h, hb, hb', if_false, false_or]

theorem pmlEyR_closed (be ce : Arr ℝ) (dx : ℝ) (Nx Ny T : ℤ) (Hx Cb p1 p2 F : Tensor ℝ)
    (hov : T + 2 ≤ Ny)
    (hbe : be.n = Ny) (hce : ce.n = Ny) (hS : Hx.nx = Nx ∧ Hx.ny = Ny) (hC : Cb.nx = Nx ∧ Cb.ny = Ny)
    (hp1 : p1.nx = Nx ∧ p1.ny = T + 1) (hp2 : p2.nx = Nx ∧ p2.ny = T + 1) (hF : F.nx = Nx ∧ F.ny = Ny) :
    forRange 1 (Nx - 1) (⟨p1, p2, F⟩ : Psi2 ℝ) (fun i s => forRange 1 (T + 1) s (fun j s =>
      pmlEyBody be ce dx (Ny - 1) Hx Cb i j s)) =
    .ok (pmlEyR be ce dx Ny Hx Cb p1 p2 F (rect 1 (Nx - 1) 1 (T + 1))) := by
  have := forRange2_closed (pmlEyR be ce dx Ny Hx Cb p1 p2 F)
    1 (Nx - 1) 1 (T + 1) (pmlEyBody be ce dx (Ny - 1) Hx Cb)
    (fun i j h1 h2 h3 h4 D hD hn => pmlEyR_step be ce dx Nx Ny T Hx Cb p1 p2 F hov hbe hce hS hC hp1 hp2 hF
      i j (mem_rect.mpr ⟨⟨h1, h2⟩, h3, h4⟩) D hD hn)
  simpa [pmlEyR, Tensor.setv] using this

/-- State of the loop of `pmlExBody` after the iterations in `D`. -/
noncomputable def pmlExR (be ce : Arr ℝ) (dx : ℝ) (Nx : ℤ) (Hy Cb p1 p2 F : Tensor ℝ)
    (D : Finset (ℤ × ℤ)) : Psi2 ℝ :=
  ⟨p1.upd D (pEx1 be ce dx Hy p1),
    p2.upd D (pEx2 be ce dx (Nx - 1) Hy p2),
    F.setv fun x y => F.val x y + (if (x, y) ∈ D then Cb.val x y * pEx1 be ce dx Hy p1 x y else 0)
      + (if (Nx - 1 - x, y) ∈ D then Cb.val x y * pEx2 be ce dx (Nx - 1) Hy p2 (Nx - 1 - x) y else 0)⟩

theorem pmlExR_step (be ce : Arr ℝ) (dx : ℝ) (Nx Ny T : ℤ) (Hy Cb p1 p2 F : Tensor ℝ)
    (hov : T + 2 ≤ Nx)
    (hbe : be.n = Nx) (hce : ce.n = Nx) (hS : Hy.nx = Nx ∧ Hy.ny = Ny) (hC : Cb.nx = Nx ∧ Cb.ny = Ny)
    (hp1 : p1.nx = T + 1 ∧ p1.ny = Ny) (hp2 : p2.nx = T + 1 ∧ p2.ny = Ny) (hF : F.nx = Nx ∧ F.ny = Ny)
    (i j : ℤ) (hr : (i, j) ∈ rect 1 (T + 1) 1 (Ny - 1)) (D : Finset (ℤ × ℤ)) (hDs : D ⊆ rect 1 (T + 1) 1 (Ny - 1)) (hD : (i, j) ∉ D) :
    pmlExBody be ce dx (Nx - 1) Hy Cb i j (pmlExR be ce dx Nx Hy Cb p1 p2 F D) =
      .ok (pmlExR be ce dx Nx Hy Cb p1 p2 F (insert (i, j) D)) := by
  obtain ⟨⟨h1, h2⟩, h3, h4⟩ := mem_rect.mp hr
  simp only at h1 h2 h3 h4
  have hinv : Nx - 1 - (Nx - 1 - i) = i := by omega
  obtain ⟨e1, e1'⟩ := hS
  obtain ⟨e2, e2'⟩ := hC
  obtain ⟨e3, e3'⟩ := hp1
  obtain ⟨e4, e4'⟩ := hp2
  obtain ⟨e5, e5'⟩ := hF
  unfold pmlExBody pmlExR
  simp (disch := first | omega | (simp only [Tensor.upd_nx, Tensor.upd_ny, Tensor.setv_nx, Tensor.setv_ny]; omega)) only
    [Tensor.rd_in, Tensor.wr_in, Arr.rd_in, Except.ok_bind, Except.pure_eq, Tensor.setv_val, Tensor.upd_val,
     hD, if_false, and_self, if_true, hinv]
  refine congrArg Except.ok ?_
  congr 1
  · refine Tensor.ext' rfl rfl fun x y => ?_
    simp only [Tensor.setv_val, Tensor.upd_val, Finset.mem_insert, Prod.mk.injEq]
    by_cases h : x = i ∧ y = j
    · obtain ⟨rfl, rfl⟩ := h; simp [pEx1]
    · simp [h]
  · refine Tensor.ext' rfl rfl fun x y => ?_
    simp only [Tensor.setv_val, Tensor.upd_val, Finset.mem_insert, Prod.mk.injEq]
    by_cases h : x = i ∧ y = j
    · obtain ⟨rfl, rfl⟩ := h; simp [pEx2]
    · simp [h]
  · refine Tensor.ext' rfl rfl fun x y => ?_
    simp only [Tensor.setv_val, Finset.mem_insert, Prod.mk.injEq]
    by_cases hb : x = Nx - 1 - i ∧ y = j
    · by_cases h : x = i ∧ y = j
      · obtain ⟨rfl, rfl⟩ := h
        have hk : Nx - 1 - x = x := by omega
        simp only [hk, hD, and_self, if_true, true_or, if_false, pEx1, pEx2]
        ring_nf
      · obtain ⟨rfl, rfl⟩ := hb
        have hne : ¬ (Nx - 1 - i = i) := by omega
        simp only [hne, hinv, hD, and_self, and_false, false_and, if_true, true_or, if_false, pEx2, false_or]
        ring
    · have hb' : ¬ (Nx - 1 - x = i ∧ y = j) := by omega
      by_cases h : x = i ∧ y = j
      · obtain ⟨rfl, rfl⟩ := h
        have hk : ¬ x = Nx - 1 - x := by omega
        have hk' : ¬ Nx - 1 - x = x := by omega
        simp only [hb', hD, hk, hk', and_self, and_false, false_and, if_true, true_or, if_false, pEx1, false_or]
        ring
      · simp only [h, hb, hb', if_false, false_or]

theorem pmlExR_closed (be ce : Arr ℝ) (dx : ℝ) (Nx Ny T : ℤ) (Hy Cb p1 p2 F : Tensor ℝ)
    (hov : T + 2 ≤ Nx)
    (hbe : be.n = Nx) (hce : ce.n = Nx) (hS : Hy.nx = Nx ∧ Hy.ny = Ny) (hC : Cb.nx = Nx ∧ Cb.ny = Ny)
    (hp1 : p1.nx = T + 1 ∧ p1.ny = Ny) (hp2 : p2.nx = T + 1 ∧ p2.ny = Ny) (hF : F.nx = Nx ∧ F.ny = Ny) :
    forRange 1 (T + 1) (⟨p1, p2, F⟩ : Psi2 ℝ) (fun i s => forRange 1 (Ny - 1) s (fun j s =>
      pmlExBody be ce dx (Nx - 1) Hy Cb i j s)) =
    .ok (pmlExR be ce dx Nx Hy Cb p1 p2 F (rect 1 (T + 1) 1 (Ny - 1))) := by
  have := forRange2_closed (pmlExR be ce dx Nx Hy Cb p1 p2 F)
    1 (T + 1) 1 (Ny - 1) (pmlExBody be ce dx (Nx - 1) Hy Cb)
    (fun i j h1 h2 h3 h4 D hD hn => pmlExR_step be ce dx Nx Ny T Hy Cb p1 p2 F hov hbe hce hS hC hp1 hp2 hF
      i j (mem_rect.mpr ⟨⟨h1, h2⟩, h3, h4⟩) D hD hn)
  simpa [pmlExR, Tensor.setv] using this

/-- State of the loop of `pmlHyBody` after the iterations in `D`. -/
noncomputable def pmlHyR (bh ch : Arr ℝ) (dx : ℝ) (Ny : ℤ) (Ez Db p1 p2 F : Tensor ℝ)
    (D : Finset (ℤ × ℤ)) : Psi2 ℝ :=
  ⟨p1.upd D (pHy1 bh ch dx Ez p1),
    p2.upd D (pHy2 bh ch dx (Ny - 1) Ez p2),
    F.setv fun x y => F.val x y - (if (x, y) ∈ D then Db.val x y * pHy1 bh ch dx Ez p1 x y else 0)
      - (if (x, Ny - 1 - y - 1) ∈ D then Db.val x y * pHy2 bh ch dx (Ny - 1) Ez p2 x (Ny - 1 - y - 1) else 0)⟩

theorem pmlHyR_step (bh ch : Arr ℝ) (dx : ℝ) (Nx Ny T : ℤ) (Ez Db p1 p2 F : Tensor ℝ)
    (hov : T + 2 ≤ Ny)
    (hbe : bh.n = Ny) (hce : ch.n = Ny) (hS : Ez.nx = Nx ∧ Ez.ny = Ny) (hC : Db.nx = Nx ∧ Db.ny = Ny)
    (hp1 : p1.nx = Nx ∧ p1.ny = T + 1) (hp2 : p2.nx = Nx ∧ p2.ny = T + 1) (hF : F.nx = Nx ∧ F.ny = Ny)
    (i j : ℤ) (hr : (i, j) ∈ rect 1 (Nx - 1) 1 (T - 1 + 1)) (D : Finset (ℤ × ℤ)) (hDs : D ⊆ rect 1 (Nx - 1) 1 (T - 1 + 1)) (hD : (i, j) ∉ D) :
    pmlHyBody bh ch dx (Ny - 1) Ez Db i j (pmlHyR bh ch dx Ny Ez Db p1 p2 F D) =
      .ok (pmlHyR bh ch dx Ny Ez Db p1 p2 F (insert (i, j) D)) := by
  obtain ⟨⟨h1, h2⟩, h3, h4⟩ := mem_rect.mp hr
  simp only at h1 h2 h3 h4
  have hinv : Ny - 1 - (Ny - 1 - j - 1) - 1 = j := by omega
  obtain ⟨e1, e1'⟩ := hS
  obtain ⟨e2, e2'⟩ := hC
  obtain ⟨e3, e3'⟩ := hp1
  obtain ⟨e4, e4'⟩ := hp2
  obtain ⟨e5, e5'⟩ := hF
  unfold pmlHyBody pmlHyR
  simp (disch := first | omega | (simp only [Tensor.upd_nx, Tensor.upd_ny, Tensor.setv_nx, Tensor.setv_ny]; omega)) only
    [Tensor.rd_in, Tensor.wr_in, Arr.rd_in, Except.ok_bind, Except.pure_eq, Tensor.setv_val, Tensor.upd_val,
     hD, if_false, and_self, if_true, hinv]
  refine congrArg Except.ok ?_
  congr 1
  · refine Tensor.ext' rfl rfl fun x y => ?_
    simp only [Tensor.setv_val, Tensor.upd_val, Finset.mem_insert, Prod.mk.injEq]
    by_cases h : x = i ∧ y = j
    · obtain ⟨rfl, rfl⟩ := h; simp [pHy1]
    · simp [h]
  · refine Tensor.ext' rfl rfl fun x y => ?_
    simp only [Tensor.setv_val, Tensor.upd_val, Finset.mem_insert, Prod.mk.injEq]
    by_cases h : x = i ∧ y = j
    · obtain ⟨rfl, rfl⟩ := h; simp [pHy2]
    · simp [h]
  · refine Tensor.ext' rfl rfl fun x y => ?_
    simp only [Tensor.setv_val, Finset.mem_insert, Prod.mk.injEq]
    by_cases hb : x = i ∧ y = Ny - 1 - j - 1
    · by_cases h : x = i ∧ y = j
      · obtain ⟨rfl, rfl⟩ := h
        have hk : Ny - 1 - y - 1 = y := by omega
        simp only [hk, hD, and_self, if_true, true_or, if_false, pHy1, pHy2]
        ring_nf
      · obtain ⟨rfl, rfl⟩ := hb
        have hne : ¬ (Ny - 1 - j - 1 = j) := by omega
        simp only [hne, hinv, hD, and_self, and_false, false_and, if_true, true_or, if_false, pHy2, false_or]
        ring
    · have hb' : ¬ (x = i ∧ Ny - 1 - y - 1 = j) := by omega
      by_cases h : x = i ∧ y = j
      · obtain ⟨rfl, rfl⟩ := h
        have hk : ¬ y = Ny - 1 - y - 1 := by omega
        have hk' : ¬ Ny - 1 - y - 1 = y := by omega
        simp only [hb', hD, hk, hk', and_self, and_false, false_and, if_true, true_or, if_false, pHy1, false_or]
        ring
      · simp only [h, hb, hb', if_false, false_or]

theorem pmlHyR_closed (bh ch : Arr ℝ) (dx : ℝ) (Nx Ny T : ℤ) (Ez Db p1 p2 F : Tensor ℝ)
    (hov : T + 2 ≤ Ny)
    (hbe : bh.n = Ny) (hce : ch.n = Ny) (hS : Ez.nx = Nx ∧ Ez.ny = Ny) (hC : Db.nx = Nx ∧ Db.ny = Ny)
    (hp1 : p1.nx = Nx ∧ p1.ny = T + 1) (hp2 : p2.nx = Nx ∧ p2.ny = T + 1) (hF : F.nx = Nx ∧ F.ny = Ny) :
    forRange 1 (Nx - 1) (⟨p1, p2, F⟩ : Psi2 ℝ) (fun i s => forRange 1 (T - 1 + 1) s (fun j s =>
      pmlHyBody bh ch dx (Ny - 1) Ez Db i j s)) =
    .ok (pmlHyR bh ch dx Ny Ez Db p1 p2 F (rect 1 (Nx - 1) 1 (T - 1 + 1))) := by
  have := forRange2_closed (pmlHyR bh ch dx Ny Ez Db p1 p2 F)
    1 (Nx - 1) 1 (T - 1 + 1) (pmlHyBody bh ch dx (Ny - 1) Ez Db)
    (fun i j h1 h2 h3 h4 D hD hn => pmlHyR_step bh ch dx Nx Ny T Ez Db p1 p2 F hov hbe hce hS hC hp1 hp2 hF
      i j (mem_rect.mpr ⟨⟨h1, h2⟩, h3, h4⟩) D hD hn)
  simpa [pmlHyR, Tensor.setv] using this

/-- State of the loop of `pmlHxBody` after the iterations in `D`. -/
noncomputable def pmlHxR (bh ch : Arr ℝ) (dx : ℝ) (Nx : ℤ) (Ez Db p1 p2 F : Tensor ℝ)
    (D : Finset (ℤ × ℤ)) : Psi2 ℝ :=
  ⟨p1.upd D (pHx1 bh ch dx Ez p1),
    p2.upd D (pHx2 bh ch dx (Nx - 1) Ez p2),
    F.setv fun x y => F.val x y + (if (x, y) ∈ D then Db.val x y * pHx1 bh ch dx Ez p1 x y else 0)
      + (if (Nx - 1 - x - 1, y) ∈ D then Db.val x y * pHx2 bh ch dx (Nx - 1) Ez p2 (Nx - 1 - x - 1) y else 0)⟩

theorem pmlHxR_step (bh ch : Arr ℝ) (dx : ℝ) (Nx Ny T : ℤ) (Ez Db p1 p2 F : Tensor ℝ)
    (hov : T + 2 ≤ Nx)
    (hbe : bh.n = Nx) (hce : ch.n = Nx) (hS : Ez.nx = Nx ∧ Ez.ny = Ny) (hC : Db.nx = Nx ∧ Db.ny = Ny)
    (hp1 : p1.nx = T + 1 ∧ p1.ny = Ny) (hp2 : p2.nx = T + 1 ∧ p2.ny = Ny) (hF : F.nx = Nx ∧ F.ny = Ny)
    (i j : ℤ) (hr : (i, j) ∈ rect 1 (T - 1 + 1) 1 (Ny - 1)) (D : Finset (ℤ × ℤ)) (hDs : D ⊆ rect 1 (T - 1 + 1) 1 (Ny - 1)) (hD : (i, j) ∉ D) :
    pmlHxBody bh ch dx (Nx - 1) Ez Db i j (pmlHxR bh ch dx Nx Ez Db p1 p2 F D) =
      .ok (pmlHxR bh ch dx Nx Ez Db p1 p2 F (insert (i, j) D)) := by
  obtain ⟨⟨h1, h2⟩, h3, h4⟩ := mem_rect.mp hr
  simp only at h1 h2 h3 h4
  have hinv : Nx - 1 - (Nx - 1 - i - 1) - 1 = i := by omega
  obtain ⟨e1, e1'⟩ := hS
  obtain ⟨e2, e2'⟩ := hC
  obtain ⟨e3, e3'⟩ := hp1
  obtain ⟨e4, e4'⟩ := hp2
  obtain ⟨e5, e5'⟩ := hF
  unfold pmlHxBody pmlHxR
  simp (disch := first | omega | (simp only [Tensor.upd_nx, Tensor.upd_ny, Tensor.setv_nx, Tensor.setv_ny]; omega)) only
    [Tensor.rd_in, Tensor.wr_in, Arr.rd_in, Except.ok_bind, Except.pure_eq, Tensor.setv_val, Tensor.upd_val,
     hD, if_false, and_self, if_true, hinv]
  refine congrArg Except.ok ?_
  congr 1
  · refine Tensor.ext' rfl rfl fun x y => ?_
    simp only [Tensor.setv_val, Tensor.upd_val, Finset.mem_insert, Prod.mk.injEq]
    by_cases h : x = i ∧ y = j
    · obtain ⟨rfl, rfl⟩ := h; simp [pHx1]
    · simp [h]
  · refine Tensor.ext' rfl rfl fun x y => ?_
    simp only [Tensor.setv_val, Tensor.upd_val, Finset.mem_insert, Prod.mk.injEq]
    by_cases h : x = i ∧ y = j
    · obtain ⟨rfl, rfl⟩ := h; simp [pHx2]
    · simp [h]
  · refine Tensor.ext' rfl rfl fun x y => ?_
    simp only [Tensor.setv_val, Finset.mem_insert, Prod.mk.injEq]
    by_cases hb : x = Nx - 1 - i - 1 ∧ y = j
    · by_cases h : x = i ∧ y = j
      · obtain ⟨rfl, rfl⟩ := h
        have hk : Nx - 1 - x - 1 = x := by omega
        simp only [hk, hD, and_self, if_true, true_or, if_false, pHx1, pHx2]
        ring_nf
      · obtain ⟨rfl, rfl⟩ := hb
        have hne : ¬ (Nx - 1 - i - 1 = i) := by omega
        simp only [hne, hinv, hD, and_self, and_false, false_and, if_true, true_or, if_false, pHx2, false_or]
        ring
    · have hb' : ¬ (Nx - 1 - x - 1 = i ∧ y = j) := by omega
      by_cases h : x = i ∧ y = j
      · obtain ⟨rfl, rfl⟩ := h
        have hk : ¬ x = Nx - 1 - x - 1 := by omega
        have hk' : ¬ Nx - 1 - x - 1 = x := by omega
        simp only [hb', hD, hk, hk', and_self, and_false, false_and, if_true, true_or, if_false, pHx1, false_or]
        ring
      · simp only [h, hb, hb', if_false, false_or]

theorem pmlHxR_closed (bh ch : Arr ℝ) (dx : ℝ) (Nx Ny T : ℤ) (Ez Db p1 p2 F : Tensor ℝ)
    (hov : T + 2 ≤ Nx)
    (hbe : bh.n = Nx) (hce : ch.n = Nx) (hS : Ez.nx = Nx ∧ Ez.ny = Ny) (hC : Db.nx = Nx ∧ Db.ny = Ny)
    (hp1 : p1.nx = T + 1 ∧ p1.ny = Ny) (hp2 : p2.nx = T + 1 ∧ p2.ny = Ny) (hF : F.nx = Nx ∧ F.ny = Ny) :
    forRange 1 (T - 1 + 1) (⟨p1, p2, F⟩ : Psi2 ℝ) (fun i s => forRange 1 (Ny - 1) s (fun j s =>
      pmlHxBody bh ch dx (Nx - 1) Ez Db i j s)) =
    .ok (pmlHxR bh ch dx Nx Ez Db p1 p2 F (rect 1 (T - 1 + 1) 1 (Ny - 1))) := by
  have := forRange2_closed (pmlHxR bh ch dx Nx Ez Db p1 p2 F)
    1 (T - 1 + 1) 1 (Ny - 1) (pmlHxBody bh ch dx (Nx - 1) Ez Db)
    (fun i j h1 h2 h3 h4 D hD hn => pmlHxR_step bh ch dx Nx Ny T Ez Db p1 p2 F hov hbe hce hS hC hp1 hp2 hF
      i j (mem_rect.mpr ⟨⟨h1, h2⟩, h3, h4⟩) D hD hn)
  simpa [pmlHxR, Tensor.setv] using this

end Qbox
