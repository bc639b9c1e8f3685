import Verif.Lemmas.Swap
import Verif.Spec.MirrorSpec

/-! # One step and the left-right mirror image -/

namespace Qbox
open Scalar Spec Props

set_option linter.unusedSectionVars false
set_option linter.unusedSimpArgs false

theorem Spec.ColMir.at {Nx r : ℤ} {a b : Tensor ℝ} (h : ColMir Nx r a b) {x x' : ℤ} (e : x + x' = Nx - 1) (h1 : r ≤ x) (h2 : r ≤ x')
    (y : ℤ) : b.val x' y = a.val x y := by
  rw [← h x y h1 (by omega), show Nx - 1 - x = x' by omega]

theorem Spec.HalfMir.at {Nx r : ℤ} {a b : Tensor ℝ} (h : HalfMir Nx r a b) {x x' : ℤ} (e : x + x' = Nx - 2) (h1 : r ≤ x) (h2 : r ≤ x')
    (y : ℤ) : b.val x' y = -a.val x y := by
  rw [← h x y h1 (by omega), show Nx - 2 - x = x' by omega]

theorem Spec.HalfSame.at {Nx : ℤ} {a b : Tensor ℝ} (h : HalfSame Nx a b) {x x' : ℤ} (e : x + x' = Nx - 2) (h1 : 0 ≤ x) (h2 : 0 ≤ x')
    (y : ℤ) : b.val x' y = a.val x y := by
  rw [← h x y h1 (by omega), show Nx - 2 - x = x' by omega]

theorem Spec.ColMir.mono {Nx r s : ℤ} {a b : Tensor ℝ} (h : ColMir Nx r a b) (hr : r ≤ s) : ColMir Nx s a b :=
  fun i j h1 h2 => h i j (by omega) (by omega)
theorem Spec.StripMir.mono {Nx r s : ℤ} {σ : ℝ} {a1 a2 b1 b2 : Tensor ℝ} (h : StripMir Nx r σ a1 a2 b1 b2) (hr : r ≤ s) :
    StripMir Nx s σ a1 a2 b1 b2 := fun i j h1 h2 => h i j (by omega) (by omega)

theorem mem_rect_mir {N a c d x x' y : ℤ} (e : x + x' = N) : ((x', y) ∈ rect a (N - a + 1) c d) ↔ ((x, y) ∈ rect a (N - a + 1) c d) := by
  simp only [mem_rect]; omega

section
variable {p q : Pml ℝ} {Nx r : ℤ}

theorem mir_corrE (eN : p.Nx = Nx) (eN' : q.Nx = Nx) (eM : q.Ny = p.Ny) (ep : q.par = p.par) (ec : q.co = p.co)
    (hp : PsiMir Nx r p.psi q.psi) {Hx Hy Cb Hx' Hy' Cb' : Tensor ℝ} (h1 : ColMir Nx r Hx Hx') (h2 : HalfMir Nx r Hy Hy')
    (h3 : ColMir Nx 0 Cb Cb') (hr : 0 ≤ r) {x x' : ℤ} (e : x + x' = Nx - 1) (b1 : r + 1 ≤ x) (b2 : r + 1 ≤ x') (y : ℤ) :
    q.corrE Hx' Hy' Cb' x' y = p.corrE Hx Hy Cb x y := by
  have c1 := fun y => h1.at e (by omega) (by omega) y
  have c2 := h2.at (x := x - 1) (x' := x') (by omega) (by omega) (by omega) y
  have c3 := h2.at (x := x) (x' := x' - 1) (by omega) (by omega) (by omega) y
  have c4 := h3.at e (by omega) (by omega) y
  have c5 := fun y => hp.Ezy1.at e (by omega) (by omega) y
  have c6 := fun y => hp.Ezy2.at e (by omega) (by omega) y
  have c7 := (hp.Ezx x y (by omega) (by omega)).1
  have c8 := (hp.Ezx x' y (by omega) (by omega)).2
  have e1 : Nx - 1 - x' = x := by omega
  have e2 : Nx - 1 - x = x' := by omega
  have m := fun (y c d : ℤ) => mem_rect_mir (N := Nx - 1) (a := 1) (c := c) (d := d) (x := x) (x' := x') (y := y) e
  simp only [sub_add_cancel] at m
  simp only [Pml.corrE, eN, eN', eM, ep, ec, e1, e2, m, pEy1, pEy2, pEx1, pEx2, c1, c2, c3, c4, c5, c6, c7, c8]
  split_ifs <;> ring

theorem mir_corrHx (eN : p.Nx = Nx) (eN' : q.Nx = Nx) (eM : q.Ny = p.Ny) (ep : q.par = p.par) (ec : q.co = p.co)
    (hp : PsiMir Nx r p.psi q.psi) {Ez Db Ez' Db' : Tensor ℝ} {s : ℤ} (h1 : ColMir Nx s Ez Ez') 
    (h3 : ColMir Nx 0 Db Db') (hs : r ≤ s) (hr : 0 ≤ s) {x x' : ℤ} (e : x + x' = Nx - 1) (b1 : s ≤ x) (b2 : s ≤ x') (y : ℤ) :
    q.corrHx Ez' Db' x' y = p.corrHx Ez Db x y := by
  have c1 := fun y => h1.at e (by omega) (by omega) y
  have c5 := fun y => hp.Hxy1.at e (by omega) (by omega) y
  have c6 := fun y => hp.Hxy2.at e (by omega) (by omega) y
  have m := fun (y c d : ℤ) => mem_rect_mir (N := Nx - 1) (a := 1) (c := c) (d := d) (x := x) (x' := x') (y := y) e
  simp only [sub_add_cancel] at m
  simp only [Pml.corrHx, eN, eN', eM, ep, ec, m, pHy1, pHy2, c1, c5, c6, h3.at e (by omega) (by omega)]

theorem mir_corrHy (eN : p.Nx = Nx) (eN' : q.Nx = Nx) (eM : q.Ny = p.Ny) (ep : q.par = p.par) (ec : q.co = p.co)
    (hp : PsiMir Nx r p.psi q.psi) {Ez Db Ez' Db' : Tensor ℝ} {s : ℤ} (h1 : ColMir Nx s Ez Ez') 
    (h3 : HalfSame Nx Db Db') (hs : r ≤ s) (hr : 0 ≤ s) {x x' : ℤ} (e : x + x' = Nx - 2) (b1 : s ≤ x) (b2 : s ≤ x') (y : ℤ) :
    q.corrHy Ez' Db' x' y = -p.corrHy Ez Db x y := by
  have c1 := h1.at (x := x + 1) (x' := x') (by omega) (by omega) (by omega) y
  have c2 := h1.at (x := x) (x' := x' + 1) (by omega) (by omega) (by omega) y
  have c7 := (hp.Hyx x y (by omega) (by omega)).1
  have c8 := (hp.Hyx x' y (by omega) (by omega)).2
  have e1 : Nx - 1 - x' = x + 1 := by omega
  have e2 : Nx - 1 - x = x' + 1 := by omega
  simp only [Pml.corrHy, eN, eN', eM, ep, ec, e1, e2, add_sub_cancel_right, pHx1, pHx2, c1, c2, c7, c8, h3.at e (by omega) (by omega)]
  split_ifs <;> ring

theorem mir_afterE (eN : p.Nx = Nx) (eN' : q.Nx = Nx) (eM : q.Ny = p.Ny) (ep : q.par = p.par) (ec : q.co = p.co)
    (hp : PsiMir Nx r p.psi q.psi) {Hx Hy Hx' Hy' : Tensor ℝ} (h1 : ColMir Nx r Hx Hx') (h2 : HalfMir Nx r Hy Hy')
    (hr : 0 ≤ r) : PsiMir Nx (r + 1) (p.afterE Hx Hy).psi (q.afterE Hx' Hy').psi := by
  refine ⟨?_, ?_, hp.Hxy1.mono (by omega), hp.Hxy2.mono (by omega), ?_, hp.Hyx.mono (by omega)⟩
  · intro x y b1 b2
    have e : x + (Nx - 1 - x) = Nx - 1 := by omega
    have m := fun (y c d : ℤ) => mem_rect_mir (N := Nx - 1) (a := 1) (c := c) (d := d) (y := y) e
    simp only [sub_add_cancel] at m
    simp only [Pml.afterE, Tensor.upd_val, eN, eN', ep, ec, m, pEy1, hp.Ezy1.at e (by omega) (by omega), h1.at e (by omega) (by omega)]
  · intro x y b1 b2
    have e : x + (Nx - 1 - x) = Nx - 1 := by omega
    have m := fun (y c d : ℤ) => mem_rect_mir (N := Nx - 1) (a := 1) (c := c) (d := d) (y := y) e
    simp only [sub_add_cancel] at m
    simp only [Pml.afterE, Tensor.upd_val, eN, eN', eM, ep, ec, m, pEy2, hp.Ezy2.at e (by omega) (by omega),
      h1.at e (by omega) (by omega)]
  · intro x y b1 b2
    have k := hp.Ezx x y (by omega) (by omega)
    have c2 := h2.at (x := x - 1) (x' := Nx - 1 - x) (by omega) (by omega) (by omega) y
    have c3 := h2.at (x := x) (x' := Nx - 1 - x - 1) (by omega) (by omega) (by omega) y
    have c4 := h2.at (x := Nx - 1 - x) (x' := x - 1) (by omega) (by omega) (by omega) y
    have c5 := h2.at (x := Nx - 1 - x - 1) (x' := x) (by omega) (by omega) (by omega) y
    simp only [Pml.afterE, Tensor.upd_val, eN, eN', eM, ep, ec, pEx1, pEx2, k.1, k.2, c2, c3, c4, c5]
    constructor <;> split_ifs <;> ring

theorem mir_afterH (eN : p.Nx = Nx) (eN' : q.Nx = Nx) (eM : q.Ny = p.Ny) (ep : q.par = p.par) (ec : q.co = p.co)
    (hp : PsiMir Nx r p.psi q.psi) {Ez Ez' : Tensor ℝ} (h1 : ColMir Nx r Ez Ez') :
    PsiMir Nx r (p.afterH Ez).psi (q.afterH Ez').psi := by
  refine ⟨hp.Ezy1, hp.Ezy2, ?_, ?_, hp.Ezx, ?_⟩
  · intro x y b1 b2
    have e : x + (Nx - 1 - x) = Nx - 1 := by omega
    have m := fun (y c d : ℤ) => mem_rect_mir (N := Nx - 1) (a := 1) (c := c) (d := d) (y := y) e
    simp only [sub_add_cancel] at m
    simp only [Pml.afterH, Tensor.upd_val, eN, eN', ep, ec, m, pHy1, hp.Hxy1.at e (by omega) (by omega), h1.at e (by omega) (by omega)]
  · intro x y b1 b2
    have e : x + (Nx - 1 - x) = Nx - 1 := by omega
    have m := fun (y c d : ℤ) => mem_rect_mir (N := Nx - 1) (a := 1) (c := c) (d := d) (y := y) e
    simp only [sub_add_cancel] at m
    simp only [Pml.afterH, Tensor.upd_val, eN, eN', eM, ep, ec, m, pHy2, hp.Hxy2.at e (by omega) (by omega),
      h1.at e (by omega) (by omega)]
  · intro x y b1 b2
    have k := hp.Hyx x y (by omega) (by omega)
    have c2 := h1.at (x := x) (x' := Nx - 1 - x) (by omega) (by omega) (by omega) y
    have c3 := h1.at (x := x + 1) (x' := Nx - 1 - x - 1) (by omega) (by omega) (by omega) y
    have c4 := h1.at (x := Nx - 1 - x) (x' := x) (by omega) (by omega) (by omega) y
    have c5 := h1.at (x := Nx - 1 - x - 1) (x' := x + 1) (by omega) (by omega) (by omega) y
    simp only [Pml.afterH, Tensor.upd_val, eN, eN', eM, ep, ec, pHx1, pHx2, k.1, k.2, c2, c3, c4, c5]
    constructor <;> split_ifs <;> ring
end

theorem mir_E1 {r : ℤ} {c d : Core ℝ} (hc : c.Std) (hd : d.Std) (h : MirOn r c d) (hr : 0 ≤ r) :
    ColMir c.g.Nx (r + 1) c.E1 d.E1 := by
  have p1 := hc.wf.pml; have p2 := hd.wf.pml
  intro x y b1 b2
  have e : x + (c.g.Nx - 1 - x) = c.g.Nx - 1 := by omega
  have eM : d.pml.Ny = c.pml.Ny := by rw [p1.ny, p2.ny, h.g]
  have eN : d.pml.Nx = c.g.Nx := by rw [p2.nx, h.g]
  have ep : d.pml.par = c.pml.par := by rw [hc.par, hd.par, h.g]
  have m := fun (y c' d : ℤ) => mem_rect_mir (N := c.g.Nx - 1) (a := 1) (c := c') (d := d) (y := y) e
  simp only [sub_add_cancel] at m
  have c1 := fun y => h.f.Hx.at e (by omega) (by omega) y
  have c2 := h.f.Hy.at (x := x - 1) (x' := c.g.Nx - 1 - x) (by omega) (by omega) (by omega) y
  have c3 := h.f.Hy.at (x := x) (x' := c.g.Nx - 1 - x - 1) (by omega) (by omega) (by omega) y
  simp only [Core.E1, Tensor.setv_val, Tensor.upd_val, h.g]
  rw [mir_corrE p1.nx eN eM ep h.co h.psi h.f.Hx h.f.Hy h.tab.Cb hr e (by omega) (by omega) y]
  congr 1
  simp only [m, ezVal, c1, c2, c3, h.f.Ez.at e (by omega) (by omega), h.tab.Ca.at e (by omega) (by omega),
    h.tab.Cb.at e (by omega) (by omega), hc.sc.kedx, hc.sc.kedy, hd.sc.kedx, hd.sc.kedy, h.g]
  split_ifs <;> ring

/-! ## polarizations -/

theorem Spec.ColMir3.at {Nx r : ℤ} {a b : Tensor3 ℝ} (h : ColMir3 Nx r a b) {x x' : ℤ} (e : x + x' = Nx - 1) (h1 : r ≤ x)
    (h2 : r ≤ x') (y : ℤ) : b.val x' y = a.val x y := by
  funext N
  rw [← h x y N h1 (by omega), show Nx - 1 - x = x' by omega]

theorem mem_rect_mir0 {N c d x x' y : ℤ} (e : x + x' = N - 1) : ((x', y) ∈ rect 0 N c d) ↔ ((x, y) ∈ rect 0 N c d) := by
  simp only [mem_rect]; omega

theorem mir_debye {g : Grid ℝ} {r : ℤ} (hr : 0 ≤ r) {P Q : DebyePol ℝ} (hP : P.WF g.Nx g.Ny) (hQ : Q.WF g.Nx g.Ny)
    (h : DebyeMir g.Nx r P Q) {pE pE' E E' : Tensor ℝ} (hp : pE.Dim g.Nx g.Ny) (hp' : pE'.Dim g.Nx g.Ny) (hE : E.Dim g.Nx g.Ny)
    (hE' : E'.Dim g.Nx g.Ny) (m1 : ColMir g.Nx r pE pE') (m2 : ColMir g.Nx (r + 1) E E') :
    ∃ P1 F Q1 F', P.updateJ g (some pE) E = .ok (P1, F) ∧ Q.updateJ g (some pE') E' = .ok (Q1, F') ∧ DebyeMir g.Nx (r + 1) P1 Q1 ∧
      ColMir g.Nx (r + 1) F F' ∧ F.Dim g.Nx g.Ny ∧ F'.Dim g.Nx g.Ny := by
  refine ⟨_, _, _, _, DebyePol.updateJ_closed hP hp hE, DebyePol.updateJ_closed hQ hp' hE', ?_, ?_, hE, hE'⟩
  · refine ⟨h.mat, h.beta, fun x y N b1 b2 => ?_⟩
    have e : x + (g.Nx - 1 - x) = g.Nx - 1 := by omega
    have en : Q.np = P.np := by rw [hP.np, hQ.np, h.mat]
    simp only [Tensor3.setv_val, mem_rect_mir0 e, DebyePol.cell, en, h.mat, h.beta.at e (by omega) (by omega),
      h.J.at e (by omega) (by omega), m1.at e (by omega) (by omega), m2.at e (by omega) (by omega)]
  · intro x y b1 b2
    have e : x + (g.Nx - 1 - x) = g.Nx - 1 := by omega
    have en : Q.np = P.np := by rw [hP.np, hQ.np, h.mat]
    simp only [Tensor.setv_val, mem_rect_mir0 e, DebyePol.cell, en, h.mat, h.beta.at e (by omega) (by omega),
      h.J.at e (by omega) (by omega), m1.at e (by omega) (by omega), m2.at e (by omega) (by omega)]

theorem mir_drude {g : Grid ℝ} {r : ℤ} (hr : 0 ≤ r) {P Q : DrudePol ℝ} (hP : P.WF g.Nx g.Ny) (hQ : Q.WF g.Nx g.Ny)
    (h : DrudeMir g.Nx r P Q) {pE pE' E E' : Tensor ℝ} (hp : pE.Dim g.Nx g.Ny) (hp' : pE'.Dim g.Nx g.Ny) (hE : E.Dim g.Nx g.Ny)
    (hE' : E'.Dim g.Nx g.Ny) (m1 : ColMir g.Nx r pE pE') (m2 : ColMir g.Nx (r + 1) E E') :
    ∃ P1 F Q1 F', P.updateJ g (some pE) E = .ok (P1, F) ∧ Q.updateJ g (some pE') E' = .ok (Q1, F') ∧ DrudeMir g.Nx (r + 1) P1 Q1 ∧
      ColMir g.Nx (r + 1) F F' ∧ F.Dim g.Nx g.Ny ∧ F'.Dim g.Nx g.Ny := by
  refine ⟨_, _, _, _, DrudePol.updateJ_closed hP hp hE, DrudePol.updateJ_closed hQ hp' hE', ?_, ?_, hE, hE'⟩
  · refine ⟨h.mat, h.beta, fun x y N b1 b2 => ?_⟩
    have e : x + (g.Nx - 1 - x) = g.Nx - 1 := by omega
    have en : Q.np = P.np := by rw [hP.np, hQ.np, h.mat]
    simp only [Tensor3.setv_val, mem_rect_mir0 e, DrudePol.cell, en, h.mat, h.beta.at e (by omega) (by omega),
      h.J.at e (by omega) (by omega), m1.at e (by omega) (by omega), m2.at e (by omega) (by omega)]
  · intro x y b1 b2
    have e : x + (g.Nx - 1 - x) = g.Nx - 1 := by omega
    have en : Q.np = P.np := by rw [hP.np, hQ.np, h.mat]
    simp only [Tensor.setv_val, mem_rect_mir0 e, DrudePol.cell, en, h.mat, h.beta.at e (by omega) (by omega),
      h.J.at e (by omega) (by omega), m1.at e (by omega) (by omega), m2.at e (by omega) (by omega)]

theorem mir_lorentz {g : Grid ℝ} {r : ℤ} (hr : 0 ≤ r) {P Q : LorentzPol ℝ} (hP : P.WF g.Nx g.Ny) (hQ : Q.WF g.Nx g.Ny)
    (h : LorentzMir g.Nx r P Q) {pE pE' E E' : Tensor ℝ} (hp : pE.Dim g.Nx g.Ny) (hp' : pE'.Dim g.Nx g.Ny) (hE : E.Dim g.Nx g.Ny)
    (hE' : E'.Dim g.Nx g.Ny) (m1 : ColMir g.Nx r pE pE') (m2 : ColMir g.Nx (r + 1) E E') :
    ∃ P1 F Q1 F', P.updateJ g (some pE) E = .ok (P1, F) ∧ Q.updateJ g (some pE') E' = .ok (Q1, F') ∧ LorentzMir g.Nx (r + 1) P1 Q1 ∧
      ColMir g.Nx (r + 1) F F' ∧ F.Dim g.Nx g.Ny ∧ F'.Dim g.Nx g.Ny := by
  refine ⟨_, _, _, _, LorentzPol.updateJ_closed hP hp hE, LorentzPol.updateJ_closed hQ hp' hE', ?_, ?_, hE, hE'⟩
  · refine ⟨h.mat, h.delta, fun x y N b1 b2 => ?_, fun x y N b1 b2 => ?_⟩ <;>
    · have e : x + (g.Nx - 1 - x) = g.Nx - 1 := by omega
      have en : Q.np = P.np := by rw [hP.np, hQ.np, h.mat]
      simp only [Tensor3.setv_val, mem_rect_mir0 e, LorentzPol.cell, en, h.mat, h.delta.at e (by omega) (by omega),
        h.J.at e (by omega) (by omega), h.prevJ.at e (by omega) (by omega), m1.at e (by omega) (by omega),
        m2.at e (by omega) (by omega)]
  · intro x y b1 b2
    have e : x + (g.Nx - 1 - x) = g.Nx - 1 := by omega
    have en : Q.np = P.np := by rw [hP.np, hQ.np, h.mat]
    simp only [Tensor.setv_val, mem_rect_mir0 e, LorentzPol.cell, en, h.mat, h.delta.at e (by omega) (by omega),
      h.J.at e (by omega) (by omega), h.prevJ.at e (by omega) (by omega), m1.at e (by omega) (by omega),
      m2.at e (by omega) (by omega)]

theorem mapUpdateJ_mir {α : Type} {Nx Ny r : ℤ} (u v : α → Tensor ℝ → M (α × Tensor ℝ)) (W : α → Prop) (R R' : α → α → Prop)
    (h : ∀ P Q E F, W P → W Q → R P Q → E.Dim Nx Ny → F.Dim Nx Ny → ColMir Nx r E F → ∃ P' E' Q' F', u P E = .ok (P', E') ∧
      v Q F = .ok (Q', F') ∧ R' P' Q' ∧ ColMir Nx r E' F' ∧ E'.Dim Nx Ny ∧ F'.Dim Nx Ny) :
    ∀ {l m : List (String × α)}, List.Forall₂ (fun p q => R p.2 q.2) l m → (∀ p ∈ l, W p.2) → (∀ p ∈ m, W p.2) →
      ∀ {E F : Tensor ℝ}, E.Dim Nx Ny → F.Dim Nx Ny → ColMir Nx r E F → ∀ {l' m' : List (String × α)} {E' F' : Tensor ℝ},
      mapUpdateJ u l E = .ok (l', E') → mapUpdateJ v m F = .ok (m', F') →
      List.Forall₂ (fun p q => R' p.2 q.2) l' m' ∧ ColMir Nx r E' F' := by
  intro l m hlm
  induction hlm with
  | nil =>
    intro _ _ E F _ _ hE l' m' E' F' h1 h2
    cases h1; cases h2
    exact ⟨.nil, hE⟩
  | @cons a b l m hab _ ih =>
    intro W1 W2 E F dE dF hE l' m' E' F' h1 h2
    obtain ⟨n1, P⟩ := a
    obtain ⟨n2, Q⟩ := b
    obtain ⟨P', E1, Q', F1, q1, q2, q3, q4, q5, q6⟩ := h P Q E F (W1 (n1, P) (by simp)) (W2 (n2, Q) (by simp)) hab dE dF hE
    unfold mapUpdateJ at h1 h2
    rw [q1] at h1; rw [q2] at h2
    simp only [Except.ok_bind, Except.bind_ok, Except.pure_eq] at h1 h2
    obtain ⟨⟨r1, G1⟩, s1, t1⟩ := h1
    obtain ⟨⟨r2, G2⟩, s2, t2⟩ := h2
    cases t1; cases t2
    obtain ⟨o1, o2⟩ := ih (fun q hq => W1 q (by simp [hq])) (fun q hq => W2 q (by simp [hq])) q5 q6 q4 s1 s2
    exact ⟨.cons q3 o1, o2⟩

/-! ## sources -/

theorem totalContrib_mir {g : Grid ℝ} {l l' : List (Source ℝ)} (h : List.Forall₂ (SrcMir g) l l') (t : ℝ) {C : Fields}
    (hC : C.IsComp) (i j : ℤ) :
    totalContrib g t l' C ⟨mirCol g.Nx C i, j⟩ = mirSign C * totalContrib g t l C ⟨i, j⟩ := by
  induction h with
  | nil => simp [totalContrib]
  | @cons s s' l l' h1 _ ih =>
    simp only [totalContrib, List.map_cons, List.sum_cons] at ih ⊢
    rw [ih, mul_add]
    congr 1
    unfold Spec.contrib
    by_cases hd : Drives g s C ⟨i, j⟩
    · rw [if_pos hd, if_pos ((h1.drives C i j hC).mpr hd), h1.signal C _ hd t]
    · rw [if_neg hd, if_neg (fun k => hd ((h1.drives C i j hC).mp k)), mul_zero]

theorem Spec.SrcMir.of_same {g : Grid ℝ} {s s' k k' : Source ℝ} (h : SrcMir g s s') (h1 : SameSrc s k) (h2 : SameSrc s' k') :
    SrcMir g k k' := by
  obtain ⟨a1, -, a2⟩ := h1
  obtain ⟨b1, -, b2⟩ := h2
  refine ⟨fun C i j hC => ?_, fun C p hd t => ?_⟩
  · have := h.drives C i j hC
    unfold Drives at this ⊢
    rw [a1, b1]; exact this
  · rw [a2, b2]
    refine h.signal C p ?_ t
    unfold Drives at hd ⊢
    rwa [a1] at hd

theorem srcMir_forall {g : Grid ℝ} {l l' : List (Source ℝ)} (h : List.Forall₂ (SrcMir g) l l') :
    ∀ {k k' : List (Source ℝ)}, List.Forall₂ SameSrc l k → List.Forall₂ SameSrc l' k' → List.Forall₂ (SrcMir g) k k' := by
  induction h with
  | nil => intro k k' h1 h2; cases h1; cases h2; exact .nil
  | cons h1 _ ih =>
    intro k k' h2 h3
    cases h2 with | cons a b =>
    cases h3 with | cons c d =>
    exact .cons (h1.of_same a c) (ih b d)

/-! ## a step -/

theorem mir_update {r : ℤ} (hr : 0 ≤ r) {c d : Core ℝ} (hc : c.Std) (hd : d.Std) (h : MirOn r c d) {l l' : List (Source ℝ)}
    (hl : List.Forall₂ (SrcMir c.g) l l') (hs : ∀ s ∈ l, Fits c.g s) (hs' : ∀ s ∈ l', Fits c.g s) :
    ∃ c' d' k k', c.update l = .ok (c', k) ∧ d.update l' = .ok (d', k') ∧ c'.Std ∧ d'.Std ∧ c'.g = c.g ∧ MirOn (r + 1) c' d' ∧
      List.Forall₂ (SrcMir c'.g) k k' ∧ (∀ s ∈ k, Fits c'.g s) ∧ (∀ s ∈ k', Fits c'.g s) := by
  have hg : d.g = c.g := h.g
  obtain ⟨c', k, E2, E3, E4, f, hu, S⟩ := Core.update_step hc l hs
  obtain ⟨d', k', F2, F3, F4, f', hv, R⟩ := Core.update_step hd l' (by rw [hg]; exact hs')
  have tf1 : c'.tfsf = none := by have := S.tf; rw [h.tf.1] at this; exact (Except.ok.inj this).symm
  have tf2 : d'.tfsf = none := by have := R.tf; rw [h.tf.2] at this; exact (Except.ok.inj this).symm
  have p1 := hc.wf.pml; have p2 := hd.wf.pml
  have eM : d.pml.Ny = c.pml.Ny := by rw [p1.ny, p2.ny, hg]
  have eN : d.pml.Nx = c.g.Nx := by rw [p2.nx, hg]
  have ep : d.pml.par = c.pml.par := by rw [hc.par, hd.par, hg]
  have m1 := mir_E1 hc hd h hr
  have R1 := R.hd; have R2 := R.hr; have R3 := R.hl
  have D2 := R.d2; have D3 := R.d3; have D4 := R.d4
  rw [hg] at R1 R2 R3 D2 D3 D4
  have W1 := hd.wf.debye; have W2 := hd.wf.drude; have W3 := hd.wf.lorentz; have W4 := hd.wf.f
  have W5 := hd.wf.prevE
  rw [hg] at W1 W2 W3 W4 W5
  have w1E : c.E1.Dim c.g.Nx c.g.Ny := hc.wf.f.Ez
  have w2E : d.E1.Dim c.g.Nx c.g.Ny := W4.Ez
  obtain ⟨q1, m2⟩ := mapUpdateJ_mir _ _ (fun P : DebyePol ℝ => P.WF c.g.Nx c.g.Ny) (DebyeMir c.g.Nx r) (DebyeMir c.g.Nx (r + 1))
    (fun P Q E F hP hQ hR dE dF hE => mir_debye hr hP hQ hR hc.wf.f.Ez W4.Ez dE dF h.f.Ez hE) h.debye hc.wf.debye W1 w1E w2E m1 S.hd R1
  obtain ⟨q2, m3⟩ := mapUpdateJ_mir _ _ (fun P : DrudePol ℝ => P.WF c.g.Nx c.g.Ny) (DrudeMir c.g.Nx r) (DrudeMir c.g.Nx (r + 1))
    (fun P Q E F hP hQ hR dE dF hE => mir_drude hr hP hQ hR hc.wf.f.Ez W4.Ez dE dF h.f.Ez hE) h.drude hc.wf.drude W2 S.d2 D2 m2 S.hr R2
  obtain ⟨q3, m4⟩ : List.Forall₂ (fun p q => LorentzMir c.g.Nx (r + 1) p.2 q.2) c'.lorentz d'.lorentz ∧ ColMir c.g.Nx (r + 1) E4 F4 := by
    have S3 := S.hl
    rcases h.prevE with ⟨ea, eb⟩ | ⟨x, y, ea, eb, hxy⟩
    · have n1 : c.lorentz = [] := by
        by_contra hn
        have := hc.wf.hasE (Or.inr (Or.inr hn))
        rw [ea] at this; cases this
      have n2 : d.lorentz = [] := by
        by_contra hn
        have := hd.wf.hasE (Or.inr (Or.inr hn))
        rw [eb] at this; cases this
      rw [n1] at S3; rw [n2] at R3
      obtain ⟨a1, a2⟩ := Prod.mk.inj (Except.ok.inj S3)
      obtain ⟨b1, b2⟩ := Prod.mk.inj (Except.ok.inj R3)
      rw [← a1, ← a2, ← b1, ← b2]
      exact ⟨.nil, m3⟩
    · rw [ea] at S3; rw [eb] at R3
      exact mapUpdateJ_mir _ _ (fun P : LorentzPol ℝ => P.WF c.g.Nx c.g.Ny) (LorentzMir c.g.Nx r) (LorentzMir c.g.Nx (r + 1))
        (fun P Q E F hP hQ hR dE dF hE => mir_lorentz hr hP hQ hR (hc.wf.prevE x ea) (W5 y eb) dE dF hxy hE) h.lorentz hc.wf.lorentz
        W3 S.d3 D3 m3 S3 R3
  have tc := fun (C : Fields) (hC : C.IsComp) (i j : ℤ) => totalContrib_mir hl (c.t + c.g.dt) hC i j
  have fE : ColMir c.g.Nx (r + 1) f.Ez f'.Ez := by
    intro i j b1 b2
    have a := R.fE (c.g.Nx - 1 - i) j
    have b := S.fE i j
    have k := tc .Ez (Or.inl rfl) i j
    simp only [mirCol, mirSign, one_mul] at k
    rw [a, b, m4 i j b1 b2, hg, h.t, k, h.tf.1, h.tf.2]; rfl
  have fX : ColMir c.g.Nx r f.Hx f'.Hx := by
    intro i j b1 b2
    have a := R.fX (c.g.Nx - 1 - i) j
    have b := S.fX i j
    have k := tc .Hx (Or.inr (Or.inl rfl)) i j
    simp only [mirCol, mirSign, one_mul] at k
    rw [a, b, hg, h.t, k, h.f.Hx i j b1 b2]
  have fY : HalfMir c.g.Nx r f.Hy f'.Hy := by
    intro i j b1 b2
    have a := R.fY (c.g.Nx - 2 - i) j
    have b := S.fY i j
    have k := tc .Hy (Or.inr (Or.inr rfl)) i j
    simp only [mirCol, mirSign] at k
    rw [a, b, hg, h.t, k, h.f.Hy i j b1 b2]; ring
  obtain ⟨s1, s2, s3, s4⟩ := S.coef
  obtain ⟨t1, t2, t3, t4⟩ := R.coef
  obtain ⟨u1, u2, u3, u4⟩ := S.coef'
  obtain ⟨v1, v2, v3, v4⟩ := R.coef'
  have dA := h.tab.Da; have dB := h.tab.Db; have dAh := h.tab.DaH; have dBh := h.tab.DbH
  rw [← s3, ← t3] at dA dAh
  rw [← s4, ← t4] at dB dBh
  have pE := mir_afterE p1.nx eN eM ep h.co h.psi h.f.Hx h.f.Hy hr
  have n1 : (c.pml.afterE c.f.Hx c.f.Hy).Nx = c.g.Nx := p1.nx
  have n2 : (d.pml.afterE d.f.Hx d.f.Hy).Nx = c.g.Nx := eN
  have gX : ColMir c.g.Nx (r + 1) c'.f.Hx d'.f.Hx := by
    intro x y b1 b2
    have e : x + (c.g.Nx - 1 - x) = c.g.Nx - 1 := by omega
    have m := fun (y c' d : ℤ) => mem_rect_mir (N := c.g.Nx - 1) (a := 1) (c := c') (d := d) (y := y) e
    simp only [sub_add_cancel] at m
    rw [R.eX, S.eX, mir_corrHx n1 n2 eM ep h.co pE fE dB le_rfl (by omega) e (by omega) (by omega) y, tf1, tf2]
    simp only [tfHx, Tensor.upd_val, hg, m, hxVal, fE.at e (by omega) (by omega), fX.at e (by omega) (by omega),
      dA.at e (by omega) (by omega), dB.at e (by omega) (by omega), hc.sc.khdy, hd.sc.khdy]
  have gY : HalfMir c.g.Nx (r + 1) c'.f.Hy d'.f.Hy := by
    intro x y b1 b2
    have e : x + (c.g.Nx - 2 - x) = c.g.Nx - 2 := by omega
    have c2 := fE.at (x := x) (x' := c.g.Nx - 2 - x + 1) (by omega) (by omega) (by omega) y
    have c3 := fE.at (x := x + 1) (x' := c.g.Nx - 2 - x) (by omega) (by omega) (by omega) y
    have m : ((c.g.Nx - 2 - x, y) ∈ rect 1 (c.g.Nx - 1) 1 (c.g.Ny - 1)) ↔ ((x, y) ∈ rect 1 (c.g.Nx - 1) 1 (c.g.Ny - 1)) := by
      simp only [mem_rect]; omega
    rw [R.eY, S.eY, mir_corrHy n1 n2 eM ep h.co pE fE dBh le_rfl (by omega) e (by omega) (by omega) y, tf1, tf2]
    simp only [tfHy, Tensor.upd_val, hg, m, hyVal, c2, c3, fY.at e (by omega) (by omega),
      dAh.at e (by omega) (by omega), dBh.at e (by omega) (by omega), hc.sc.khdx, hd.sc.khdx]
    split_ifs <;> ring
  have pH := mir_afterH n1 n2 eM ep h.co pE fE
  refine ⟨c', d', k, k', hu, hv, S.std, R.std, S.g, ?_, ?_, S.fits, ?_⟩
  · exact {
      g := by rw [S.g, R.g, hg]
      t := by rw [S.t, R.t, hg, h.t]
      co := by rw [S.pml, R.pml]; exact h.co
      tf := ⟨tf1, tf2⟩
      f := by rw [S.g]; exact ⟨by rw [S.eE, R.eE]; exact fE, gX, gY⟩
      tab := by
        rw [S.g]
        exact ⟨by rw [u1, v1]; exact h.tab.Ca, by rw [u2, v2]; exact h.tab.Cb, by rw [u3, v3]; exact h.tab.Da, by rw [u4, v4]; exact h.tab.Db,
          by rw [u3, v3]; exact h.tab.DaH, by rw [u4, v4]; exact h.tab.DbH⟩
      psi := by rw [S.g, S.pml, R.pml]; exact pH
      prevE := by
        rw [S.g, S.prevE, R.prevE]
        rcases h.prevE with ⟨ea, eb⟩ | ⟨x, y, ea, eb, hxy⟩
        · rw [ea, eb]; exact Or.inl ⟨rfl, rfl⟩
        · rw [ea, eb]; exact Or.inr ⟨_, _, rfl, rfl, h.f.Ez.mono (by omega)⟩
      debye := by rw [S.g]; exact q1
      drude := by rw [S.g]; exact q2
      lorentz := by rw [S.g]; exact q3 }
  · rw [S.g]; exact srcMir_forall hl S.same R.same
  · have := R.fits; rw [R.g, hg] at this; rw [S.g]; exact this

end Qbox
