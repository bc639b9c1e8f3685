import Verif.Lemmas.StepReal
import Verif.Spec.SwapSpec

/-! # Every stage of a step commutes with the exchange of the axes -/

namespace Qbox
open Scalar Spec Props

set_option linter.unusedSectionVars false
set_option linter.unusedSimpArgs false

theorem mem_rect_swap {a b c d x y : ℤ} : ((x, y) ∈ rect a b c d) ↔ ((y, x) ∈ rect c d a b) := by
  simp only [mem_rect]; omega

@[simp] theorem tr_nx {K : Type} (a : Tensor K) : (tr a).nx = a.ny := rfl
@[simp] theorem tr_ny {K : Type} (a : Tensor K) : (tr a).ny = a.nx := rfl
@[simp] theorem tr_val {K : Type} (a : Tensor K) (i j : ℤ) : (tr a).val i j = a.val j i := rfl
@[simp] theorem trn_nx (a : Tensor ℝ) : (trn a).nx = a.ny := rfl
@[simp] theorem trn_ny (a : Tensor ℝ) : (trn a).ny = a.nx := rfl
@[simp] theorem trn_val (a : Tensor ℝ) (i j : ℤ) : (trn a).val i j = -a.val j i := rfl
@[simp] theorem tr3_val {K : Type} (a : Tensor3 K) (i j N : ℤ) : (tr3 a).val i j N = a.val j i N := rfl

theorem tr_dim {K : Type} {a : Tensor K} {n m : ℤ} (h : a.Dim n m) : (tr a).Dim m n := ⟨h.2, h.1⟩
theorem trn_dim {a : Tensor ℝ} {n m : ℤ} (h : a.Dim n m) : (trn a).Dim m n := ⟨h.2, h.1⟩
theorem tr3_dim {K : Type} {a : Tensor3 K} {n m k : ℤ} (h : a.Dim n m k) : (tr3 a).Dim m n k := ⟨h.2.1, h.1, h.2.2⟩

theorem swap_corrE (p : Pml ℝ) (Hx Hy Cb : Tensor ℝ) (x y : ℤ) :
    (swapPml p).corrE (trn Hy) (trn Hx) (tr Cb) x y = p.corrE Hx Hy Cb y x := by
  simp only [Pml.corrE, swapPml, swapCoef, swapPsi, pEy1, pEy2, pEx1, pEx2, trn_val, tr_val]
  simp only [mem_rect_swap (x := x) (y := y), mem_rect_swap (x := x) (y := p.Nx - 1 - y), mem_rect_swap (x := x) (y := y),
    mem_rect_swap (x := p.Ny - 1 - x) (y := y)]
  split_ifs <;> ring

theorem swap_corrHx (p : Pml ℝ) (Ez Db : Tensor ℝ) (x y : ℤ) :
    (swapPml p).corrHx (tr Ez) (tr Db) x y = -p.corrHy Ez Db y x := by
  simp only [Pml.corrHx, Pml.corrHy, swapPml, swapCoef, swapPsi, pHy1, pHy2, pHx1, pHx2, trn_val, tr_val]
  simp only [mem_rect_swap (x := x) (y := y), mem_rect_swap (x := x) (y := p.Nx - 1 - y - 1)]
  split_ifs <;> ring

theorem swap_corrHy (p : Pml ℝ) (Ez Db : Tensor ℝ) (x y : ℤ) :
    (swapPml p).corrHy (tr Ez) (tr Db) x y = -p.corrHx Ez Db y x := by
  simp only [Pml.corrHx, Pml.corrHy, swapPml, swapCoef, swapPsi, pHy1, pHy2, pHx1, pHx2, trn_val, tr_val]
  simp only [mem_rect_swap (x := x) (y := y), mem_rect_swap (x := p.Ny - 1 - x - 1) (y := y)]
  split_ifs <;> ring

theorem swap_afterE (p : Pml ℝ) (Hx Hy : Tensor ℝ) :
    (swapPml p).afterE (trn Hy) (trn Hx) = swapPml (p.afterE Hx Hy) := by
  have e : ∀ a b : PmlPsi ℝ, a.Ezx1 = b.Ezx1 → a.Ezx2 = b.Ezx2 → a.Hyx1 = b.Hyx1 → a.Hyx2 = b.Hyx2 → a.Ezy1 = b.Ezy1 →
      a.Ezy2 = b.Ezy2 → a.Hxy1 = b.Hxy1 → a.Hxy2 = b.Hxy2 → a = b := by
    rintro ⟨⟩ ⟨⟩ h1 h2 h3 h4 h5 h6 h7 h8
    simp only at h1 h2 h3 h4 h5 h6 h7 h8
    subst h1 h2 h3 h4 h5 h6 h7 h8; rfl
  have : ((swapPml p).afterE (trn Hy) (trn Hx)).psi = swapPsi (p.afterE Hx Hy).psi := by
    apply e <;> first | rfl | skip
    all_goals
      refine Tensor.ext' rfl rfl fun x y => ?_
      simp only [Pml.afterE, swapPml, swapPsi, swapCoef, Tensor.upd_val, trn_val, tr_val]
      simp only [mem_rect_swap (x := x) (y := y)]
      split_ifs
      · simp only [pEy1, pEy2, pEx1, pEx2, trn_val]; ring
      · rfl
  exact congrArg (fun q => (⟨p.Ny, p.Nx, p.par, swapCoef p.co, q⟩ : Pml ℝ)) this

theorem swap_afterH (p : Pml ℝ) (Ez : Tensor ℝ) :
    (swapPml p).afterH (tr Ez) = swapPml (p.afterH Ez) := by
  have e : ∀ a b : PmlPsi ℝ, a.Ezx1 = b.Ezx1 → a.Ezx2 = b.Ezx2 → a.Hyx1 = b.Hyx1 → a.Hyx2 = b.Hyx2 → a.Ezy1 = b.Ezy1 →
      a.Ezy2 = b.Ezy2 → a.Hxy1 = b.Hxy1 → a.Hxy2 = b.Hxy2 → a = b := by
    rintro ⟨⟩ ⟨⟩ h1 h2 h3 h4 h5 h6 h7 h8
    simp only at h1 h2 h3 h4 h5 h6 h7 h8
    subst h1 h2 h3 h4 h5 h6 h7 h8; rfl
  have : ((swapPml p).afterH (tr Ez)).psi = swapPsi (p.afterH Ez).psi := by
    apply e <;> first | rfl | skip
    all_goals
      refine Tensor.ext' rfl rfl fun x y => ?_
      simp only [Pml.afterH, swapPml, swapPsi, swapCoef, Tensor.upd_val, trn_val, tr_val]
      simp only [mem_rect_swap (x := x) (y := y)]
      split_ifs
      · simp only [pHy1, pHy2, pHx1, pHx2, tr_val]
      · rfl
  exact congrArg (fun q => (⟨p.Ny, p.Nx, p.par, swapCoef p.co, q⟩ : Pml ℝ)) this

theorem swap_E1 (c : Core ℝ) : (swapCore c).E1 = tr c.E1 := by
  refine Tensor.ext' rfl rfl fun x y => ?_
  simp only [Core.E1, Tensor.setv_val, Tensor.upd_val, tr_val]
  have := swap_corrE c.pml c.f.Hx c.f.Hy c.f.Cb x y
  simp only [swapCore, swapFlds, swapGrid, swapScaling, ezVal, tr_val, trn_val]
  simp only [mem_rect_swap (x := x) (y := y)]
  refine congrArg₂ (· + ·) ?_ this
  split_ifs <;> ring

/-! ## polarizations -/

theorem swap_debye {g : Grid ℝ} {P : DebyePol ℝ} (hP : P.WF g.Nx g.Ny) {pE Ez : Tensor ℝ} (hp : pE.Dim g.Nx g.Ny)
    (hE : Ez.Dim g.Nx g.Ny) {P' : DebyePol ℝ} {E' : Tensor ℝ} (h : P.updateJ g (some pE) Ez = .ok (P', E')) :
    (swapDebye P).updateJ (swapGrid g) (some (tr pE)) (tr Ez) = .ok (swapDebye P', tr E') ∧ P'.WF g.Nx g.Ny ∧
      E'.Dim g.Nx g.Ny := by
  have hP' : (swapDebye P).WF (swapGrid g).Nx (swapGrid g).Ny := ⟨hP.np, tr3_dim hP.J, tr3_dim hP.beta⟩
  rw [DebyePol.updateJ_closed hP hp hE] at h
  obtain ⟨rfl, rfl⟩ := Prod.mk.inj (Except.ok.inj h)
  refine ⟨?_, ⟨hP.np, hP.J, hP.beta⟩, hE⟩
  rw [DebyePol.updateJ_closed hP' (tr_dim hp) (tr_dim hE)]
  refine congrArg Except.ok (Prod.ext ?_ (Tensor.ext' rfl rfl fun x y => ?_))
  · refine congrArg (fun J => ({ P with J := J, beta := tr3 P.beta } : DebyePol ℝ)) (Tensor3.ext' rfl rfl rfl fun x y N => ?_)
    simp only [Tensor3.setv_val, tr3_val, swapGrid]
    simp only [mem_rect_swap (x := x) (y := y)]; rfl
  · simp only [Tensor.setv_val, tr_val, swapGrid]
    simp only [mem_rect_swap (x := x) (y := y)]; rfl

theorem swap_drude {g : Grid ℝ} {P : DrudePol ℝ} (hP : P.WF g.Nx g.Ny) {pE Ez : Tensor ℝ} (hp : pE.Dim g.Nx g.Ny)
    (hE : Ez.Dim g.Nx g.Ny) {P' : DrudePol ℝ} {E' : Tensor ℝ} (h : P.updateJ g (some pE) Ez = .ok (P', E')) :
    (swapDrude P).updateJ (swapGrid g) (some (tr pE)) (tr Ez) = .ok (swapDrude P', tr E') ∧ P'.WF g.Nx g.Ny ∧
      E'.Dim g.Nx g.Ny := by
  have hP' : (swapDrude P).WF (swapGrid g).Nx (swapGrid g).Ny := ⟨hP.np, tr3_dim hP.J, tr3_dim hP.beta⟩
  rw [DrudePol.updateJ_closed hP hp hE] at h
  obtain ⟨rfl, rfl⟩ := Prod.mk.inj (Except.ok.inj h)
  refine ⟨?_, ⟨hP.np, hP.J, hP.beta⟩, hE⟩
  rw [DrudePol.updateJ_closed hP' (tr_dim hp) (tr_dim hE)]
  refine congrArg Except.ok (Prod.ext ?_ (Tensor.ext' rfl rfl fun x y => ?_))
  · refine congrArg (fun J => ({ P with J := J, beta := tr3 P.beta } : DrudePol ℝ)) (Tensor3.ext' rfl rfl rfl fun x y N => ?_)
    simp only [Tensor3.setv_val, tr3_val, swapGrid]
    simp only [mem_rect_swap (x := x) (y := y)]; rfl
  · simp only [Tensor.setv_val, tr_val, swapGrid]
    simp only [mem_rect_swap (x := x) (y := y)]; rfl

theorem swap_lorentz {g : Grid ℝ} {P : LorentzPol ℝ} (hP : P.WF g.Nx g.Ny) {pE Ez : Tensor ℝ} (hp : pE.Dim g.Nx g.Ny)
    (hE : Ez.Dim g.Nx g.Ny) {P' : LorentzPol ℝ} {E' : Tensor ℝ} (h : P.updateJ g (some pE) Ez = .ok (P', E')) :
    (swapLorentz P).updateJ (swapGrid g) (some (tr pE)) (tr Ez) = .ok (swapLorentz P', tr E') ∧ P'.WF g.Nx g.Ny ∧
      E'.Dim g.Nx g.Ny := by
  have hP' : (swapLorentz P).WF (swapGrid g).Nx (swapGrid g).Ny := ⟨hP.np, tr3_dim hP.J, tr3_dim hP.delta, tr3_dim hP.prevJ⟩
  rw [LorentzPol.updateJ_closed hP hp hE] at h
  obtain ⟨rfl, rfl⟩ := Prod.mk.inj (Except.ok.inj h)
  refine ⟨?_, ⟨hP.np, hP.J, hP.delta, hP.prevJ⟩, hE⟩
  rw [LorentzPol.updateJ_closed hP' (tr_dim hp) (tr_dim hE)]
  refine congrArg Except.ok (Prod.ext ?_ (Tensor.ext' rfl rfl fun x y => ?_))
  · refine congrArg₂ (fun J J' => ({ P with J := J, delta := tr3 P.delta, prevJ := J' } : LorentzPol ℝ))
      (Tensor3.ext' rfl rfl rfl fun x y N => ?_) (Tensor3.ext' rfl rfl rfl fun x y N => ?_)
    · simp only [Tensor3.setv_val, tr3_val, swapGrid]
      simp only [mem_rect_swap (x := x) (y := y)]; rfl
    · simp only [Tensor3.setv_val, tr3_val, swapGrid]
      simp only [mem_rect_swap (x := x) (y := y)]; rfl
  · simp only [Tensor.setv_val, tr_val, swapGrid]
    simp only [mem_rect_swap (x := x) (y := y)]; rfl

theorem mapUpdateJ_swap {α : Type} (u v : α → Tensor ℝ → M (α × Tensor ℝ)) (W : α → Prop) (D : Tensor ℝ → Prop) (sw : α → α)
    (h : ∀ P E P' E', W P → D E → u P E = .ok (P', E') → v (sw P) (tr E) = .ok (sw P', tr E') ∧ W P' ∧ D E') :
    ∀ (l : List (String × α)) (E : Tensor ℝ) (l' : List (String × α)) (E' : Tensor ℝ), (∀ q ∈ l, W q.2) → D E →
      mapUpdateJ u l E = .ok (l', E') →
      mapUpdateJ v (l.map fun p => (p.1, sw p.2)) (tr E) = .ok (l'.map fun p => (p.1, sw p.2), tr E')
  | [], E, l', E', _, _, h => by cases h; rfl
  | (n, P) :: l, E, l', E', hW, hD, hu => by
    unfold mapUpdateJ at hu
    simp only [Except.bind_ok, Except.pure_eq] at hu
    obtain ⟨⟨P1, E1⟩, h1, ⟨l2, E2⟩, h2, h3⟩ := hu
    cases h3
    obtain ⟨k1, k2, k3⟩ := h P E P1 E1 (hW (n, P) (by simp)) hD h1
    have ih := mapUpdateJ_swap u v W D sw h l E1 l2 E2 (fun q hq => hW q (by simp [hq])) k3 h2
    simp only [List.map_cons]
    unfold mapUpdateJ
    rw [k1]; simp only [Except.ok_bind]
    rw [ih]; rfl

/-! ## sources -/

theorem Spec.SrcSwap.contrib {g : Grid ℝ} {s s' : Source ℝ} (h : SrcSwap g s s') (t : ℝ) {C : Fields} (hC : C.IsComp) (p : V2 ℤ) :
    Spec.contrib (swapGrid g) s' (s'.tp.resp t) (swapComp C) (swapV p) = swapSign C * Spec.contrib g s (s.tp.resp t) C p := by
  unfold Spec.contrib
  by_cases hd : Drives g s C p
  · rw [if_pos hd, if_pos ((h.drives C p hC).mpr hd), h.signal C p hd t]
  · rw [if_neg hd, if_neg (fun k => hd ((h.drives C p hC).mp k)), mul_zero]

theorem totalContrib_swap {g : Grid ℝ} {l l' : List (Source ℝ)} (h : List.Forall₂ (SrcSwap g) l l') (t : ℝ) {C : Fields}
    (hC : C.IsComp) (p : V2 ℤ) :
    totalContrib (swapGrid g) t l' (swapComp C) (swapV p) = swapSign C * totalContrib g t l C p := by
  induction h with
  | nil => simp [totalContrib]
  | cons h1 _ ih =>
    simp only [totalContrib, List.map_cons, List.sum_cons] at ih ⊢
    rw [ih, h1.contrib t hC, mul_add]

theorem Spec.SrcSwap.of_same {g : Grid ℝ} {s s' k k' : Source ℝ} (h : SrcSwap g s s') (h1 : SameSrc s k) (h2 : SameSrc s' k') :
    SrcSwap g k k' := by
  obtain ⟨a1, -, a2⟩ := h1
  obtain ⟨b1, -, b2⟩ := h2
  refine ⟨fun C p hC => ?_, fun C p hd t => ?_⟩
  · have := h.drives C p hC
    unfold Drives at this ⊢
    rw [a1, b1]; exact this
  · rw [a2, b2]
    refine h.signal C p ?_ t
    unfold Drives at hd ⊢
    rwa [a1] at hd

theorem srcSwap_forall {g : Grid ℝ} {l l' : List (Source ℝ)} (h : List.Forall₂ (SrcSwap g) l l') :
    ∀ {k k' : List (Source ℝ)}, List.Forall₂ SameSrc l k → List.Forall₂ SameSrc l' k' → List.Forall₂ (SrcSwap g) k k' := by
  induction h with
  | nil => intro k k' h1 h2; cases h1; cases h2; exact .nil
  | cons h1 _ ih =>
    intro k k' h2 h3
    cases h2 with | cons a b =>
    cases h3 with | cons c d =>
    exact .cons (h1.of_same a c) (ih b d)

/-! ## well-formedness -/

theorem Core.Std.swap {c : Core ℝ} (h : c.Std) : (swapCore c).Std where
  wf := {
    f := ⟨tr_dim h.wf.f.Ez, trn_dim h.wf.f.Hy, trn_dim h.wf.f.Hx, tr_dim h.wf.f.Ca, tr_dim h.wf.f.Cb, tr_dim h.wf.f.Da,
      tr_dim h.wf.f.Db⟩
    sc := ⟨h.wf.sc.kedy, h.wf.sc.khdy, h.wf.sc.kedx, h.wf.sc.khdx⟩
    pml := by
      obtain ⟨a1, a2, a3, b1, b2, b3, b4, b5, b6, b7, b8, c1, c2, c3, c4, c5, c6, c7, c8⟩ := h.wf.pml
      exact ⟨a2, a1, a3, b5, b6, b7, b8, b1, b2, b3, b4, trn_dim c5, trn_dim c6, tr_dim c7, tr_dim c8, trn_dim c1, trn_dim c2,
        tr_dim c3, tr_dim c4⟩
    prevE := by
      intro b hb
      obtain ⟨a, ha, rfl⟩ := Option.map_eq_some_iff.mp (show c.prevE.map tr = some b from hb)
      exact tr_dim (h.wf.prevE a ha)
    prev2E := by
      intro b hb
      obtain ⟨a, ha, rfl⟩ := Option.map_eq_some_iff.mp (show c.prev2E.map tr = some b from hb)
      exact tr_dim (h.wf.prev2E a ha)
    hasE := by
      intro hn
      simp only [swapCore, ne_eq, List.map_eq_nil_iff] at hn
      simpa [swapCore] using h.wf.hasE hn
    has2E := by
      intro hn
      simp only [swapCore, ne_eq, List.map_eq_nil_iff] at hn
      simpa [swapCore] using h.wf.has2E hn
    debye := by
      intro p hp
      simp only [swapCore, List.mem_map] at hp
      obtain ⟨q, hq, rfl⟩ := hp
      have := h.wf.debye q hq
      exact ⟨this.np, tr3_dim this.J, tr3_dim this.beta⟩
    drude := by
      intro p hp
      simp only [swapCore, List.mem_map] at hp
      obtain ⟨q, hq, rfl⟩ := hp
      have := h.wf.drude q hq
      exact ⟨this.np, tr3_dim this.J, tr3_dim this.beta⟩
    lorentz := by
      intro p hp
      simp only [swapCore, List.mem_map] at hp
      obtain ⟨q, hq, rfl⟩ := hp
      have := h.wf.lorentz q hq
      exact ⟨this.np, tr3_dim this.J, tr3_dim this.delta, tr3_dim this.prevJ⟩
    tfsf := by intro w hw; cases hw }
  wide := ⟨h.wide.ny, h.wide.nx⟩
  law := ⟨h.law.dx, h.law.Ly, h.law.Lx, h.law.dt⟩
  thick := h.thick
  sc := ⟨h.sc.kedy, h.sc.khdy, h.sc.kedx, h.sc.khdx⟩
  par := h.par
  co := ⟨h.co.be_y, h.co.ce_y, h.co.bh_y, h.co.ch_y, h.co.be_x, h.co.ce_x, h.co.bh_x, h.co.ch_x⟩

/-- A complete step commutes with the exchange. -/
theorem update_swap {c : Core ℝ} (h : c.Std) (hw : c.tfsf = none) {l l' : List (Source ℝ)} (hl : List.Forall₂ (SrcSwap c.g) l l')
    (hs : ∀ s ∈ l, Fits c.g s) (hs' : ∀ s ∈ l', Fits (swapGrid c.g) s) :
    ∃ c' k k', c.update l = .ok (c', k) ∧ (swapCore c).update l' = .ok (swapCore c', k') ∧ c'.Std ∧ c'.g = c.g ∧ c'.tfsf = none ∧
      List.Forall₂ (SrcSwap c'.g) k k' ∧ (∀ s ∈ k, Fits c'.g s) ∧ (∀ s ∈ k', Fits (swapGrid c'.g) s) := by
  obtain ⟨c', k, E2, E3, E4, f, hu, S⟩ := Core.update_step h l hs
  obtain ⟨d', k', F2, F3, F4, f', hv, R⟩ := Core.update_step h.swap l' hs'
  have tf' : c'.tfsf = none := by have := S.tf; rw [hw] at this; exact (Except.ok.inj this).symm
  have tfd : d'.tfsf = none := by have := R.tf; exact (Except.ok.inj this).symm
  -- polarizations
  have q1 := mapUpdateJ_swap _ (fun P Ez => P.updateJ (swapGrid c.g) (some (tr c.f.Ez)) Ez) (fun P : DebyePol ℝ => P.WF c.g.Nx c.g.Ny)
    (fun E => E.Dim c.g.Nx c.g.Ny) swapDebye (fun P E P' E' hP hE hu => swap_debye hP h.wf.f.Ez hE hu) c.debye c.E1 c'.debye E2 h.wf.debye
    h.wf.f.Ez S.hd
  have r1 := R.hd
  rw [swap_E1] at r1
  obtain ⟨e1, rfl⟩ := Prod.mk.inj (Except.ok.inj (q1.symm.trans r1))
  have q2 := mapUpdateJ_swap _ (fun P Ez => P.updateJ (swapGrid c.g) (some (tr c.f.Ez)) Ez) (fun P : DrudePol ℝ => P.WF c.g.Nx c.g.Ny)
    (fun E => E.Dim c.g.Nx c.g.Ny) swapDrude (fun P E P' E' hP hE hu => swap_drude hP h.wf.f.Ez hE hu) c.drude E2 c'.drude E3 h.wf.drude
    S.d2 S.hr
  obtain ⟨e2, rfl⟩ := Prod.mk.inj (Except.ok.inj (q2.symm.trans R.hr))
  have q3 : mapUpdateJ (fun P Ez => P.updateJ (swapGrid c.g) (c.prevE.map tr) Ez) (c.lorentz.map fun p => (p.1, swapLorentz p.2)) (tr E3)
      = .ok (c'.lorentz.map fun p => (p.1, swapLorentz p.2), tr E4) := by
    by_cases hn : c.lorentz = []
    · have := S.hl
      rw [hn] at this ⊢
      obtain ⟨a1, a2⟩ := Prod.mk.inj (Except.ok.inj this)
      rw [← a1, ← a2]; rfl
    · obtain ⟨b, hb⟩ := Option.isSome_iff_exists.mp (h.wf.hasE (Or.inr (Or.inr hn)))
      have hl := S.hl
      rw [hb] at hl ⊢
      exact mapUpdateJ_swap _ (fun P Ez => P.updateJ (swapGrid c.g) (some (tr b)) Ez) (fun P : LorentzPol ℝ => P.WF c.g.Nx c.g.Ny)
        (fun E => E.Dim c.g.Nx c.g.Ny) swapLorentz (fun P E P' E' hP hE hu => swap_lorentz hP (h.wf.prevE b hb) hE hu) c.lorentz E3
        c'.lorentz E4 h.wf.lorentz S.d3 hl
  obtain ⟨e3, rfl⟩ := Prod.mk.inj (Except.ok.inj (q3.symm.trans R.hl))
  -- fields after the sources
  have tc := fun (C : Fields) (hC : C.IsComp) (x y : ℤ) => totalContrib_swap hl (c.t + c.g.dt) hC (⟨y, x⟩ : V2 ℤ)
  have fEz : f'.Ez = tr f.Ez := by
    refine Tensor.ext' (R.dims.Ez.1.trans S.dims.Ez.2.symm) (R.dims.Ez.2.trans S.dims.Ez.1.symm) fun x y => ?_
    have a1 := R.fE x y
    have a2 := S.fE y x
    have a3 := tc .Ez (Or.inl rfl) x y
    simp only [swapComp, swapSign, one_mul, swapV] at a3
    rw [hw] at a2
    simp only [tfEz] at a1 a2
    rw [tr_val, a1, a2, tr_val, show (swapCore c).tfsf = none from rfl]
    simp only
    rw [show totalContrib (swapCore c).g ((swapCore c).t + (swapCore c).g.dt) l' Fields.Ez ⟨x, y⟩ = _ from a3]
  have fHx : f'.Hx = trn f.Hy := by
    refine Tensor.ext' (R.dims.Hx.1.trans S.dims.Hy.2.symm) (R.dims.Hx.2.trans S.dims.Hy.1.symm) fun x y => ?_
    have a1 := R.fX x y
    have a2 := S.fY y x
    have a3 := tc .Hy (Or.inr (Or.inr rfl)) x y
    simp only [swapComp, swapSign, swapV] at a3
    rw [show totalContrib (swapCore c).g ((swapCore c).t + (swapCore c).g.dt) l' Fields.Hx ⟨x, y⟩ = _ from a3] at a1
    rw [trn_val, a1, a2]
    simp only [swapCore, swapFlds, trn_val]; ring
  have fHy : f'.Hy = trn f.Hx := by
    refine Tensor.ext' (R.dims.Hy.1.trans S.dims.Hx.2.symm) (R.dims.Hy.2.trans S.dims.Hx.1.symm) fun x y => ?_
    have a1 := R.fY x y
    have a2 := S.fX y x
    have a3 := tc .Hx (Or.inr (Or.inl rfl)) x y
    simp only [swapComp, swapSign, swapV] at a3
    rw [show totalContrib (swapCore c).g ((swapCore c).t + (swapCore c).g.dt) l' Fields.Hy ⟨x, y⟩ = _ from a3] at a1
    rw [trn_val, a1, a2]
    simp only [swapCore, swapFlds, trn_val]; ring
  obtain ⟨s1, s2, s3, s4⟩ := S.coef
  obtain ⟨t1, t2, t3, t4⟩ := R.coef
  have fDa : f'.Da = tr f.Da := by rw [t3, s3]; rfl
  have fDb : f'.Db = tr f.Db := by rw [t4, s4]; rfl
  obtain ⟨u1, u2, u3, u4⟩ := S.coef'
  obtain ⟨v1, v2, v3, v4⟩ := R.coef'
  have eP : (swapCore c).pml.afterE (swapCore c).f.Hx (swapCore c).f.Hy = swapPml (c.pml.afterE c.f.Hx c.f.Hy) :=
    swap_afterE c.pml c.f.Hx c.f.Hy
  have key : d' = swapCore c' := by
    have gEz : d'.f.Ez = tr c'.f.Ez := by rw [R.eE, S.eE, fEz]
    have gHx : d'.f.Hx = trn c'.f.Hy := by
      refine Tensor.ext' (R.std.wf.f.Hx.1.trans ?_) (R.std.wf.f.Hx.2.trans ?_) fun x y => ?_
      · rw [R.g]; exact (S.std.wf.f.Hy.2.trans (by rw [S.g]; rfl)).symm
      · rw [R.g]; exact (S.std.wf.f.Hy.1.trans (by rw [S.g]; rfl)).symm
      · rw [R.eX x y, trn_val, S.eY y x, eP, fEz, fDb, swap_corrHx, tfd, tf']
        simp only [tfHx, tfHy, Tensor.upd_val, hxVal, hyVal, fEz, fHx, fHy, fDa, fDb, tr_val, trn_val]
        simp only [swapCore, swapGrid, swapScaling]
        simp only [mem_rect_swap (x := x) (y := y)]
        split_ifs <;> ring
    have gHy : d'.f.Hy = trn c'.f.Hx := by
      refine Tensor.ext' (R.std.wf.f.Hy.1.trans ?_) (R.std.wf.f.Hy.2.trans ?_) fun x y => ?_
      · rw [R.g]; exact (S.std.wf.f.Hx.2.trans (by rw [S.g]; rfl)).symm
      · rw [R.g]; exact (S.std.wf.f.Hx.1.trans (by rw [S.g]; rfl)).symm
      · rw [R.eY x y, trn_val, S.eX y x, eP, fEz, fDb, swap_corrHy, tfd, tf']
        simp only [tfHx, tfHy, Tensor.upd_val, hxVal, hyVal, fEz, fHx, fHy, fDa, fDb, tr_val, trn_val]
        simp only [swapCore, swapGrid, swapScaling]
        simp only [mem_rect_swap (x := x) (y := y)]
        split_ifs <;> ring
    have gf : d'.f = swapFlds c'.f := by
      have e : ∀ a b : Flds ℝ, a.Ez = b.Ez → a.Hx = b.Hx → a.Hy = b.Hy → a.Ca = b.Ca → a.Cb = b.Cb → a.Da = b.Da → a.Db = b.Db →
          a = b := by
        rintro ⟨⟩ ⟨⟩ h1 h2 h3 h4 h5 h6 h7
        simp only at h1 h2 h3 h4 h5 h6 h7
        subst h1 h2 h3 h4 h5 h6 h7; rfl
      apply e
      · exact gEz
      · exact gHx
      · exact gHy
      · rw [v1]; simp only [swapFlds, u1, swapCore]
      · rw [v2]; simp only [swapFlds, u2, swapCore]
      · rw [v3]; simp only [swapFlds, u3, swapCore]
      · rw [v4]; simp only [swapFlds, u4, swapCore]
    have e : ∀ a b : Core ℝ, a.g = b.g → a.tStep = b.tStep → a.t = b.t → a.f = b.f → a.sc = b.sc → a.pml = b.pml → a.prevE = b.prevE →
        a.prev2E = b.prev2E → a.debye = b.debye → a.drude = b.drude → a.lorentz = b.lorentz → a.tfsf = b.tfsf → a = b := by
      rintro ⟨⟩ ⟨⟩ h1 h2 h3 h4 h5 h6 h7 h8 h9 h10 h11 h12
      simp only at h1 h2 h3 h4 h5 h6 h7 h8 h9 h10 h11 h12
      subst h1 h2 h3 h4 h5 h6 h7 h8 h9 h10 h11 h12; rfl
    have oP : ∀ (o : Option (Tensor ℝ)) (v : Option (Tensor ℝ)), assignIf (o.map tr) (v.map tr) = (assignIf o v).map tr := by
      intro o v; cases o <;> rfl
    apply e
    · rw [R.g]; simp only [swapCore, S.g]
    · rw [R.tStep]; simp only [swapCore, S.tStep]
    · rw [R.t]; simp only [swapCore, S.t, swapGrid]
    · exact gf
    · rw [R.sc]; simp only [swapCore, S.sc]
    · rw [R.pml, eP, fEz, swap_afterH]; simp only [swapCore, S.pml]
    · rw [R.prevE]; exact (oP c.prevE (some c.f.Ez)).trans (by simp only [swapCore, S.prevE])
    · rw [R.prev2E]; exact (oP c.prev2E c.prevE).trans (by simp only [swapCore, S.prev2E])
    · exact e1.symm
    · exact e2.symm
    · exact e3.symm
    · exact tfd
  refine ⟨c', k, k', hu, by rw [hv, key], S.std, S.g, tf', ?_, S.fits, ?_⟩
  · rw [S.g]; exact srcSwap_forall hl S.same R.same
  · have := R.fits; rw [R.g] at this; rw [S.g]; exact this

end Qbox
