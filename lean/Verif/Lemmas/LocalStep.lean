import Verif.Lemmas.Local

/-!
# Locality of `update()`, for any arithmetic
-/

namespace Qbox
open Scalar Spec

set_option linter.unusedSectionVars false
set_option linter.unusedSimpArgs false

variable {K : Type} [Scalar K]

/-! ## Absorbing layer -/

theorem Pml.updateE_local {S S1 : ℤ → ℤ → Prop} (h0 : ∀ i j, S i j → S1 i j) (sx : ∀ i j, S i j → S1 (i - 1) j)
    (sy : ∀ i j, S i j → S1 i (j - 1)) {p q : Pml K} {Nx Ny T : ℤ} (hp : p.WF Nx Ny T) (hq : q.WF Nx Ny T)
    (hx : T + 2 ≤ Nx) (hy : T + 2 ≤ Ny) (hpar : p.par = q.par) (hco : p.co = q.co) (hpsi : PsiAgree S Nx Ny p.psi q.psi)
    {Hx Hy Cb Ez Hx' Hy' Cb' Ez' : Tensor K} (dHx : Hx.Dim Nx Ny) (dHy : Hy.Dim Nx Ny) (dCb : Cb.Dim Nx Ny) (dEz : Ez.Dim Nx Ny)
    (dHx' : Hx'.Dim Nx Ny) (dHy' : Hy'.Dim Nx Ny) (dCb' : Cb'.Dim Nx Ny) (dEz' : Ez'.Dim Nx Ny)
    (aHx : AgreeOn S1 Hx Hx') (aHy : AgreeOn S1 Hy Hy') (aCb : AgreeOn S Cb Cb') (aEz : AgreeOn S Ez Ez') :
    ∃ p' q' E E', p.updateE Hx Hy Cb Ez = .ok (p', E) ∧ q.updateE Hx' Hy' Cb' Ez' = .ok (q', E') ∧ p'.par = p.par ∧ p'.co = p.co ∧
      q'.par = q.par ∧ q'.co = q.co ∧ PsiAgree S Nx Ny p'.psi q'.psi ∧ E.Dim Nx Ny ∧ E'.Dim Nx Ny ∧ AgreeOn S E E' := by
  obtain ⟨s, t, h1, h1', ⟨-, -, d1⟩, ⟨-, -, d1'⟩, r1, r2, r3⟩ := forRange2_rel (Psi2.Rel S (fun i j => (i, Ny - 1 - j)) Nx (T + 1) Nx Ny)
    1 (Nx - 1) 1 (T + 1) _ _
    (fun i j h1 h2 h3 h4 => pmlEyBody_local h0 sy (be := p.co.be_y) (ce := p.co.ce_y) (dx := p.par.dx) hy hp.be_y hp.ce_y dHx dHx' dCb dCb' aHx aCb
      i j h1 h2 h3 h4) ⟨p.psi.Ezy1, p.psi.Ezy2, Ez⟩ ⟨q.psi.Ezy1, q.psi.Ezy2, Ez'⟩
    ⟨⟨hp.Ezy1, hp.Ezy2, dEz⟩, ⟨hq.Ezy1, hq.Ezy2, dEz'⟩, hpsi.Ezy1, hpsi.Ezy2, aEz⟩
  obtain ⟨s', t', h2, h2', ⟨-, -, d2⟩, ⟨-, -, d2'⟩, q1, q2, q3⟩ := forRange2_rel (Psi2.Rel S (fun i j => (Nx - 1 - i, j)) (T + 1) Ny Nx Ny)
    1 (T + 1) 1 (Ny - 1) _ _
    (fun i j h1 h2 h3 h4 => pmlExBody_local h0 sx (be := p.co.be_x) (ce := p.co.ce_x) (dx := p.par.dx) hx hp.be_x hp.ce_x dHy dHy' dCb dCb' aHy aCb
      i j h1 h2 h3 h4) ⟨p.psi.Ezx1, p.psi.Ezx2, s.F⟩ ⟨q.psi.Ezx1, q.psi.Ezx2, t.F⟩
    ⟨⟨hp.Ezx1, hp.Ezx2, d1⟩, ⟨hq.Ezx1, hq.Ezx2, d1'⟩, hpsi.Ezx1, hpsi.Ezx2, r3⟩
  refine ⟨{ p with psi := { p.psi with Ezy1 := s.p1, Ezy2 := s.p2, Ezx1 := s'.p1, Ezx2 := s'.p2 } },
    { q with psi := { q.psi with Ezy1 := t.p1, Ezy2 := t.p2, Ezx1 := t'.p1, Ezx2 := t'.p2 } }, s'.F, t'.F, ?_, ?_, rfl, rfl, rfl, rfl,
    { hpsi with Ezx1 := q1, Ezx2 := q2, Ezy1 := r1, Ezy2 := r2 }, d2, d2', q3⟩
  · unfold Pml.updateE
    simp only [hp.thk, hp.nx, hp.ny]
    rw [h1]; simp only [Except.ok_bind]
    rw [h2]; rfl
  · unfold Pml.updateE
    simp only [hq.thk, hq.nx, hq.ny, ← hco, ← hpar]
    rw [← hp.thk, hpar, hq.thk] at *
    rw [h1']; simp only [Except.ok_bind]
    rw [h2']; rfl

theorem Pml.updateH_local {S S1 : ℤ → ℤ → Prop} (h0 : ∀ i j, S i j → S1 i j) (sx : ∀ i j, S i j → S1 (i + 1) j)
    (sy : ∀ i j, S i j → S1 i (j + 1)) {p q : Pml K} {Nx Ny T : ℤ} (hp : p.WF Nx Ny T) (hq : q.WF Nx Ny T)
    (hx : T + 2 ≤ Nx) (hy : T + 2 ≤ Ny) (hpar : p.par = q.par) (hco : p.co = q.co) (hpsi : PsiAgree S Nx Ny p.psi q.psi)
    {Ez Db Hx Hy Ez' Db' Hx' Hy' : Tensor K} (dEz : Ez.Dim Nx Ny) (dDb : Db.Dim Nx Ny) (dHx : Hx.Dim Nx Ny) (dHy : Hy.Dim Nx Ny)
    (dEz' : Ez'.Dim Nx Ny) (dDb' : Db'.Dim Nx Ny) (dHx' : Hx'.Dim Nx Ny) (dHy' : Hy'.Dim Nx Ny)
    (aEz : AgreeOn S1 Ez Ez') (aDb : AgreeOn S Db Db') (aHx : AgreeOn S Hx Hx') (aHy : AgreeOn S Hy Hy') :
    ∃ p' q' X Y X' Y', p.updateH Ez Db Hx Hy = .ok (p', X, Y) ∧ q.updateH Ez' Db' Hx' Hy' = .ok (q', X', Y') ∧ p'.par = p.par ∧
      p'.co = p.co ∧ q'.par = q.par ∧ q'.co = q.co ∧ PsiAgree S Nx Ny p'.psi q'.psi ∧ (X.Dim Nx Ny ∧ Y.Dim Nx Ny) ∧
      (X'.Dim Nx Ny ∧ Y'.Dim Nx Ny) ∧ AgreeOn S X X' ∧ AgreeOn S Y Y' := by
  obtain ⟨s, t, h1, h1', ⟨-, -, d1⟩, ⟨-, -, d1'⟩, r1, r2, r3⟩ := forRange2_rel (Psi2.Rel S (fun i j => (i, Ny - 1 - j - 1)) Nx (T + 1) Nx Ny)
    1 (Nx - 1) 1 (T - 1 + 1) _ _
    (fun i j h1 h2 h3 h4 => pmlHyBody_local h0 sy (bh := p.co.bh_y) (ch := p.co.ch_y) (dx := p.par.dx) hy hp.bh_y hp.ch_y dEz dEz' dDb dDb' aEz aDb
      i j h1 h2 h3 (by omega)) ⟨p.psi.Hxy1, p.psi.Hxy2, Hx⟩ ⟨q.psi.Hxy1, q.psi.Hxy2, Hx'⟩
    ⟨⟨hp.Hxy1, hp.Hxy2, dHx⟩, ⟨hq.Hxy1, hq.Hxy2, dHx'⟩, hpsi.Hxy1, hpsi.Hxy2, aHx⟩
  obtain ⟨s', t', h2, h2', ⟨-, -, d2⟩, ⟨-, -, d2'⟩, q1, q2, q3⟩ := forRange2_rel (Psi2.Rel S (fun i j => (Nx - 1 - i - 1, j)) (T + 1) Ny Nx Ny)
    1 (T - 1 + 1) 1 (Ny - 1) _ _
    (fun i j h1 h2 h3 h4 => pmlHxBody_local h0 sx (bh := p.co.bh_x) (ch := p.co.ch_x) (dx := p.par.dx) hx hp.bh_x hp.ch_x dEz dEz' dDb dDb' aEz aDb
      i j h1 (by omega) h3 h4) ⟨p.psi.Hyx1, p.psi.Hyx2, Hy⟩ ⟨q.psi.Hyx1, q.psi.Hyx2, Hy'⟩
    ⟨⟨hp.Hyx1, hp.Hyx2, dHy⟩, ⟨hq.Hyx1, hq.Hyx2, dHy'⟩, hpsi.Hyx1, hpsi.Hyx2, aHy⟩
  refine ⟨{ p with psi := { p.psi with Hxy1 := s.p1, Hxy2 := s.p2, Hyx1 := s'.p1, Hyx2 := s'.p2 } },
    { q with psi := { q.psi with Hxy1 := t.p1, Hxy2 := t.p2, Hyx1 := t'.p1, Hyx2 := t'.p2 } }, s.F, s'.F, t.F, t'.F, ?_, ?_, rfl, rfl, rfl, rfl,
    { hpsi with Hyx1 := q1, Hyx2 := q2, Hxy1 := r1, Hxy2 := r2 }, ⟨d1, d2⟩, ⟨d1', d2'⟩, r3, q3⟩
  · unfold Pml.updateH
    simp only [hp.thk, hp.nx, hp.ny]
    rw [h1]; simp only [Except.ok_bind]
    rw [h2]; rfl
  · unfold Pml.updateH
    simp only [hq.thk, hq.nx, hq.ny, ← hco, ← hpar]
    rw [← hp.thk, hpar, hq.thk] at *
    rw [h1']; simp only [Except.ok_bind]
    rw [h2']; rfl

/-! ## Polarizations -/

theorem mapUpdateJ_local {α : Type} (R : α → α → Prop) (S : ℤ → ℤ → Prop) {n m : ℤ} (u v : α → Tensor K → M (α × Tensor K))
    (h : ∀ P Q E F, R P Q → E.Dim n m → F.Dim n m → AgreeOn S E F → ∃ P' Q' E' F', u P E = .ok (P', E') ∧ v Q F = .ok (Q', F') ∧
      R P' Q' ∧ E'.Dim n m ∧ F'.Dim n m ∧ AgreeOn S E' F') :
    ∀ (l l' : List (String × α)), List.Forall₂ (fun p q => p.1 = q.1 ∧ R p.2 q.2) l l' → ∀ E F : Tensor K, E.Dim n m → F.Dim n m →
      AgreeOn S E F → ∃ k k' E' F', mapUpdateJ u l E = .ok (k, E') ∧ mapUpdateJ v l' F = .ok (k', F') ∧
        List.Forall₂ (fun p q => p.1 = q.1 ∧ R p.2 q.2) k k' ∧ E'.Dim n m ∧ F'.Dim n m ∧ AgreeOn S E' F'
  | _, _, .nil, E, F, dE, dF, a => ⟨[], [], E, F, rfl, rfl, .nil, dE, dF, a⟩
  | (s, P) :: l, (s', Q) :: l', .cons hh ht, E, F, dE, dF, a => by
    obtain ⟨P', Q', E1, F1, h1, h2, h3, h4, h5, h6⟩ := h P Q E F hh.2 dE dF a
    obtain ⟨k, k', E2, F2, g1, g2, g3, g4, g5, g6⟩ := mapUpdateJ_local R S u v h l l' ht E1 F1 h4 h5 h6
    refine ⟨(s, P') :: k, (s', Q') :: k', E2, F2, ?_, ?_, .cons ⟨hh.1, h3⟩ g3, g4, g5, g6⟩
    · unfold mapUpdateJ; rw [h1]; simp only [Except.ok_bind]; rw [g1]; rfl
    · unfold mapUpdateJ; rw [h2]; simp only [Except.ok_bind]; rw [g2]; rfl

theorem forall2_zip_wf {α : Type} {R : α → α → Prop} {A B : α → Prop} :
    ∀ {l l' : List (String × α)}, List.Forall₂ (fun p q => p.1 = q.1 ∧ R p.2 q.2) l l' → (∀ p ∈ l, A p.2) → (∀ p ∈ l', B p.2) →
      List.Forall₂ (fun p q => p.1 = q.1 ∧ (A p.2 ∧ B q.2 ∧ R p.2 q.2)) l l'
  | _, _, .nil, _, _ => .nil
  | _, _, .cons h t, ha, hb => .cons ⟨h.1, ha _ (by simp), hb _ (by simp), h.2⟩
      (forall2_zip_wf t (fun p hp => ha p (by simp [hp])) (fun p hp => hb p (by simp [hp])))

theorem forall2_nil_iff {α β : Type} {R : α → β → Prop} {l : List α} {l' : List β} (h : List.Forall₂ R l l') : l = [] ↔ l' = [] := by
  cases h <;> simp

section
variable {S : ℤ → ℤ → Prop} {g : Grid K} {pE pF E F : Tensor K}

theorem DebyePol.updateJ_local (hp : pE.Dim g.Nx g.Ny) (hq : pF.Dim g.Nx g.Ny) (ap : AgreeOn S pE pF) (P Q : DebyePol K) (E F : Tensor K)
    (h : P.WF g.Nx g.Ny ∧ Q.WF g.Nx g.Ny ∧ DebyeAgree S P Q) (dE : E.Dim g.Nx g.Ny) (dF : F.Dim g.Nx g.Ny) (a : AgreeOn S E F) :
    ∃ P' Q' E' F', P.updateJ g (some pE) E = .ok (P', E') ∧ Q.updateJ g (some pF) F = .ok (Q', F') ∧
      (P'.WF g.Nx g.Ny ∧ Q'.WF g.Nx g.Ny ∧ DebyeAgree S P' Q') ∧ E'.Dim g.Nx g.Ny ∧ F'.Dim g.Nx g.Ny ∧ AgreeOn S E' F' := by
  obtain ⟨hP, hQ, hm, hn, hJ, hb⟩ := h
  have hc : ∀ x y, S x y → P.cell g pE E P.np.toNat x y = Q.cell g pF F Q.np.toNat x y := by
    intro x y hxy
    unfold DebyePol.cell
    rw [hm, hn, ap x y hxy, a x y hxy, funext (hb x y hxy), funext (hJ x y hxy)]
  refine ⟨_, _, _, _, DebyePol.updateJ_closed hP hp dE, DebyePol.updateJ_closed hQ hq dF,
    ⟨⟨hP.np, hP.J, hP.beta⟩, ⟨hQ.np, hQ.J, hQ.beta⟩, ⟨hm, hn, ?_, hb⟩⟩, dE, dF, ?_⟩
  · intro x y hxy N
    simp only [Tensor3.setv_val]
    rw [hc x y hxy, hJ x y hxy]
  · intro x y hxy
    simp only [Tensor.setv_val]
    rw [hc x y hxy, a x y hxy]

theorem DrudePol.updateJ_local (hp : pE.Dim g.Nx g.Ny) (hq : pF.Dim g.Nx g.Ny) (ap : AgreeOn S pE pF) (P Q : DrudePol K) (E F : Tensor K)
    (h : P.WF g.Nx g.Ny ∧ Q.WF g.Nx g.Ny ∧ DrudeAgree S P Q) (dE : E.Dim g.Nx g.Ny) (dF : F.Dim g.Nx g.Ny) (a : AgreeOn S E F) :
    ∃ P' Q' E' F', P.updateJ g (some pE) E = .ok (P', E') ∧ Q.updateJ g (some pF) F = .ok (Q', F') ∧
      (P'.WF g.Nx g.Ny ∧ Q'.WF g.Nx g.Ny ∧ DrudeAgree S P' Q') ∧ E'.Dim g.Nx g.Ny ∧ F'.Dim g.Nx g.Ny ∧ AgreeOn S E' F' := by
  obtain ⟨hP, hQ, hm, hn, hJ, hb⟩ := h
  have hc : ∀ x y, S x y → P.cell g pE E P.np.toNat x y = Q.cell g pF F Q.np.toNat x y := by
    intro x y hxy
    unfold DrudePol.cell
    rw [hm, hn, ap x y hxy, a x y hxy, funext (hb x y hxy), funext (hJ x y hxy)]
  refine ⟨_, _, _, _, DrudePol.updateJ_closed hP hp dE, DrudePol.updateJ_closed hQ hq dF,
    ⟨⟨hP.np, hP.J, hP.beta⟩, ⟨hQ.np, hQ.J, hQ.beta⟩, ⟨hm, hn, ?_, hb⟩⟩, dE, dF, ?_⟩
  · intro x y hxy N
    simp only [Tensor3.setv_val]
    rw [hc x y hxy, hJ x y hxy]
  · intro x y hxy
    simp only [Tensor.setv_val]
    rw [hc x y hxy, a x y hxy]

theorem LorentzPol.updateJ_local (hp : pE.Dim g.Nx g.Ny) (hq : pF.Dim g.Nx g.Ny) (ap : AgreeOn S pE pF) (P Q : LorentzPol K) (E F : Tensor K)
    (h : P.WF g.Nx g.Ny ∧ Q.WF g.Nx g.Ny ∧ LorentzAgree S P Q) (dE : E.Dim g.Nx g.Ny) (dF : F.Dim g.Nx g.Ny) (a : AgreeOn S E F) :
    ∃ P' Q' E' F', P.updateJ g (some pE) E = .ok (P', E') ∧ Q.updateJ g (some pF) F = .ok (Q', F') ∧
      (P'.WF g.Nx g.Ny ∧ Q'.WF g.Nx g.Ny ∧ LorentzAgree S P' Q') ∧ E'.Dim g.Nx g.Ny ∧ F'.Dim g.Nx g.Ny ∧ AgreeOn S E' F' := by
  obtain ⟨hP, hQ, hm, hn, hJ, hK, hb⟩ := h
  have hc : ∀ x y, S x y → P.cell g pE E P.np.toNat x y = Q.cell g pF F Q.np.toNat x y := by
    intro x y hxy
    unfold LorentzPol.cell
    rw [hm, hn, ap x y hxy, a x y hxy, funext (hb x y hxy), funext (hJ x y hxy), funext (hK x y hxy)]
  refine ⟨_, _, _, _, LorentzPol.updateJ_closed hP hp dE, LorentzPol.updateJ_closed hQ hq dF,
    ⟨⟨hP.np, hP.J, hP.delta, hP.prevJ⟩, ⟨hQ.np, hQ.J, hQ.delta, hQ.prevJ⟩, ⟨hm, hn, ?_, ?_, hb⟩⟩, dE, dF, ?_⟩
  · intro x y hxy N
    simp only [Tensor3.setv_val]
    rw [hc x y hxy, hJ x y hxy]
  · intro x y hxy N
    simp only [Tensor3.setv_val]
    rw [hc x y hxy, hK x y hxy]
  · intro x y hxy
    simp only [Tensor.setv_val]
    rw [hc x y hxy, a x y hxy]

end

/-! ## Total-field source -/

/-- Two tensors of the same shape that agree on `S`. -/
def TRel (S : ℤ → ℤ → Prop) (n m : ℤ) (a b : Tensor K) : Prop := a.Dim n m ∧ b.Dim n m ∧ AgreeOn S a b

theorem addTo_local {S : ℤ → ℤ → Prop} {n m : ℤ} {a b : Tensor K} (h : TRel S n m a b) {i j : ℤ} (h1 : 0 ≤ i) (h2 : i < n) (h3 : 0 ≤ j)
    (h4 : j < m) (v : K) : ∃ a' b', a.addTo i j v = .ok a' ∧ b.addTo i j v = .ok b' ∧ TRel S n m a' b' := by
  obtain ⟨⟨a1, a2⟩, ⟨b1, b2⟩, hab⟩ := h
  refine ⟨_, _, Tensor.addTo_in h1 (by omega) h3 (by omega), Tensor.addTo_in h1 (by omega) h3 (by omega), ⟨a1, a2⟩, ⟨b1, b2⟩, ?_⟩
  exact Spec.AgreeOn.setv hab fun h => by rw [hab i j h]

theorem optUpdateD_local {S : ℤ → ℤ → Prop} {Nx Ny : ℤ} {o : Option (Tfsf K)} (ho : ∀ w, o = some w → w.Shape ∧ w.InGrid Nx Ny)
    {E F : Tensor K} (h : TRel S Nx Ny E F) : ∃ E' F', optUpdateD o E = .ok E' ∧ optUpdateD o F = .ok F' ∧ TRel S Nx Ny E' F' := by
  cases o with
  | none => exact ⟨E, F, rfl, rfl, h⟩
  | some w =>
    obtain ⟨⟨w0, w1, w2, w3, w4, w5, w6, -⟩, ⟨g0, g1, g2, g3, g4, g5, g6⟩⟩ := ho w rfl
    show ∃ E' F', w.updateD E = .ok E' ∧ w.updateD F = .ok F' ∧ _
    unfold Tfsf.updateD
    refine forRange_rel (TRel S Nx Ny) _ _ _ _ ?_ E F h
    intro i h1 h2 s t hst
    rw [Arr.rd_in (by omega) (by omega), Arr.rd_in (by omega) (by omega)]
    simp only [Except.ok_bind]
    obtain ⟨s1, t1, q1, q2, q3⟩ := addTo_local hst (show 0 ≤ i by omega) (show i < Nx by omega) (show 0 ≤ w.ja by omega)
      (show w.ja < Ny by omega) (half * w.Hx.val 2)
    rw [q1, q2]; simp only [Except.ok_bind]
    exact addTo_local q3 (by omega) (by omega) (by omega) (by omega) _

theorem optUpdateH_local {SX SY : ℤ → ℤ → Prop} {Nx Ny : ℤ} {o : Option (Tfsf K)} (ho : ∀ w, o = some w → w.Shape ∧ w.InGrid Nx Ny)
    {h h' : HPair K} (hX : TRel SX Nx Ny h.Hx h'.Hx) (hY : TRel SY Nx Ny h.Hy h'.Hy) :
    ∃ r r', optUpdateH o h = .ok r ∧ optUpdateH o h' = .ok r' ∧ TRel SX Nx Ny r.Hx r'.Hx ∧ TRel SY Nx Ny r.Hy r'.Hy := by
  cases o with
  | none => exact ⟨h, h', rfl, rfl, hX, hY⟩
  | some w =>
    obtain ⟨⟨w0, w1, w2, w3, w4, w5, w6, -⟩, ⟨g0, g1, g2, g3, g4, g5, g6⟩⟩ := ho w rfl
    show ∃ r r', w.updateH h = .ok r ∧ w.updateH h' = .ok r' ∧ _
    unfold Tfsf.updateH
    obtain ⟨X, X', a1, a2, a3⟩ := forRange_rel (TRel SX Nx Ny) w.ia (w.ib + 1) (fun i Hx => do
      let Hx ← Hx.addTo i (w.ja - 1) (half * (← w.Ez.rd 3))
      Hx.addTo i w.jb (-half * (← w.Ez.rd (w.Nx - 2)))) (fun i Hx => do
      let Hx ← Hx.addTo i (w.ja - 1) (half * (← w.Ez.rd 3))
      Hx.addTo i w.jb (-half * (← w.Ez.rd (w.Nx - 2)))) (by
        intro i h1 h2 s t hst
        rw [Arr.rd_in (by omega) (by omega), Arr.rd_in (by omega) (by omega)]
        simp only [Except.ok_bind]
        obtain ⟨s1, t1, q1, q2, q3⟩ := addTo_local hst (show 0 ≤ i by omega) (show i < Nx by omega) (show 0 ≤ w.ja - 1 by omega)
          (show w.ja - 1 < Ny by omega) (half * w.Ez.val 3)
        rw [q1, q2]; simp only [Except.ok_bind]
        exact addTo_local q3 (by omega) (by omega) (by omega) (by omega) _) _ _ hX
    obtain ⟨Y, Y', b1, b2, b3⟩ := forRange_rel (TRel SY Nx Ny) w.ja (w.jb + 1) (fun j Hy => do
      let Hy ← Hy.addTo (w.ia - 1) j (-half * (← w.Ez.rd (j - w.ja + 3)))
      Hy.addTo w.ib j (half * (← w.Ez.rd (j - w.ja + 3)))) (fun j Hy => do
      let Hy ← Hy.addTo (w.ia - 1) j (-half * (← w.Ez.rd (j - w.ja + 3)))
      Hy.addTo w.ib j (half * (← w.Ez.rd (j - w.ja + 3)))) (by
        intro j h1 h2 s t hst
        rw [Arr.rd_in (by omega) (by omega)]
        simp only [Except.ok_bind]
        obtain ⟨s1, t1, q1, q2, q3⟩ := addTo_local hst (show 0 ≤ w.ia - 1 by omega) (show w.ia - 1 < Nx by omega) (show 0 ≤ j by omega)
          (show j < Ny by omega) (-half * w.Ez.val (j - w.ja + 3))
        rw [q1, q2]; simp only [Except.ok_bind]
        exact addTo_local q3 (by omega) (by omega) (by omega) (by omega) _) _ _ hY
    rw [a1, a2]; simp only [Except.ok_bind]
    rw [b1, b2]
    exact ⟨_, _, rfl, rfl, a3, b3⟩

/-! ## Stages -/

theorem assignIf_agree {S : ℤ → ℤ → Prop} {o o' v v' : Option (Tensor K)} (ho : OptAgree S o o') (hv : OptAgree S v v') :
    OptAgree S (assignIf o v) (assignIf o' v') := by
  cases o <;> cases o' <;> first | exact ho.elim | trivial | exact hv

theorem Core.stageE_local {S S1 : ℤ → ℤ → Prop} (h0 : ∀ i j, S i j → S1 i j) (sx : ∀ i j, S i j → S1 (i - 1) j)
    (sy : ∀ i j, S i j → S1 i (j - 1)) {c d : Core K} (hc : c.WF) (hd : d.WF) (hg : c.g.Wide) (ha : Agree S1 c d) :
    ∃ c' d', c.stageE = .ok c' ∧ d.stageE = .ok d' ∧ Agree S c' d' := by
  have df : d.f.Dims c.g.Nx c.g.Ny := by rw [ha.g]; exact hd.f
  have dsc : d.sc.Dims c.g.Nx c.g.Ny := by rw [ha.g]; exact hd.sc
  have dpml : d.pml.WF c.g.Nx c.g.Ny c.g.T := by rw [ha.g]; exact hd.pml
  have h1 := ezLoop_closed c.g.Nx c.g.Ny c.f c.sc hc.f hc.sc
  have h1' := ezLoop_closed c.g.Nx c.g.Ny d.f d.sc df dsc
  rw [← ha.sc] at h1'
  have a1 := ezUpd_local h0 sx sy ha.f c.sc (rect 1 (c.g.Nx - 1) 1 (c.g.Ny - 1))
  obtain ⟨p, q, E1, F1, h2, h2', kp1, kp2, kq1, kq2, kpsi, dE1, dF1, a2⟩ := Pml.updateE_local h0 sx sy hc.pml dpml hg.nx hg.ny ha.par ha.co
    (ha.psi.mono h0) hc.f.Hx hc.f.Hy hc.f.Cb (Ez := c.f.Ez.upd (rect 1 (c.g.Nx - 1) 1 (c.g.Ny - 1)) (ezVal c.f c.sc)) hc.f.Ez
    df.Hx df.Hy df.Cb (Ez' := d.f.Ez.upd (rect 1 (c.g.Nx - 1) 1 (c.g.Ny - 1)) (ezVal d.f c.sc)) df.Ez
    ha.f.Hx ha.f.Hy (ha.f.Cb.mono h0) a1
  have hpe : ∀ (l : c.debye ≠ [] ∨ c.drude ≠ [] ∨ c.lorentz ≠ []), assignIf c.prevE (some c.f.Ez) = some c.f.Ez ∧
      assignIf d.prevE (some d.f.Ez) = some d.f.Ez := by
    intro l
    have h := hc.hasE l
    have e := ha.prevE
    cases hp : c.prevE with
    | none => simp [hp] at h
    | some a =>
      cases hq : d.prevE with
      | none => rw [hp, hq] at e; exact e.elim
      | some b => exact ⟨rfl, rfl⟩
  obtain ⟨ld, md, E2, F2, h3, h3', kd, dE2, dF2, a3⟩ : ∃ k k' E' F', mapUpdateJ (fun P Ez => P.updateJ c.g
      (assignIf c.prevE (some c.f.Ez)) Ez) c.debye E1 = .ok (k, E') ∧ mapUpdateJ (fun P Ez => P.updateJ c.g
      (assignIf d.prevE (some d.f.Ez)) Ez) d.debye F1 = .ok (k', F') ∧
      List.Forall₂ (fun p q => p.1 = q.1 ∧ (p.2.WF c.g.Nx c.g.Ny ∧ q.2.WF c.g.Nx c.g.Ny ∧ DebyeAgree S p.2 q.2)) k k' ∧
      E'.Dim c.g.Nx c.g.Ny ∧ F'.Dim c.g.Nx c.g.Ny ∧ AgreeOn S E' F' := by
    have hl := forall2_zip_wf (R := DebyeAgree S) (A := fun P => P.WF c.g.Nx c.g.Ny) (B := fun P => P.WF c.g.Nx c.g.Ny)
      (ha.debye.imp fun _ _ h => ⟨h.1, h.2.mono h0⟩) hc.debye (by rw [ha.g]; exact hd.debye)
    by_cases hn : c.debye = []
    · rw [hn, (forall2_nil_iff ha.debye).mp hn]
      exact ⟨[], [], E1, F1, rfl, rfl, .nil, dE1, dF1, a2⟩
    · rw [(hpe (Or.inl hn)).1, (hpe (Or.inl hn)).2]
      exact mapUpdateJ_local _ S _ _ (DebyePol.updateJ_local hc.f.Ez df.Ez (ha.f.Ez.mono h0)) _ _ hl E1 F1 dE1 dF1 a2
  obtain ⟨lr, mr, E3, F3, h4, h4', kr, dE3, dF3, a4⟩ : ∃ k k' E' F', mapUpdateJ (fun P Ez => P.updateJ c.g
      (assignIf c.prevE (some c.f.Ez)) Ez) c.drude E2 = .ok (k, E') ∧ mapUpdateJ (fun P Ez => P.updateJ c.g
      (assignIf d.prevE (some d.f.Ez)) Ez) d.drude F2 = .ok (k', F') ∧
      List.Forall₂ (fun p q => p.1 = q.1 ∧ (p.2.WF c.g.Nx c.g.Ny ∧ q.2.WF c.g.Nx c.g.Ny ∧ DrudeAgree S p.2 q.2)) k k' ∧
      E'.Dim c.g.Nx c.g.Ny ∧ F'.Dim c.g.Nx c.g.Ny ∧ AgreeOn S E' F' := by
    have hl := forall2_zip_wf (R := DrudeAgree S) (A := fun P => P.WF c.g.Nx c.g.Ny) (B := fun P => P.WF c.g.Nx c.g.Ny)
      (ha.drude.imp fun _ _ h => ⟨h.1, h.2.mono h0⟩) hc.drude (by rw [ha.g]; exact hd.drude)
    by_cases hn : c.drude = []
    · rw [hn, (forall2_nil_iff ha.drude).mp hn]
      exact ⟨[], [], E2, F2, rfl, rfl, .nil, dE2, dF2, a3⟩
    · rw [(hpe (Or.inr (Or.inl hn))).1, (hpe (Or.inr (Or.inl hn))).2]
      exact mapUpdateJ_local _ S _ _ (DrudePol.updateJ_local hc.f.Ez df.Ez (ha.f.Ez.mono h0)) _ _ hl E2 F2 dE2 dF2 a3
  obtain ⟨ll, ml, E4, F4, h5, h5', kl, dE4, dF4, a5⟩ : ∃ k k' E' F', mapUpdateJ (fun P Ez => P.updateJ c.g
      (assignIf c.prev2E c.prevE) Ez) c.lorentz E3 = .ok (k, E') ∧ mapUpdateJ (fun P Ez => P.updateJ c.g
      (assignIf d.prev2E d.prevE) Ez) d.lorentz F3 = .ok (k', F') ∧
      List.Forall₂ (fun p q => p.1 = q.1 ∧ (p.2.WF c.g.Nx c.g.Ny ∧ q.2.WF c.g.Nx c.g.Ny ∧ LorentzAgree S p.2 q.2)) k k' ∧
      E'.Dim c.g.Nx c.g.Ny ∧ F'.Dim c.g.Nx c.g.Ny ∧ AgreeOn S E' F' := by
    have hl := forall2_zip_wf (R := LorentzAgree S) (A := fun P => P.WF c.g.Nx c.g.Ny) (B := fun P => P.WF c.g.Nx c.g.Ny)
      (ha.lorentz.imp fun _ _ h => ⟨h.1, h.2.mono h0⟩) hc.lorentz (by rw [ha.g]; exact hd.lorentz)
    by_cases hn : c.lorentz = []
    · rw [hn, (forall2_nil_iff ha.lorentz).mp hn]
      exact ⟨[], [], E3, F3, rfl, rfl, .nil, dE3, dF3, a4⟩
    · have k1 := hc.has2E hn
      have k2 := hc.hasE (Or.inr (Or.inr hn))
      have e1 := ha.prevE
      have e2 := ha.prev2E
      cases hp : c.prevE with
      | none => simp [hp] at k2
      | some a =>
        cases hq : d.prevE with
        | none => rw [hp, hq] at e1; exact e1.elim
        | some b =>
          cases hr : c.prev2E with
          | none => simp [hr] at k1
          | some x =>
            cases ht : d.prev2E with
            | none => rw [hr, ht] at e2; exact e2.elim
            | some y =>
              rw [hp, hq] at e1
              exact mapUpdateJ_local _ S _ _ (LorentzPol.updateJ_local (hc.prevE a hp) (by rw [ha.g]; exact hd.prevE b hq)
                (Spec.AgreeOn.mono h0 e1)) _ _ hl E3 F3 dE3 dF3 a4
  obtain ⟨E5, F5, h6, h6', dE5, dF5, a6⟩ := optUpdateD_local (S := S) (E := E4) (F := F4) hc.tfsf ⟨dE4, dF4, a5⟩
  refine ⟨{ c with
      tStep := c.tStep + 1, t := c.t + c.g.dt, prevE := assignIf c.prevE (some c.f.Ez),
      prev2E := assignIf c.prev2E c.prevE, f := { c.f with Ez := E5 },
      pml := p, debye := ld, drude := lr, lorentz := ll },
    { d with
      tStep := d.tStep + 1, t := d.t + c.g.dt, prevE := assignIf d.prevE (some d.f.Ez),
      prev2E := assignIf d.prev2E d.prevE, f := { d.f with Ez := F5 },
      pml := q, debye := md, drude := mr, lorentz := ml }, ?_, ?_, ?_⟩
  · unfold Core.stageE
    simp only
    rw [h1]; simp only [Except.ok_bind]
    rw [h2]; simp only [Except.ok_bind]
    rw [h3]; simp only [Except.ok_bind]
    rw [h4]; simp only [Except.ok_bind]
    rw [h5]; simp only [Except.ok_bind]
    rw [h6]; rfl
  · unfold Core.stageE
    simp only [← ha.g, ← ha.sc, ← ha.tfsf]
    rw [h1']; simp only [Except.ok_bind]
    rw [h2']; simp only [Except.ok_bind]
    rw [h3']; simp only [Except.ok_bind]
    rw [h4']; simp only [Except.ok_bind]
    rw [h5']; simp only [Except.ok_bind]
    rw [h6']; rfl
  · have fm := ha.f.mono h0
    exact
    { g := ha.g
      t := by show c.t + c.g.dt = d.t + c.g.dt; rw [ha.t]
      sc := ha.sc
      par := by show p.par = q.par; rw [kp1, kq1, ha.par]
      co := by show p.co = q.co; rw [kp2, kq2, ha.co]
      tfsf := ha.tfsf
      f := { fm with Ez := a6 }
      psi := kpsi
      prevE := assignIf_agree (ha.prevE.mono h0) (show OptAgree S (some _) (some _) from fm.Ez)
      prev2E := assignIf_agree (ha.prev2E.mono h0) (ha.prevE.mono h0)
      debye := kd.imp fun _ _ h => ⟨h.1, h.2.2.2⟩
      drude := kr.imp fun _ _ h => ⟨h.1, h.2.2.2⟩
      lorentz := kl.imp fun _ _ h => ⟨h.1, h.2.2.2⟩ }

theorem Core.stageH_local {S S1 : ℤ → ℤ → Prop} (h0 : ∀ i j, S i j → S1 i j) (sx : ∀ i j, S i j → S1 (i + 1) j)
    (sy : ∀ i j, S i j → S1 i (j + 1)) {c d : Core K} (hc : c.WF) (hd : d.WF) (hg : c.g.Wide) (ha : Agree S1 c d) :
    ∃ c' d', c.stageH = .ok c' ∧ d.stageH = .ok d' ∧ Agree S c' d' := by
  have df : d.f.Dims c.g.Nx c.g.Ny := by rw [ha.g]; exact hd.f
  have dsc : d.sc.Dims c.g.Nx c.g.Ny := by rw [ha.g]; exact hd.sc
  have dpml : d.pml.WF c.g.Nx c.g.Ny c.g.T := by rw [ha.g]; exact hd.pml
  obtain ⟨w, hw, wS⟩ : ∃ w, optPulse c.tfsf = .ok w ∧ ∀ x, w = some x → x.Shape ∧ x.InGrid c.g.Nx c.g.Ny := by
    cases h : c.tfsf with
    | none => exact ⟨none, rfl, by intro x hx; cases hx⟩
    | some w =>
      obtain ⟨w', hw, sw, n1, n2, n3, n4, n5⟩ := Tfsf.pulse_ok (hc.tfsf w h).1
      refine ⟨some w', by show (do let w' ← w.pulse; pure (some w') : M _) = _; rw [hw]; rfl, ?_⟩
      intro x hx
      cases hx
      obtain ⟨g0, g1, g2, g3, g4, g5, g6⟩ := (hc.tfsf w h).2
      exact ⟨sw, by rw [n1, n4, n5]; exact g0, by rw [n2]; exact g1, by rw [n2, n3]; exact g2, by rw [n3]; exact g3,
        by rw [n4]; exact g4, by rw [n4, n5]; exact g5, by rw [n5]; exact g6⟩
  have h1 := hLoop_closed c.g.Nx c.g.Ny c.f c.sc hc.f hc.sc
  have h1' := hLoop_closed c.g.Nx c.g.Ny d.f d.sc df dsc
  rw [← ha.sc] at h1'
  obtain ⟨a1, a1'⟩ := hUpd_local h0 sx sy ha.f c.sc (rect 1 (c.g.Nx - 1) 1 (c.g.Ny - 1))
  obtain ⟨p, q, X, Y, X', Y', h2, h2', kp1, kp2, kq1, kq2, kpsi, ⟨dX, dY⟩, ⟨dX', dY'⟩, a2, a2'⟩ := Pml.updateH_local h0 sx sy hc.pml dpml
    hg.nx hg.ny ha.par ha.co (ha.psi.mono h0) hc.f.Ez hc.f.Db
    (Hx := c.f.Hx.upd (rect 1 (c.g.Nx - 1) 1 (c.g.Ny - 1)) (hxVal c.f c.sc)) hc.f.Hx
    (Hy := c.f.Hy.upd (rect 1 (c.g.Nx - 1) 1 (c.g.Ny - 1)) (hyVal c.f c.sc)) hc.f.Hy df.Ez df.Db
    (Hx' := d.f.Hx.upd (rect 1 (c.g.Nx - 1) 1 (c.g.Ny - 1)) (hxVal d.f c.sc)) df.Hx
    (Hy' := d.f.Hy.upd (rect 1 (c.g.Nx - 1) 1 (c.g.Ny - 1)) (hyVal d.f c.sc)) df.Hy
    ha.f.Ez (ha.f.Db.mono h0) a1 a1'
  obtain ⟨r, r', h3, h3', ⟨-, -, a3⟩, ⟨-, -, a3'⟩⟩ := optUpdateH_local (SX := S) (SY := S) (h := ⟨X, Y⟩) (h' := ⟨X', Y'⟩) wS ⟨dX, dX', a2⟩ ⟨dY, dY', a2'⟩
  refine ⟨{ c with tfsf := w, pml := p, f := { c.f with Hx := r.Hx, Hy := r.Hy } },
    { d with tfsf := w, pml := q, f := { d.f with Hx := r'.Hx, Hy := r'.Hy } }, ?_, ?_, ?_⟩
  · unfold Core.stageH
    simp only
    rw [hw]; simp only [Except.ok_bind]
    rw [h1]; simp only [Except.ok_bind]
    rw [h2]; simp only [Except.ok_bind]
    rw [h3]; rfl
  · unfold Core.stageH
    simp only [← ha.g, ← ha.sc, ← ha.tfsf]
    rw [hw]; simp only [Except.ok_bind]
    rw [h1']; simp only [Except.ok_bind]
    rw [h2']; simp only [Except.ok_bind]
    rw [h3']; rfl
  · have fm := ha.f.mono h0
    exact
    { g := ha.g
      t := ha.t
      sc := ha.sc
      par := by show p.par = q.par; rw [kp1, kq1, ha.par]
      co := by show p.co = q.co; rw [kp2, kq2, ha.co]
      tfsf := rfl
      f := { fm with Hx := a3, Hy := a3' }
      psi := kpsi
      prevE := ha.prevE.mono h0
      prev2E := ha.prev2E.mono h0
      debye := ha.debye.imp fun _ _ hq => ⟨hq.1, hq.2.mono h0⟩
      drude := ha.drude.imp fun _ _ hq => ⟨hq.1, hq.2.mono h0⟩
      lorentz := ha.lorentz.imp fun _ _ hq => ⟨hq.1, hq.2.mono h0⟩ }

/-! ## Sources -/

theorem Spec.FldsAgree.of_comp {S : ℤ → ℤ → Prop} {f f' h h' : Flds K} (ha : FldsAgree S f f') (hs : f.SameCoef h) (hs' : f'.SameCoef h')
    (hv : ∀ C : Fields, C.IsComp → AgreeOn S (h.comp C) (h'.comp C)) : FldsAgree S h h' := by
  obtain ⟨a1, a2, a3, a4⟩ := hs
  obtain ⟨b1, b2, b3, b4⟩ := hs'
  exact ⟨hv .Ez (by simp [Fields.IsComp]), hv .Hx (by simp [Fields.IsComp]), hv .Hy (by simp [Fields.IsComp]), by rw [a1, b1]; exact ha.Ca,
    by rw [a2, b2]; exact ha.Cb, by rw [a3, b3]; exact ha.Da, by rw [a4, b4]; exact ha.Db⟩

theorem Spec.FldsAgree.comp {S : ℤ → ℤ → Prop} {f f' : Flds K} (ha : FldsAgree S f f') (C : Fields) (hC : C.IsComp) :
    AgreeOn S (f.comp C) (f'.comp C) := by
  cases C <;> first | exact ha.Ez | exact ha.Hx | exact ha.Hy | (simp [Fields.IsComp] at hC)

theorem pulseAll_local {S : ℤ → ℤ → Prop} {g : Grid K} (t : K) {l l' : List (Source K)} (hl : SrcAgree g S l l') :
    ∀ (f f' : Flds K), (∀ s ∈ l, Fits g s) → (∀ s ∈ l', Fits g s) → f.Dims g.Nx g.Ny → f'.Dims g.Nx g.Ny → FldsAgree S f f' →
      ∃ k k' h h', pulseAll g t l f = .ok (k, h) ∧ pulseAll g t l' f' = .ok (k', h') ∧ SrcAgree g S k k' ∧
        (∀ s ∈ k, Fits g s) ∧ (∀ s ∈ k', Fits g s) ∧ h.Dims g.Nx g.Ny ∧ h'.Dims g.Nx g.Ny ∧ FldsAgree S h h' := by
  induction hl with
  | nil => intro f f' _ _ d d' ha; exact ⟨[], [], f, f', rfl, rfl, .nil, by simp, by simp, d, d', ha⟩
  | both s hl ih =>
    intro f f' hs hs' d d' ha
    obtain ⟨f1, tp, p1, p2, p3, p4, p5⟩ := Source.pulse_spec g t s f (hs s (by simp)) d
    obtain ⟨f1', tp', q1, q2, q3, q4, q5⟩ := Source.pulse_spec g t s f' (hs s (by simp)) d'
    have e := q2.symm.trans p2
    obtain ⟨-, rfl⟩ := Prod.mk.inj (Except.ok.inj e)
    obtain ⟨k, k', h, h', r1, r2, r3, r4, r5, r6, r7, r8⟩ := ih f1 f1' (fun s hs2 => hs s (by simp [hs2])) (fun s hs2 => hs' s (by simp [hs2]))
      p3 q3 (ha.of_comp p4 q4 fun C hC x y hxy => by rw [p5 C hC, q5 C hC, ha.comp C hC x y hxy])
    refine ⟨_, _, h, h', ?_, ?_, .both { s with tp := tp' } r3, ?_, ?_, r6, r7, r8⟩
    · unfold pulseAll; rw [p1]; simp only [Except.ok_bind]; rw [r1]; rfl
    · unfold pulseAll; rw [q1]; simp only [Except.ok_bind]; rw [r2]; rfl
    · intro s2 h2
      rcases List.mem_cons.mp h2 with rfl | hm
      · exact hs s (by simp)
      · exact r4 s2 hm
    · intro s2 h2
      rcases List.mem_cons.mp h2 with rfl | hm
      · exact hs s (by simp)
      · exact r5 s2 hm
  | left s hA hl ih =>
    intro f f' hs hs' d d' ha
    obtain ⟨f1, tp, p1, p2, p3, p4, p5⟩ := Source.pulse_spec g t s f (hs s (by simp)) d
    obtain ⟨k, k', h, h', r1, r2, r3, r4, r5, r6, r7, r8⟩ := ih f1 f' (fun s hs2 => hs s (by simp [hs2])) hs'
      p3 d' (ha.of_comp p4 ⟨rfl, rfl, rfl, rfl⟩ fun C hC x y hxy => by
        rw [p5 C hC, if_neg (hA C x y hxy), ha.comp C hC x y hxy])
    refine ⟨_, _, h, h', ?_, r2, .left { s with tp := tp } hA r3, ?_, r5, r6, r7, r8⟩
    · unfold pulseAll; rw [p1]; simp only [Except.ok_bind]; rw [r1]; rfl
    · intro s2 h2
      rcases List.mem_cons.mp h2 with rfl | hm
      · exact hs s (by simp)
      · exact r4 s2 hm
  | right s hA hl ih =>
    intro f f' hs hs' d d' ha
    obtain ⟨f1', tp', q1, q2, q3, q4, q5⟩ := Source.pulse_spec g t s f' (hs' s (by simp)) d'
    obtain ⟨k, k', h, h', r1, r2, r3, r4, r5, r6, r7, r8⟩ := ih f f1' hs (fun s hs2 => hs' s (by simp [hs2]))
      d q3 (ha.of_comp ⟨rfl, rfl, rfl, rfl⟩ q4 fun C hC x y hxy => by
        rw [q5 C hC, if_neg (hA C x y hxy), ha.comp C hC x y hxy])
    refine ⟨_, _, h, h', r1, ?_, .right { s with tp := tp' } hA r3, r4, ?_, r6, r7, r8⟩
    · unfold pulseAll; rw [q1]; simp only [Except.ok_bind]; rw [r2]; rfl
    · intro s2 h2
      rcases List.mem_cons.mp h2 with rfl | hm
      · exact hs' s (by simp)
      · exact r5 s2 hm

/-! ## A complete step -/

theorem Core.update_local {S S1 S2 : ℤ → ℤ → Prop} (a0 : ∀ i j, S1 i j → S2 i j) (ax : ∀ i j, S1 i j → S2 (i - 1) j)
    (ay : ∀ i j, S1 i j → S2 i (j - 1)) (b0 : ∀ i j, S i j → S1 i j) (bx : ∀ i j, S i j → S1 (i + 1) j)
    (by' : ∀ i j, S i j → S1 i (j + 1)) {c d : Core K} (hc : c.WF) (hd : d.WF) (hg : c.g.Wide) (ha : Agree S2 c d)
    {l l' : List (Source K)} (hl : SrcAgree c.g S1 l l') (fl : ∀ s ∈ l, Fits c.g s) (fl' : ∀ s ∈ l', Fits c.g s) :
    ∃ c' d' k k', c.update l = .ok (c', k) ∧ d.update l' = .ok (d', k') ∧ Agree S c' d' ∧ c'.WF ∧ d'.WF ∧ c'.g = c.g ∧
      SrcAgree c.g S1 k k' ∧ (∀ s ∈ k, Fits c.g s) ∧ (∀ s ∈ k', Fits c.g s) := by
  obtain ⟨c1, d1, h1, h1', r1⟩ := Core.stageE_local a0 ax ay hc hd hg ha
  obtain ⟨c1', h2, w1, g1, -⟩ := Core.stageE_ok hc hg
  obtain ⟨d1', h2', w1', g1', -⟩ := Core.stageE_ok hd (by rw [← ha.g]; exact hg)
  have e := Except.ok.inj (h1.symm.trans h2)
  subst e
  have e := Except.ok.inj (h1'.symm.trans h2')
  subst e
  obtain ⟨k, k', f, f', p1, p1', p2, p3, p3', p4, p4', p5⟩ := pulseAll_local (g := c1.g) c1.t (by rw [g1]; exact hl) c1.f d1.f
    (by rw [g1]; exact fl) (by rw [g1]; exact fl') w1.f (by rw [r1.g]; exact w1'.f) r1.f
  have wc : ({ c1 with f := f } : Core K).WF := { w1 with f := p4 }
  have wd : ({ d1 with f := f' } : Core K).WF := { w1' with f := by rw [r1.g] at p4'; exact p4' }
  have hg1 : ({ c1 with f := f } : Core K).g.Wide := by
    rw [show ({ c1 with f := f } : Core K).g = c.g from g1]; exact hg
  have r2 : Agree S1 { c1 with f := f } { d1 with f := f' } := { r1 with f := p5 }
  obtain ⟨c2, d2, q1, q1', q2⟩ := Core.stageH_local b0 bx by' wc wd hg1 r2
  obtain ⟨c2', q3, w2, g2, -⟩ := Core.stageH_ok wc hg1
  obtain ⟨d2', q3', w2', g2', -⟩ := Core.stageH_ok wd (by rw [← r2.g]; exact hg1)
  have e := Except.ok.inj (q1.symm.trans q3)
  subst e
  have e := Except.ok.inj (q1'.symm.trans q3')
  subst e
  rw [g1] at p2 p3 p3'
  refine ⟨c2, d2, k, k', ?_, ?_, q2, w2, w2', g2.trans g1, p2, p3, p3'⟩
  · unfold Core.update
    rw [h1]; simp only [Except.ok_bind]
    rw [p1]; simp only [Except.ok_bind]
    rw [q1]; rfl
  · unfold Core.update
    rw [h1']; simp only [Except.ok_bind]
    rw [r1.g, r1.t] at p1'
    rw [p1']; simp only [Except.ok_bind]
    rw [q1']; rfl

end Qbox
