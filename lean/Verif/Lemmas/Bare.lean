import Verif.Lemmas.Layer

/-!
# Comparison of a step with the step without the absorbing layer, in any arithmetic
-/

namespace Qbox
open Scalar Spec

set_option linter.unusedSectionVars false
set_option linter.unusedSimpArgs false

variable {K : Type} [Scalar K]

theorem Spec.FldsAgree.refl (S : ℤ → ℤ → Prop) (f : Flds K) : FldsAgree S f f :=
  ⟨fun _ _ _ => rfl, fun _ _ _ => rfl, fun _ _ _ => rfl, fun _ _ _ => rfl, fun _ _ _ => rfl, fun _ _ _ => rfl, fun _ _ _ => rfl⟩

theorem bare_stageE {S : ℤ → ℤ → Prop} {c : Core K} (hc : c.WF)
    (hp : ∃ p' E', c.pml.updateE c.f.Hx c.f.Hy c.f.Cb (c.f.Ez.upd (rect 1 (c.g.Nx - 1) 1 (c.g.Ny - 1)) (ezVal c.f c.sc)) = .ok (p', E') ∧
      E'.Dim c.g.Nx c.g.Ny ∧ AgreeOn S E' (c.f.Ez.upd (rect 1 (c.g.Nx - 1) 1 (c.g.Ny - 1)) (ezVal c.f c.sc))) :
    ∃ c' d', c.stageE = .ok c' ∧ bareStageE c.sc c = .ok d' ∧ Undisturbed S S S c' d' ∧ d'.f.Dims c.g.Nx c.g.Ny := by
  have h1 := ezLoop_closed c.g.Nx c.g.Ny c.f c.sc hc.f hc.sc
  obtain ⟨p, E1, h2, dE1, a2⟩ := hp
  obtain ⟨F1, eF⟩ : ∃ F1, F1 = c.f.Ez.upd (rect 1 (c.g.Nx - 1) 1 (c.g.Ny - 1)) (ezVal c.f c.sc) := ⟨_, rfl⟩
  have dF1 : F1.Dim c.g.Nx c.g.Ny := by rw [eF]; exact hc.f.Ez
  rw [← eF] at h1 h2 a2
  have hpe : ∀ (l : c.debye ≠ [] ∨ c.drude ≠ [] ∨ c.lorentz ≠ []), assignIf c.prevE (some c.f.Ez) = some c.f.Ez :=
    fun l => assignIf_some (hc.hasE l) _
  obtain ⟨ld, md, E2, F2, h3, h3', kd, dE2, dF2, a3⟩ : ∃ k k' E' F', mapUpdateJ (fun P Ez => P.updateJ c.g
      (assignIf c.prevE (some c.f.Ez)) Ez) c.debye E1 = .ok (k, E') ∧ mapUpdateJ (fun P Ez => P.updateJ c.g
      (assignIf c.prevE (some c.f.Ez)) Ez) c.debye F1 = .ok (k', F') ∧
      List.Forall₂ (fun p q => p.1 = q.1 ∧ (p.2.WF c.g.Nx c.g.Ny ∧ q.2.WF c.g.Nx c.g.Ny ∧ DebyeAgree S p.2 q.2)) k k' ∧
      E'.Dim c.g.Nx c.g.Ny ∧ F'.Dim c.g.Nx c.g.Ny ∧ AgreeOn S E' F' := by
    by_cases hn : c.debye = []
    · rw [hn]
      exact ⟨[], [], E1, F1, rfl, rfl, .nil, dE1, dF1, a2⟩
    · rw [hpe (Or.inl hn)]
      exact mapUpdateJ_local _ S _ _ (DebyePol.updateJ_local hc.f.Ez hc.f.Ez (fun _ _ _ => rfl)) _ _ (List.forall₂_same.mpr
        fun q hq => ⟨rfl, hc.debye q hq, hc.debye q hq, rfl, rfl, fun _ _ _ _ => rfl, fun _ _ _ _ => rfl⟩) E1 F1 dE1 dF1 a2
  obtain ⟨lr, mr, E3, F3, h4, h4', kr, dE3, dF3, a4⟩ : ∃ k k' E' F', mapUpdateJ (fun P Ez => P.updateJ c.g
      (assignIf c.prevE (some c.f.Ez)) Ez) c.drude E2 = .ok (k, E') ∧ mapUpdateJ (fun P Ez => P.updateJ c.g
      (assignIf c.prevE (some c.f.Ez)) Ez) c.drude F2 = .ok (k', F') ∧
      List.Forall₂ (fun p q => p.1 = q.1 ∧ (p.2.WF c.g.Nx c.g.Ny ∧ q.2.WF c.g.Nx c.g.Ny ∧ DrudeAgree S p.2 q.2)) k k' ∧
      E'.Dim c.g.Nx c.g.Ny ∧ F'.Dim c.g.Nx c.g.Ny ∧ AgreeOn S E' F' := by
    by_cases hn : c.drude = []
    · rw [hn]
      exact ⟨[], [], E2, F2, rfl, rfl, .nil, dE2, dF2, a3⟩
    · rw [hpe (Or.inr (Or.inl hn))]
      exact mapUpdateJ_local _ S _ _ (DrudePol.updateJ_local hc.f.Ez hc.f.Ez (fun _ _ _ => rfl)) _ _ (List.forall₂_same.mpr
        fun q hq => ⟨rfl, hc.drude q hq, hc.drude q hq, rfl, rfl, fun _ _ _ _ => rfl, fun _ _ _ _ => rfl⟩) E2 F2 dE2 dF2 a3
  obtain ⟨ll, ml, E4, F4, h5, h5', kl, dE4, dF4, a5⟩ : ∃ k k' E' F', mapUpdateJ (fun P Ez => P.updateJ c.g
      (assignIf c.prev2E c.prevE) Ez) c.lorentz E3 = .ok (k, E') ∧ mapUpdateJ (fun P Ez => P.updateJ c.g
      (assignIf c.prev2E c.prevE) Ez) c.lorentz F3 = .ok (k', F') ∧
      List.Forall₂ (fun p q => p.1 = q.1 ∧ (p.2.WF c.g.Nx c.g.Ny ∧ q.2.WF c.g.Nx c.g.Ny ∧ LorentzAgree S p.2 q.2)) k k' ∧
      E'.Dim c.g.Nx c.g.Ny ∧ F'.Dim c.g.Nx c.g.Ny ∧ AgreeOn S E' F' := by
    by_cases hn : c.lorentz = []
    · rw [hn]
      exact ⟨[], [], E3, F3, rfl, rfl, .nil, dE3, dF3, a4⟩
    · rw [assignIf_some (hc.has2E hn)]
      obtain ⟨b, hb⟩ := Option.isSome_iff_exists.mp (hc.hasE (Or.inr (Or.inr hn)))
      rw [hb]
      exact mapUpdateJ_local _ S _ _ (LorentzPol.updateJ_local (hc.prevE b hb) (hc.prevE b hb) (fun _ _ _ => rfl)) _ _
        (List.forall₂_same.mpr fun q hq => ⟨rfl, hc.lorentz q hq, hc.lorentz q hq, rfl, rfl, fun _ _ _ _ => rfl, fun _ _ _ _ => rfl,
          fun _ _ _ _ => rfl⟩) E3 F3 dE3 dF3 a4
  obtain ⟨E5, F5, h6, h6', dE5, dF5, a6⟩ := optUpdateD_local (S := S) (E := E4) (F := F4) hc.tfsf ⟨dE4, dF4, a5⟩
  refine ⟨{ c with
      tStep := c.tStep + 1, t := c.t + c.g.dt, prevE := assignIf c.prevE (some c.f.Ez),
      prev2E := assignIf c.prev2E c.prevE, f := { c.f with Ez := E5 },
      pml := p, debye := ld, drude := lr, lorentz := ll },
    { c with
      tStep := c.tStep + 1, t := c.t + c.g.dt, prevE := assignIf c.prevE (some c.f.Ez),
      prev2E := assignIf c.prev2E c.prevE, f := { c.f with Ez := F5 },
      debye := md, drude := mr, lorentz := ml }, ?_, ?_, ?_, { hc.f with Ez := dF5 }⟩
  · unfold Core.stageE
    simp only
    rw [h1]; simp only [Except.ok_bind]
    rw [h2]; simp only [Except.ok_bind]
    rw [h3]; simp only [Except.ok_bind]
    rw [h4]; simp only [Except.ok_bind]
    rw [h5]; simp only [Except.ok_bind]
    rw [h6]; rfl
  · unfold bareStageE
    simp only
    rw [h1]; simp only [Except.ok_bind]
    rw [h3']; simp only [Except.ok_bind]
    rw [h4']; simp only [Except.ok_bind]
    rw [h5']; simp only [Except.ok_bind]
    rw [h6']; rfl
  · exact
    { g := rfl
      tStep := rfl
      t := rfl
      tfsf := rfl
      prevE := rfl
      prev2E := rfl
      Ez := a6
      Hx := fun _ _ _ => rfl
      Hy := fun _ _ _ => rfl
      Ca := rfl
      Cb := rfl
      Da := rfl
      Db := rfl
      debye := kd.imp fun _ _ h => ⟨h.1, h.2.2.2⟩
      drude := kr.imp fun _ _ h => ⟨h.1, h.2.2.2⟩
      lorentz := kl.imp fun _ _ h => ⟨h.1, h.2.2.2⟩ }

theorem bare_stageH {S SX SY : ℤ → ℤ → Prop} (x0 : ∀ i j, SX i j → S i j) (x1 : ∀ i j, SX i j → S i (j + 1))
    (y0 : ∀ i j, SY i j → S i j) (y1 : ∀ i j, SY i j → S (i + 1) j) {c d : Core K} (hc : c.WF) (hg : c.g.Wide) (df : d.f.Dims c.g.Nx c.g.Ny)
    (ha : Undisturbed S S S c d)
    (hp : ∀ Ez Hx Hy : Tensor K, Ez.Dim c.g.Nx c.g.Ny → Hx.Dim c.g.Nx c.g.Ny → Hy.Dim c.g.Nx c.g.Ny → ∀ p' X' Y',
      c.pml.updateH Ez c.f.Db Hx Hy = .ok (p', X', Y') → AgreeOn SX X' Hx ∧ AgreeOn SY Y' Hy) :
    ∃ c' d', c.stageH = .ok c' ∧ bareStageH c.sc d = .ok d' ∧ Undisturbed S SX SY c' d' := by
  obtain ⟨w, hw, wS⟩ : ∃ w, optPulse c.tfsf = .ok w ∧ ∀ x, w = some x → x.Shape ∧ x.InGrid c.g.Nx c.g.Ny := by
    cases h : c.tfsf with
    | none => exact ⟨none, rfl, by intro x hx; cases hx⟩
    | some w =>
      obtain ⟨w', hw, sw, n1, n2, n3, n4, n5⟩ := Tfsf.pulse_ok (hc.tfsf w h).1
      refine ⟨some w', by show (do let w' ← w.pulse; pure (some w') : M _) = _; rw [hw]; rfl, ?_⟩
      intro x hx
      cases hx
      obtain ⟨g0, g1, g2, g3, g4, g5, g6⟩ := (hc.tfsf w h).2
      exact ⟨sw, by rw [n1, n4, n5]; exact g0, by rw [n2]; exact g1, by rw [n2, n3]; exact g2, by rw [n3]; exact g3,
        by rw [n4]; exact g4, by rw [n4, n5]; exact g5, by rw [n5]; exact g6⟩
  have h1 := hLoop_closed c.g.Nx c.g.Ny c.f c.sc hc.f hc.sc
  have h1' := hLoop_closed c.g.Nx c.g.Ny d.f c.sc df hc.sc
  obtain ⟨p, X, Y, h2, dX, dY⟩ : ∃ p X Y, c.pml.updateH c.f.Ez c.f.Db (c.f.Hx.upd (rect 1 (c.g.Nx - 1) 1 (c.g.Ny - 1)) (hxVal c.f c.sc))
      (c.f.Hy.upd (rect 1 (c.g.Nx - 1) 1 (c.g.Ny - 1)) (hyVal c.f c.sc)) = .ok (p, X, Y) ∧ X.Dim c.g.Nx c.g.Ny ∧ Y.Dim c.g.Nx c.g.Ny := by
    obtain ⟨p, q, X, Y, X', Y', k, -, -, -, -, -, -, ⟨k1, k2⟩, -⟩ := Pml.updateH_local (S := fun _ _ => True) (S1 := fun _ _ => True)
      (fun _ _ _ => trivial) (fun _ _ _ => trivial) (fun _ _ _ => trivial) hc.pml hc.pml hg.nx hg.ny rfl rfl
      ⟨fun _ _ _ => rfl, fun _ _ _ => rfl, fun _ _ _ => rfl, fun _ _ _ => rfl, fun _ _ _ => rfl, fun _ _ _ => rfl, fun _ _ _ => rfl,
        fun _ _ _ => rfl⟩ hc.f.Ez hc.f.Db
      (Hx := c.f.Hx.upd (rect 1 (c.g.Nx - 1) 1 (c.g.Ny - 1)) (hxVal c.f c.sc)) hc.f.Hx
      (Hy := c.f.Hy.upd (rect 1 (c.g.Nx - 1) 1 (c.g.Ny - 1)) (hyVal c.f c.sc)) hc.f.Hy hc.f.Ez hc.f.Db
      (Hx' := c.f.Hx.upd (rect 1 (c.g.Nx - 1) 1 (c.g.Ny - 1)) (hxVal c.f c.sc)) hc.f.Hx
      (Hy' := c.f.Hy.upd (rect 1 (c.g.Nx - 1) 1 (c.g.Ny - 1)) (hyVal c.f c.sc)) hc.f.Hy
      (fun _ _ _ => rfl) (fun _ _ _ => rfl) (fun _ _ _ => rfl) (fun _ _ _ => rfl)
    exact ⟨p, X, Y, k, k1, k2⟩
  obtain ⟨aX, aY⟩ := hp c.f.Ez (c.f.Hx.upd (rect 1 (c.g.Nx - 1) 1 (c.g.Ny - 1)) (hxVal c.f c.sc))
    (c.f.Hy.upd (rect 1 (c.g.Nx - 1) 1 (c.g.Ny - 1)) (hyVal c.f c.sc)) hc.f.Ez hc.f.Hx hc.f.Hy p X Y h2
  have bX : AgreeOn SX X (d.f.Hx.upd (rect 1 (c.g.Nx - 1) 1 (c.g.Ny - 1)) (hxVal d.f c.sc)) := by
    intro i j hs
    rw [aX i j hs]
    simp only [Tensor.upd, hxVal, ha.Hx i j (x0 i j hs), ha.Ez i j (x0 i j hs), ha.Ez i (j + 1) (x1 i j hs), ha.Da, ha.Db]
  have bY : AgreeOn SY Y (d.f.Hy.upd (rect 1 (c.g.Nx - 1) 1 (c.g.Ny - 1)) (hyVal d.f c.sc)) := by
    intro i j hs
    rw [aY i j hs]
    simp only [Tensor.upd, hyVal, ha.Hy i j (y0 i j hs), ha.Ez i j (y0 i j hs), ha.Ez (i + 1) j (y1 i j hs), ha.Da, ha.Db]
  obtain ⟨r, r', h3, h3', ⟨-, -, a3⟩, ⟨-, -, a3'⟩⟩ := optUpdateH_local (SX := SX) (SY := SY) (h := ⟨X, Y⟩)
    (h' := ⟨d.f.Hx.upd (rect 1 (c.g.Nx - 1) 1 (c.g.Ny - 1)) (hxVal d.f c.sc), d.f.Hy.upd (rect 1 (c.g.Nx - 1) 1 (c.g.Ny - 1)) (hyVal d.f c.sc)⟩)
    wS ⟨dX, df.Hx, bX⟩ ⟨dY, df.Hy, bY⟩
  refine ⟨{ c with tfsf := w, pml := p, f := { c.f with Hx := r.Hx, Hy := r.Hy } },
    { d with tfsf := w, f := { d.f with Hx := r'.Hx, Hy := r'.Hy } }, ?_, ?_, ?_⟩
  · unfold Core.stageH
    simp only
    rw [hw]; simp only [Except.ok_bind]
    rw [h1]; simp only [Except.ok_bind]
    rw [h2]; simp only [Except.ok_bind]
    rw [h3]; rfl
  · unfold bareStageH
    simp only [← ha.g, ← ha.tfsf]
    rw [hw]; simp only [Except.ok_bind]
    rw [h1']; simp only [Except.ok_bind]
    rw [h3']; rfl
  · exact { ha with tfsf := rfl, Hx := a3, Hy := a3' }

theorem SrcAgree.refl (g : Grid K) (S : ℤ → ℤ → Prop) : ∀ l : List (Source K), SrcAgree g S l l
  | [] => .nil
  | s :: l => .both s (SrcAgree.refl g S l)

theorem bare_update {S SX SY : ℤ → ℤ → Prop} (x0 : ∀ i j, SX i j → S i j) (x1 : ∀ i j, SX i j → S i (j + 1))
    (y0 : ∀ i j, SY i j → S i j) (y1 : ∀ i j, SY i j → S (i + 1) j) {c : Core K} (hc : c.WF) (hg : c.g.Wide)
    (hp : ∃ p' E', c.pml.updateE c.f.Hx c.f.Hy c.f.Cb (c.f.Ez.upd (rect 1 (c.g.Nx - 1) 1 (c.g.Ny - 1)) (ezVal c.f c.sc)) = .ok (p', E') ∧
      E'.Dim c.g.Nx c.g.Ny ∧ AgreeOn S E' (c.f.Ez.upd (rect 1 (c.g.Nx - 1) 1 (c.g.Ny - 1)) (ezVal c.f c.sc)))
    (hq : ∀ p : Pml K, p.WF c.g.Nx c.g.Ny c.g.T → ∀ Ez Db Hx Hy : Tensor K, Ez.Dim c.g.Nx c.g.Ny → Db.Dim c.g.Nx c.g.Ny → Hx.Dim c.g.Nx c.g.Ny →
      Hy.Dim c.g.Nx c.g.Ny → ∀ p' X' Y', p.updateH Ez Db Hx Hy = .ok (p', X', Y') → AgreeOn SX X' Hx ∧ AgreeOn SY Y' Hy)
    {l : List (Source K)} (fl : ∀ s ∈ l, Fits c.g s) :
    ∃ c' d' k k', c.update l = .ok (c', k) ∧ bareUpdate c.sc c l = .ok (d', k') ∧ Undisturbed S SX SY c' d' := by
  obtain ⟨c1, d1, h1, h1', r1, dd⟩ := bare_stageE hc hp
  obtain ⟨c1', h2, w1, g1, es, -⟩ := Core.stageE_ok hc hg
  have e := Except.ok.inj (h1.symm.trans h2)
  subst e
  have fa : FldsAgree S c1.f d1.f := ⟨r1.Ez, r1.Hx, r1.Hy, by rw [r1.Ca]; exact fun _ _ _ => rfl, by rw [r1.Cb]; exact fun _ _ _ => rfl,
    by rw [r1.Da]; exact fun _ _ _ => rfl, by rw [r1.Db]; exact fun _ _ _ => rfl⟩
  obtain ⟨k, k', f, f', p1, p1', p2, p3, p3', p4, p4', p5⟩ := pulseAll_local (g := c1.g) c1.t (SrcAgree.refl c1.g S l) c1.f d1.f
    (by rw [g1]; exact fl) (by rw [g1]; exact fl) w1.f (by rw [g1]; exact dd) fa
  obtain ⟨f0, k0, q1, -, q2, -, -⟩ := pulseAll_ok (g := c1.g) c1.t l c1.f (by rw [g1]; exact fl) w1.f
  obtain ⟨f0', k0', q1', -, q2', -, -⟩ := pulseAll_ok (g := c1.g) c1.t l d1.f (by rw [g1]; exact fl) (by rw [g1]; exact dd)
  obtain ⟨rfl, rfl⟩ := Prod.mk.inj (Except.ok.inj (p1.symm.trans q1))
  obtain ⟨rfl, rfl⟩ := Prod.mk.inj (Except.ok.inj (p1'.symm.trans q1'))
  have wc : ({ c1 with f := f } : Core K).WF := { w1 with f := p4 }
  have hg1 : ({ c1 with f := f } : Core K).g.Wide := by
    rw [show ({ c1 with f := f } : Core K).g = c.g from g1]; exact hg
  have r2 : Undisturbed S S S ({ c1 with f := f } : Core K) { d1 with f := f' } :=
    { r1 with
      Ez := p5.Ez, Hx := p5.Hx, Hy := p5.Hy
      Ca := by show f.Ca = f'.Ca; rw [q2.1, q2'.1, r1.Ca]
      Cb := by show f.Cb = f'.Cb; rw [q2.2.1, q2'.2.1, r1.Cb]
      Da := by show f.Da = f'.Da; rw [q2.2.2.1, q2'.2.2.1, r1.Da]
      Db := by show f.Db = f'.Db; rw [q2.2.2.2, q2'.2.2.2, r1.Db] }
  obtain ⟨c2, d2, u1, u2, r3⟩ := bare_stageH x0 x1 y0 y1 wc hg1 p4' r2 (by
    have hp := w1.pml
    show ∀ Ez Hx Hy : Tensor K, Ez.Dim c1.g.Nx c1.g.Ny → Hx.Dim c1.g.Nx c1.g.Ny → Hy.Dim c1.g.Nx c1.g.Ny → ∀ p' X' Y',
      c1.pml.updateH Ez f.Db Hx Hy = .ok (p', X', Y') → AgreeOn SX X' Hx ∧ AgreeOn SY Y' Hy
    have hd := p4.Db
    rw [g1] at hp hd ⊢
    intro Ez Hx Hy a b d
    exact hq _ hp Ez _ Hx Hy a hd b d)
  refine ⟨c2, d2, k, k', ?_, ?_, r3⟩
  · unfold Core.update
    rw [h1]; simp only [Except.ok_bind]
    rw [p1]; simp only [Except.ok_bind]
    rw [u1]; rfl
  · unfold bareUpdate
    rw [h1']; simp only [Except.ok_bind]
    rw [r1.g, r1.t] at p1'
    rw [p1']; simp only [Except.ok_bind]
    rw [show c.sc = ({ c1 with f := f } : Core K).sc from es.symm, u2]; rfl

end Qbox
