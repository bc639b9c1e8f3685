import Verif.Lemmas.PmlReal
import Verif.Lemmas.PolCell
import Verif.Lemmas.CoreOps

/-!
# One step in exact arithmetic: closed forms of the absorbing layer and the stages
-/

namespace Qbox
open Scalar

set_option linter.unusedSectionVars false
set_option linter.unusedSimpArgs false

/-- What `pml::update_E` adds to `Ez` at a node. -/
noncomputable def Pml.corrE (p : Pml ℝ) (Hx Hy Cb : Tensor ℝ) (x y : ℤ) : ℝ :=
  - (if (x, y) ∈ rect 1 (p.Nx - 1) 1 (p.par.T + 1) then
      Cb.val x y * pEy1 p.co.be_y p.co.ce_y p.par.dx Hx p.psi.Ezy1 x y else 0)
  - (if (x, p.Ny - 1 - y) ∈ rect 1 (p.Nx - 1) 1 (p.par.T + 1) then
      Cb.val x y * pEy2 p.co.be_y p.co.ce_y p.par.dx (p.Ny - 1) Hx p.psi.Ezy2 x (p.Ny - 1 - y) else 0)
  + (if (x, y) ∈ rect 1 (p.par.T + 1) 1 (p.Ny - 1) then
      Cb.val x y * pEx1 p.co.be_x p.co.ce_x p.par.dx Hy p.psi.Ezx1 x y else 0)
  + (if (p.Nx - 1 - x, y) ∈ rect 1 (p.par.T + 1) 1 (p.Ny - 1) then
      Cb.val x y * pEx2 p.co.be_x p.co.ce_x p.par.dx (p.Nx - 1) Hy p.psi.Ezx2 (p.Nx - 1 - x) y else 0)

/-- The layer after `pml::update_E`. -/
noncomputable def Pml.afterE (p : Pml ℝ) (Hx Hy : Tensor ℝ) : Pml ℝ :=
  { p with psi := { p.psi with
      Ezy1 := p.psi.Ezy1.upd (rect 1 (p.Nx - 1) 1 (p.par.T + 1)) (pEy1 p.co.be_y p.co.ce_y p.par.dx Hx p.psi.Ezy1),
      Ezy2 := p.psi.Ezy2.upd (rect 1 (p.Nx - 1) 1 (p.par.T + 1))
        (pEy2 p.co.be_y p.co.ce_y p.par.dx (p.Ny - 1) Hx p.psi.Ezy2),
      Ezx1 := p.psi.Ezx1.upd (rect 1 (p.par.T + 1) 1 (p.Ny - 1)) (pEx1 p.co.be_x p.co.ce_x p.par.dx Hy p.psi.Ezx1),
      Ezx2 := p.psi.Ezx2.upd (rect 1 (p.par.T + 1) 1 (p.Ny - 1))
        (pEx2 p.co.be_x p.co.ce_x p.par.dx (p.Nx - 1) Hy p.psi.Ezx2) } }

/-- What `pml::update_H` adds to `Hx` at a node. -/
noncomputable def Pml.corrHx (p : Pml ℝ) (Ez Db : Tensor ℝ) (x y : ℤ) : ℝ :=
  - (if (x, y) ∈ rect 1 (p.Nx - 1) 1 (p.par.T - 1 + 1) then
      Db.val x y * pHy1 p.co.bh_y p.co.ch_y p.par.dx Ez p.psi.Hxy1 x y else 0)
  - (if (x, p.Ny - 1 - y - 1) ∈ rect 1 (p.Nx - 1) 1 (p.par.T - 1 + 1) then
      Db.val x y * pHy2 p.co.bh_y p.co.ch_y p.par.dx (p.Ny - 1) Ez p.psi.Hxy2 x (p.Ny - 1 - y - 1) else 0)

/-- What `pml::update_H` adds to `Hy` at a node. -/
noncomputable def Pml.corrHy (p : Pml ℝ) (Ez Db : Tensor ℝ) (x y : ℤ) : ℝ :=
  (if (x, y) ∈ rect 1 (p.par.T - 1 + 1) 1 (p.Ny - 1) then
      Db.val x y * pHx1 p.co.bh_x p.co.ch_x p.par.dx Ez p.psi.Hyx1 x y else 0)
  + (if (p.Nx - 1 - x - 1, y) ∈ rect 1 (p.par.T - 1 + 1) 1 (p.Ny - 1) then
      Db.val x y * pHx2 p.co.bh_x p.co.ch_x p.par.dx (p.Nx - 1) Ez p.psi.Hyx2 (p.Nx - 1 - x - 1) y else 0)

/-- The layer after `pml::update_H`. -/
noncomputable def Pml.afterH (p : Pml ℝ) (Ez : Tensor ℝ) : Pml ℝ :=
  { p with psi := { p.psi with
      Hxy1 := p.psi.Hxy1.upd (rect 1 (p.Nx - 1) 1 (p.par.T - 1 + 1)) (pHy1 p.co.bh_y p.co.ch_y p.par.dx Ez p.psi.Hxy1),
      Hxy2 := p.psi.Hxy2.upd (rect 1 (p.Nx - 1) 1 (p.par.T - 1 + 1))
        (pHy2 p.co.bh_y p.co.ch_y p.par.dx (p.Ny - 1) Ez p.psi.Hxy2),
      Hyx1 := p.psi.Hyx1.upd (rect 1 (p.par.T - 1 + 1) 1 (p.Ny - 1)) (pHx1 p.co.bh_x p.co.ch_x p.par.dx Ez p.psi.Hyx1),
      Hyx2 := p.psi.Hyx2.upd (rect 1 (p.par.T - 1 + 1) 1 (p.Ny - 1))
        (pHx2 p.co.bh_x p.co.ch_x p.par.dx (p.Nx - 1) Ez p.psi.Hyx2) } }

theorem Pml.updateE_closed {p : Pml ℝ} {Nx Ny T : ℤ} (hp : p.WF Nx Ny T) (hx : T + 2 ≤ Nx) (hy : T + 2 ≤ Ny)
    {Hx Hy Cb Ez : Tensor ℝ} (h1 : Hx.Dim Nx Ny) (h2 : Hy.Dim Nx Ny) (h3 : Cb.Dim Nx Ny) (h4 : Ez.Dim Nx Ny) :
    p.updateE Hx Hy Cb Ez = .ok (p.afterE Hx Hy, Ez.setv fun x y => Ez.val x y + p.corrE Hx Hy Cb x y) := by
  obtain ⟨rfl, rfl, rfl, a1, a2, -, -, a3, a4, -, -, b1, b2, -, -, b3, b4, -, -⟩ := hp
  unfold Pml.updateE
  simp only
  rw [pmlEyR_closed p.co.be_y p.co.ce_y p.par.dx p.Nx p.Ny p.par.T Hx Cb p.psi.Ezy1 p.psi.Ezy2 Ez hy a3 a4 h1 h3 b3 b4 h4]
  simp only [Except.ok_bind]
  rw [pmlExR_closed p.co.be_x p.co.ce_x p.par.dx p.Nx p.Ny p.par.T Hy Cb p.psi.Ezx1 p.psi.Ezx2
    (pmlEyR p.co.be_y p.co.ce_y p.par.dx p.Ny Hx Cb p.psi.Ezy1 p.psi.Ezy2 Ez (rect 1 (p.Nx - 1) 1 (p.par.T + 1))).F hx a1 a2 h2 h3 b1 b2
    (show Ez.Dim p.Nx p.Ny from h4)]
  refine congrArg Except.ok (Prod.ext rfl (Tensor.ext' rfl rfl fun x y => ?_))
  simp only [pmlEyR, pmlExR, Tensor.setv_val, Pml.corrE]
  ring

theorem Pml.updateH_closed {p : Pml ℝ} {Nx Ny T : ℤ} (hp : p.WF Nx Ny T) (hx : T + 2 ≤ Nx) (hy : T + 2 ≤ Ny)
    {Ez Db Hx Hy : Tensor ℝ} (h1 : Ez.Dim Nx Ny) (h2 : Db.Dim Nx Ny) (h3 : Hx.Dim Nx Ny) (h4 : Hy.Dim Nx Ny) :
    p.updateH Ez Db Hx Hy = .ok (p.afterH Ez, Hx.setv fun x y => Hx.val x y + p.corrHx Ez Db x y,
      Hy.setv fun x y => Hy.val x y + p.corrHy Ez Db x y) := by
  obtain ⟨rfl, rfl, rfl, -, -, a1, a2, -, -, a3, a4, -, -, b1, b2, -, -, b3, b4⟩ := hp
  unfold Pml.updateH
  simp only
  rw [pmlHyR_closed p.co.bh_y p.co.ch_y p.par.dx p.Nx p.Ny p.par.T Ez Db p.psi.Hxy1 p.psi.Hxy2 Hx hy a3 a4 h1 h2 b3 b4 h3]
  simp only [Except.ok_bind]
  rw [pmlHxR_closed p.co.bh_x p.co.ch_x p.par.dx p.Nx p.Ny p.par.T Ez Db p.psi.Hyx1 p.psi.Hyx2 Hy hx a1 a2 h1 h2 b1 b2 h4]
  refine congrArg Except.ok (Prod.ext rfl (Prod.ext (Tensor.ext' rfl rfl fun x y => ?_) (Tensor.ext' rfl rfl fun x y => ?_)))
  · simp only [pmlHyR, Tensor.setv_val, Pml.corrHx]
    ring
  · simp only [pmlHxR, Tensor.setv_val, Pml.corrHy]
    ring

/-- Away from the layer nothing is added to `Ez`. -/
theorem Pml.corrE_interior (p : Pml ℝ) (Hx Hy Cb : Tensor ℝ) {x y : ℤ} (h1 : p.par.T < x) (h2 : x < p.Nx - 1 - p.par.T)
    (h3 : p.par.T < y) (h4 : y < p.Ny - 1 - p.par.T) : p.corrE Hx Hy Cb x y = 0 := by
  have e1 : ¬ (x, y) ∈ rect 1 (p.Nx - 1) 1 (p.par.T + 1) := by rw [mem_rect]; simp only; omega
  have e2 : ¬ (x, p.Ny - 1 - y) ∈ rect 1 (p.Nx - 1) 1 (p.par.T + 1) := by rw [mem_rect]; simp only; omega
  have e3 : ¬ (x, y) ∈ rect 1 (p.par.T + 1) 1 (p.Ny - 1) := by rw [mem_rect]; simp only; omega
  have e4 : ¬ (p.Nx - 1 - x, y) ∈ rect 1 (p.par.T + 1) 1 (p.Ny - 1) := by rw [mem_rect]; simp only; omega
  simp [Pml.corrE, e1, e2, e3, e4]

theorem Pml.corrHx_interior (p : Pml ℝ) (Ez Db : Tensor ℝ) {x y : ℤ} (h3 : p.par.T ≤ y) (h4 : y < p.Ny - 1 - p.par.T) :
    p.corrHx Ez Db x y = 0 := by
  have e1 : ¬ (x, y) ∈ rect 1 (p.Nx - 1) 1 (p.par.T - 1 + 1) := by rw [mem_rect]; simp only; omega
  have e2 : ¬ (x, p.Ny - 1 - y - 1) ∈ rect 1 (p.Nx - 1) 1 (p.par.T - 1 + 1) := by rw [mem_rect]; simp only; omega
  simp only [Pml.corrHx, e1, e2, if_false]; ring

theorem Pml.corrHy_interior (p : Pml ℝ) (Ez Db : Tensor ℝ) {x y : ℤ} (h3 : p.par.T ≤ x) (h4 : x < p.Nx - 1 - p.par.T) :
    p.corrHy Ez Db x y = 0 := by
  have e1 : ¬ (x, y) ∈ rect 1 (p.par.T - 1 + 1) 1 (p.Ny - 1) := by rw [mem_rect]; simp only; omega
  have e2 : ¬ (p.Nx - 1 - x - 1, y) ∈ rect 1 (p.par.T - 1 + 1) 1 (p.Ny - 1) := by rw [mem_rect]; simp only; omega
  simp only [Pml.corrHy, e1, e2, if_false]; ring

/-- `Ez` after the main loop and the absorbing layer. -/
noncomputable def Core.E1 (c : Core ℝ) : Tensor ℝ := c.f.Ez.setv fun x y =>
  (c.f.Ez.upd (rect 1 (c.g.Nx - 1) 1 (c.g.Ny - 1)) (ezVal c.f c.sc)).val x y + c.pml.corrE c.f.Hx c.f.Hy c.f.Cb x y

theorem assignIf_some {α : Type} {o : Option α} (h : o.isSome) (v : Option α) : assignIf o v = v := by
  cases o with
  | none => simp at h
  | some a => rfl

/-- The stages of the electric half of a step. -/
theorem Core.stageE_parts {c : Core ℝ} (hc : c.WF) (hg : c.g.Wide) :
    ∃ ld E2 lr E3 ll E4 E5,
      mapUpdateJ (fun P Ez => P.updateJ c.g (some c.f.Ez) Ez) c.debye c.E1 = .ok (ld, E2) ∧ E2.Dim c.g.Nx c.g.Ny ∧
      mapUpdateJ (fun P Ez => P.updateJ c.g (some c.f.Ez) Ez) c.drude E2 = .ok (lr, E3) ∧ E3.Dim c.g.Nx c.g.Ny ∧
      mapUpdateJ (fun P Ez => P.updateJ c.g c.prevE Ez) c.lorentz E3 = .ok (ll, E4) ∧ E4.Dim c.g.Nx c.g.Ny ∧
      optUpdateD c.tfsf E4 = .ok E5 ∧ E5.Dim c.g.Nx c.g.Ny ∧
      c.stageE = .ok { c with
        tStep := c.tStep + 1, t := c.t + c.g.dt, prevE := assignIf c.prevE (some c.f.Ez),
        prev2E := assignIf c.prev2E c.prevE, f := { c.f with Ez := E5 },
        pml := c.pml.afterE c.f.Hx c.f.Hy, debye := ld, drude := lr, lorentz := ll } := by
  have hEz := ezLoop_closed c.g.Nx c.g.Ny c.f c.sc hc.f hc.sc
  have hp := Pml.updateE_closed hc.pml hg.nx hg.ny hc.f.Hx hc.f.Hy hc.f.Cb
    (Ez := c.f.Ez.upd (rect 1 (c.g.Nx - 1) 1 (c.g.Ny - 1)) (ezVal c.f c.sc)) hc.f.Ez
  have d1 : c.E1.Dim c.g.Nx c.g.Ny := hc.f.Ez
  obtain ⟨ld, E2, h2, wd, d2, -⟩ := mapUpdateJ_ok (fun P : DebyePol ℝ => P.WF c.g.Nx c.g.Ny) _
    (fun P Ez hP hE => DebyePol.updateJ_ok hP hc.f.Ez hE) c.debye c.E1 hc.debye d1
  obtain ⟨lr, E3, h3, wr, d3, -⟩ := mapUpdateJ_ok (fun P : DrudePol ℝ => P.WF c.g.Nx c.g.Ny) _
    (fun P Ez hP hE => DrudePol.updateJ_ok hP hc.f.Ez hE) c.drude E2 hc.drude d2
  obtain ⟨ll, E4, h4, d4⟩ : ∃ l' E4, mapUpdateJ (fun P Ez => P.updateJ c.g c.prevE Ez) c.lorentz E3 = .ok (l', E4) ∧
      E4.Dim c.g.Nx c.g.Ny := by
    by_cases hn : c.lorentz = []
    · rw [hn]; exact ⟨[], E3, rfl, d3⟩
    · have h2 := hc.hasE (Or.inr (Or.inr hn))
      obtain ⟨b, hb⟩ := Option.isSome_iff_exists.mp h2
      rw [hb]
      obtain ⟨ll, E4, h4, -, d4, -⟩ := mapUpdateJ_ok (fun P : LorentzPol ℝ => P.WF c.g.Nx c.g.Ny) _
        (fun P Ez hP hE => LorentzPol.updateJ_ok hP (hc.prevE b hb) hE) c.lorentz E3 hc.lorentz d3
      exact ⟨ll, E4, h4, d4⟩
  obtain ⟨E5, h5, d5⟩ : ∃ E5, optUpdateD c.tfsf E4 = .ok E5 ∧ E5.Dim c.g.Nx c.g.Ny := by
    cases h : c.tfsf with
    | none => exact ⟨E4, rfl, d4⟩
    | some w => exact Tfsf.updateD_ok (hc.tfsf w h).1 (hc.tfsf w h).2 d4
  refine ⟨ld, E2, lr, E3, ll, E4, E5, h2, d2, h3, d3, h4, d4, h5, d5, ?_⟩
  have g2 : mapUpdateJ (fun P Ez => P.updateJ c.g (assignIf c.prevE (some c.f.Ez)) Ez) c.debye c.E1 = .ok (ld, E2) := by
    by_cases hn : c.debye = []
    · rw [hn] at h2 ⊢; exact h2
    · rw [assignIf_some (hc.hasE (Or.inl hn))]; exact h2
  have g3 : mapUpdateJ (fun P Ez => P.updateJ c.g (assignIf c.prevE (some c.f.Ez)) Ez) c.drude E2 = .ok (lr, E3) := by
    by_cases hn : c.drude = []
    · rw [hn] at h3 ⊢; exact h3
    · rw [assignIf_some (hc.hasE (Or.inr (Or.inl hn)))]; exact h3
  have g4 : mapUpdateJ (fun P Ez => P.updateJ c.g (assignIf c.prev2E c.prevE) Ez) c.lorentz E3 = .ok (ll, E4) := by
    by_cases hn : c.lorentz = []
    · rw [hn] at h4 ⊢; exact h4
    · rw [assignIf_some (hc.has2E hn)]; exact h4
  unfold Core.stageE
  simp only
  rw [hEz]; simp only [Except.ok_bind]
  rw [hp]; simp only [Except.ok_bind]
  have e1 : ((c.f.Ez.upd (rect 1 (c.g.Nx - 1) 1 (c.g.Ny - 1)) (ezVal c.f c.sc)).setv fun x y =>
      (c.f.Ez.upd (rect 1 (c.g.Nx - 1) 1 (c.g.Ny - 1)) (ezVal c.f c.sc)).val x y
        + c.pml.corrE c.f.Hx c.f.Hy c.f.Cb x y) = c.E1 := rfl
  rw [e1, g2]; simp only [Except.ok_bind]
  rw [g3]; simp only [Except.ok_bind]
  rw [g4]; simp only [Except.ok_bind]
  rw [h5]; simp only [Except.ok_bind]
  rfl

/-- `Hx`, `Hy` after the main loop and the absorbing layer. -/
noncomputable def Core.H1 (c : Core ℝ) : HPair ℝ :=
  ⟨c.f.Hx.setv fun x y => (c.f.Hx.upd (rect 1 (c.g.Nx - 1) 1 (c.g.Ny - 1)) (hxVal c.f c.sc)).val x y
      + c.pml.corrHx c.f.Ez c.f.Db x y,
   c.f.Hy.setv fun x y => (c.f.Hy.upd (rect 1 (c.g.Nx - 1) 1 (c.g.Ny - 1)) (hyVal c.f c.sc)).val x y
      + c.pml.corrHy c.f.Ez c.f.Db x y⟩

/-- The stages of the magnetic half of a step. -/
theorem Core.stageH_parts {c : Core ℝ} (hc : c.WF) (hg : c.g.Wide) :
    ∃ tf h', optPulse c.tfsf = .ok tf ∧ optUpdateH tf c.H1 = .ok h' ∧
      c.stageH = .ok { c with tfsf := tf, pml := c.pml.afterH c.f.Ez, f := { c.f with Hx := h'.Hx, Hy := h'.Hy } } := by
  obtain ⟨c', h1, -⟩ := Core.stageH_ok hc hg
  have hH := hLoop_closed c.g.Nx c.g.Ny c.f c.sc hc.f hc.sc
  have hp := Pml.updateH_closed hc.pml hg.nx hg.ny hc.f.Ez hc.f.Db
    (Hx := c.f.Hx.upd (rect 1 (c.g.Nx - 1) 1 (c.g.Ny - 1)) (hxVal c.f c.sc))
    (Hy := c.f.Hy.upd (rect 1 (c.g.Nx - 1) 1 (c.g.Ny - 1)) (hyVal c.f c.sc)) hc.f.Hx hc.f.Hy
  have key : c.stageH = (optPulse c.tfsf).bind fun tf => (optUpdateH tf c.H1).bind fun h => .ok { c with
      tfsf := tf, pml := c.pml.afterH c.f.Ez, f := { c.f with Hx := h.Hx, Hy := h.Hy } } := by
    unfold Core.stageH
    rw [hH]; simp only [Except.ok_bind]
    rw [hp]; simp only [Except.ok_bind]
    rfl
  rw [key] at h1
  cases h2 : optPulse c.tfsf with
  | error e => rw [h2] at h1; simp [Except.bind] at h1
  | ok tf =>
    rw [h2] at h1
    cases h3 : optUpdateH tf c.H1 with
    | error e => simp [Except.bind, h3] at h1
    | ok h =>
      refine ⟨tf, h, rfl, h3, ?_⟩
      rw [key, h2]
      simp [Except.bind, h3]

end Qbox
