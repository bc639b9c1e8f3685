import Verif.Lemmas.Std
import Verif.Props.SourceProps

/-!
# One complete step in exact arithmetic
-/

namespace Qbox
open Scalar Spec Props

set_option linter.unusedSectionVars false
set_option linter.unusedSimpArgs false

/-- What an optional total-field region adds. -/
noncomputable def tfEz (o : Option (Tfsf ℝ)) (x y : ℤ) : ℝ := match o with | none => 0 | some w => w.addEz x y
noncomputable def tfHx (o : Option (Tfsf ℝ)) (x y : ℤ) : ℝ := match o with | none => 0 | some w => w.addHx x y
noncomputable def tfHy (o : Option (Tfsf ℝ)) (x y : ℤ) : ℝ := match o with | none => 0 | some w => w.addHy x y

/-- All intermediate values of a step from `c` to `c'`. `f` are the fields after the sources have been added. -/
structure Core.Step (c : Core ℝ) (srcs : List (Source ℝ)) (c' : Core ℝ) (srcs' : List (Source ℝ))
    (E2 E3 E4 : Tensor ℝ) (f : Flds ℝ) : Prop where
  std : c'.Std
  same : List.Forall₂ SameSrc srcs srcs'
  fits : ∀ s ∈ srcs', Fits c'.g s
  hd : mapUpdateJ (fun P Ez => P.updateJ c.g (some c.f.Ez) Ez) c.debye c.E1 = .ok (c'.debye, E2)
  d2 : E2.Dim c.g.Nx c.g.Ny
  hr : mapUpdateJ (fun P Ez => P.updateJ c.g (some c.f.Ez) Ez) c.drude E2 = .ok (c'.drude, E3)
  d3 : E3.Dim c.g.Nx c.g.Ny
  hl : mapUpdateJ (fun P Ez => P.updateJ c.g c.prevE Ez) c.lorentz E3 = .ok (c'.lorentz, E4)
  d4 : E4.Dim c.g.Nx c.g.Ny
  dims : f.Dims c.g.Nx c.g.Ny
  coef : c.f.SameCoef f
  fE : ∀ x y, f.Ez.val x y = E4.val x y + tfEz c.tfsf x y + totalContrib c.g (c.t + c.g.dt) srcs .Ez ⟨x, y⟩
  fX : ∀ x y, f.Hx.val x y = c.f.Hx.val x y + totalContrib c.g (c.t + c.g.dt) srcs .Hx ⟨x, y⟩
  fY : ∀ x y, f.Hy.val x y = c.f.Hy.val x y + totalContrib c.g (c.t + c.g.dt) srcs .Hy ⟨x, y⟩
  tf : optPulse c.tfsf = .ok c'.tfsf
  g : c'.g = c.g
  tStep : c'.tStep = c.tStep + 1
  t : c'.t = c.t + c.g.dt
  prevE : c'.prevE = assignIf c.prevE (some c.f.Ez)
  prev2E : c'.prev2E = assignIf c.prev2E c.prevE
  sc : c'.sc = c.sc
  pml : c'.pml = (c.pml.afterE c.f.Hx c.f.Hy).afterH f.Ez
  coef' : c.f.SameCoef c'.f
  eE : c'.f.Ez = f.Ez
  eX : ∀ x y, c'.f.Hx.val x y = (f.Hx.upd (rect 1 (c.g.Nx - 1) 1 (c.g.Ny - 1)) (hxVal f c.sc)).val x y
    + (c.pml.afterE c.f.Hx c.f.Hy).corrHx f.Ez f.Db x y + tfHx c'.tfsf x y
  eY : ∀ x y, c'.f.Hy.val x y = (f.Hy.upd (rect 1 (c.g.Nx - 1) 1 (c.g.Ny - 1)) (hyVal f c.sc)).val x y
    + (c.pml.afterE c.f.Hx c.f.Hy).corrHy f.Ez f.Db x y + tfHy c'.tfsf x y

theorem Core.update_step {c : Core ℝ} (h : c.Std) (srcs : List (Source ℝ)) (hs : ∀ s ∈ srcs, Fits c.g s) :
    ∃ c' srcs' E2 E3 E4 f, c.update srcs = .ok (c', srcs') ∧ c.Step srcs c' srcs' E2 E3 E4 f := by
  obtain ⟨c', srcs', hu, hstd, hg', hfits⟩ := Core.update_std h srcs hs
  obtain ⟨_, _, hu2, -, -, -, -, -, -, -, hsame⟩ := Core.update_ok h.wf h.wide srcs hs
  rw [hu] at hu2
  cases hu2
  obtain ⟨ld, E2, lr, E3, ll, E4, E5, h2, d2, h3, d3, h4, d4, h5, d5, hE⟩ := Core.stageE_parts h.wf h.wide
  have hE' := hE
  set c1 : Core ℝ := { c with
        tStep := c.tStep + 1, t := c.t + c.g.dt, prevE := assignIf c.prevE (some c.f.Ez),
        prev2E := assignIf c.prev2E c.prevE, f := { c.f with Ez := E5 },
        pml := c.pml.afterE c.f.Hx c.f.Hy, debye := ld, drude := lr, lorentz := ll } with hc1
  have w1 : c1.Std := by
    obtain ⟨c2, k1, k2⟩ := Core.stageE_std h
    rw [hE] at k1; cases k1; exact k2
  obtain ⟨s2, f, hp, df, cf, vf⟩ := C31_sources_add_up c1.g c1.t srcs c1.f hs w1.wf.f
  have w2 : ({ c1 with f := f } : Core ℝ).Std := w1.of_same { w1.wf with f := df } rfl rfl rfl rfl
  obtain ⟨tf, h', hq, hh, hH⟩ := Core.stageH_parts w2.wf w2.wide
  have e5 : ∀ x y, E5.val x y = E4.val x y + tfEz c.tfsf x y := by
    intro x y
    cases ht : c.tfsf with
    | none => rw [ht] at h5; cases h5; simp [tfEz]
    | some w =>
      rw [ht] at h5
      have := Tfsf.updateD_closed (h.wf.tfsf w ht).1 (h.wf.tfsf w ht).2 d4
      rw [show optUpdateD (some w) E4 = w.updateD E4 from rfl, this] at h5
      cases h5; rfl
  have hwt : ∀ w, tf = some w → w.Shape ∧ w.InGrid c.g.Nx c.g.Ny := by
    intro w hw
    obtain ⟨c3, k1, k2⟩ := Core.stageH_std w2
    rw [hH] at k1
    cases k1
    exact k2.wf.tfsf w hw
  have eh : ∀ x y, h'.Hx.val x y = ({ c1 with f := f } : Core ℝ).H1.Hx.val x y + tfHx tf x y ∧
      h'.Hy.val x y = ({ c1 with f := f } : Core ℝ).H1.Hy.val x y + tfHy tf x y := by
    intro x y
    cases ht : tf with
    | none => rw [ht] at hh; cases hh; simp [tfHx, tfHy]
    | some w =>
      rw [ht] at hh
      have := Tfsf.updateH_closed (hwt w ht).1 (hwt w ht).2 (h := ({ c1 with f := f } : Core ℝ).H1) df.Hx df.Hy
      rw [show optUpdateH (some w) _ = w.updateH ({ c1 with f := f } : Core ℝ).H1 from rfl, this] at hh
      cases hh
      exact ⟨rfl, rfl⟩
  have hc' : c.update srcs = .ok ({ c1 with tfsf := tf, pml := c1.pml.afterH f.Ez, f := { f with Hx := h'.Hx, Hy := h'.Hy } }, s2) := by
    unfold Core.update
    rw [hE]; simp only [Except.ok_bind]
    rw [hp]; simp only [Except.ok_bind]
    rw [hH]; rfl
  rw [hu] at hc'
  obtain ⟨rfl, rfl⟩ := Prod.mk.inj (Except.ok.inj hc')
  refine ⟨_, _, E2, E3, E4, f, hu, ?_⟩
  obtain ⟨q1, q2, q3, q4⟩ := cf
  exact {
    std := hstd, same := hsame, fits := hfits, hd := h2, d2 := d2, hr := h3, d3 := d3, hl := h4, d4 := d4, dims := df,
    coef := ⟨q1, q2, q3, q4⟩
    fE := fun x y => by rw [← e5]; exact vf .Ez (Or.inl rfl) x y
    fX := fun x y => vf .Hx (Or.inr (Or.inl rfl)) x y
    fY := fun x y => vf .Hy (Or.inr (Or.inr rfl)) x y
    tf := hq, g := rfl, tStep := rfl, t := rfl, prevE := rfl, prev2E := rfl, sc := rfl, pml := rfl
    coef' := ⟨q1, q2, q3, q4⟩, eE := rfl
    eX := fun x y => (eh x y).1, eY := fun x y => (eh x y).2 }

end Qbox
