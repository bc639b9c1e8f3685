import Verif.Lemmas.MatGrid

/-! # A step without absorbing layer, dispersive media and sources, in any arithmetic -/

namespace Qbox
open Scalar Spec

set_option linter.unusedSectionVars false

variable {K : Type} [Scalar K]

theorem forRange_none {σ : Type} (lo hi : ℤ) (h : hi ≤ lo) (s : σ) (body : ℤ → σ → M σ) : forRange lo hi s body = .ok s := by
  obtain ⟨s', h1, h2⟩ := forRange_inv (fun s' => s' = s) lo hi body (fun i h1 h2 => by omega) s rfl
  rw [h1, h2]

theorem forRange_still {σ : Type} (lo hi : ℤ) (s : σ) (body : ℤ → σ → M σ) (h : ∀ i, body i s = .ok s) : forRange lo hi s body = .ok s := by
  obtain ⟨s', h1, h2⟩ := forRange_inv (fun s' => s' = s) lo hi body (fun i h1 h2 s' e => by subst e; exact ⟨_, h i, rfl⟩) s rfl
  rw [h1, h2]

theorem Pml.updateE_bare {p : Pml K} (hT : p.par.T = 0) (Hx Hy Cb Ez : Tensor K) : p.updateE Hx Hy Cb Ez = .ok (p, Ez) := by
  unfold Pml.updateE
  rw [hT]
  simp only
  rw [forRange_still 1 (p.Nx - 1) _ _ (fun i => by exact forRange_none _ _ (by norm_num) _ _)]
  simp only [Except.ok_bind]
  rw [forRange_none _ _ (by norm_num)]
  rfl

theorem Pml.updateH_bare {p : Pml K} (hT : p.par.T = 0) (Ez Db Hx Hy : Tensor K) : p.updateH Ez Db Hx Hy = .ok (p, Hx, Hy) := by
  unfold Pml.updateH
  rw [hT]
  simp only
  rw [forRange_still 1 (p.Nx - 1) _ _ (fun i => by exact forRange_none _ _ (by norm_num) _ _)]
  simp only [Except.ok_bind]
  rw [forRange_none _ _ (by norm_num)]
  rfl

/-- No absorbing layer, no dispersive medium, no incident wave. -/
structure Bare (c : Core K) : Prop where
  wf : c.WF
  thick : c.g.T = 0
  scx : ∀ i, c.sc.kedx.val i = c.g.dx * 1 ∧ c.sc.khdx.val i = c.g.dx * 1
  scy : ∀ j, c.sc.kedy.val j = c.g.dx * 1 ∧ c.sc.khdy.val j = c.g.dx * 1
  debye : c.debye = []
  drude : c.drude = []
  lorentz : c.lorentz = []
  tfsf : c.tfsf = none

/-- The fields after a step. -/
def stepE (c : Core K) : Flds K := { c.f with Ez := c.f.Ez.upd (rect 1 (c.g.Nx - 1) 1 (c.g.Ny - 1)) (ezVal c.f c.sc) }
def stepF (c : Core K) : Flds K :=
  { stepE c with
    Hx := c.f.Hx.upd (rect 1 (c.g.Nx - 1) 1 (c.g.Ny - 1)) (hxVal (stepE c) c.sc)
    Hy := c.f.Hy.upd (rect 1 (c.g.Nx - 1) 1 (c.g.Ny - 1)) (hyVal (stepE c) c.sc) }

/-- A state after a step, with the fields `f`. -/
def advance (c : Core K) (f : Flds K) : Core K :=
  { c with tStep := c.tStep + 1, t := c.t + c.g.dt, prevE := assignIf c.prevE (some c.f.Ez), prev2E := assignIf c.prev2E c.prevE, f := f }

theorem stepE_dims {c : Core K} (hc : Bare c) : (stepE c).Dims c.g.Nx c.g.Ny := { hc.wf.f with Ez := hc.wf.f.Ez }
theorem stepF_dims {c : Core K} (hc : Bare c) : (stepF c).Dims c.g.Nx c.g.Ny := { hc.wf.f with Ez := hc.wf.f.Ez, Hx := hc.wf.f.Hx, Hy := hc.wf.f.Hy }

theorem Bare.update {c : Core K} (hc : Bare c) : ∃ c', c.update [] = .ok (c', []) ∧ Bare c' ∧ c'.f = stepF c ∧ c'.g = c.g ∧ c'.t = c.t + c.g.dt ∧
    c'.tStep = c.tStep + 1 := by
  have hT : c.pml.par.T = 0 := hc.wf.pml.thk.trans hc.thick
  refine ⟨advance c (stepF c), ?_, ?_, rfl, rfl, rfl, rfl⟩
  · have e : c.stageE = .ok (advance c (stepE c)) := by
      unfold Core.stageE
      simp only
      rw [ezLoop_closed _ _ _ _ hc.wf.f hc.wf.sc]; simp only [Except.ok_bind]
      rw [Pml.updateE_bare hT]; simp only [Except.ok_bind]
      rw [hc.debye, hc.drude, hc.lorentz, hc.tfsf]
      cases c
      simp only at *
      have d := hc.debye; have r := hc.drude; have l := hc.lorentz; have w := hc.tfsf
      simp only at d r l w
      subst d; subst r; subst l; subst w
      rfl
    have h : (advance c (stepE c)).stageH = .ok (advance c (stepF c)) := by
      have w : (advance c (stepE c)).tfsf = none := hc.tfsf
      unfold Core.stageH
      simp only
      rw [w]
      show ((hLoop c.g.Nx c.g.Ny (stepE c) c.sc) >>= _ : M (Core K)) = _
      rw [hLoop_closed _ _ _ _ (stepE_dims hc) hc.wf.sc]; simp only [Except.ok_bind]
      have q := Pml.updateH_bare hT (stepE c).Ez (stepE c).Db ((stepE c).Hx.upd (rect 1 (c.g.Nx - 1) 1 (c.g.Ny - 1)) (hxVal (stepE c) c.sc))
        ((stepE c).Hy.upd (rect 1 (c.g.Nx - 1) 1 (c.g.Ny - 1)) (hyVal (stepE c) c.sc))
      have q' : (advance c (stepE c)).pml.updateH (advance c (stepE c)).f.Ez (advance c (stepE c)).f.Db
        ((stepE c).Hx.upd (rect 1 (c.g.Nx - 1) 1 (c.g.Ny - 1)) (hxVal (stepE c) c.sc))
        ((stepE c).Hy.upd (rect 1 (c.g.Nx - 1) 1 (c.g.Ny - 1)) (hyVal (stepE c) c.sc)) = _ := q
      rw [q']; simp only [Except.ok_bind]
      have w' := hc.tfsf
      unfold advance
      rw [w']
      rfl
    unfold Core.update
    rw [e]; simp only [Except.ok_bind]
    unfold pulseAll
    simp only [Except.ok_bind]
    rw [h]
    rfl
  · have p1 : OptDim (assignIf c.prevE (some c.f.Ez)) c.g.Nx c.g.Ny := by
      intro a h
      unfold assignIf at h
      cases hp : c.prevE with
      | none => rw [hp] at h; cases h
      | some b => rw [hp] at h; cases h; exact hc.wf.f.Ez
    have p2 : OptDim (assignIf c.prev2E c.prevE) c.g.Nx c.g.Ny := by
      intro a h
      unfold assignIf at h
      cases hp : c.prev2E with
      | none => rw [hp] at h; cases h
      | some b => rw [hp] at h; exact hc.wf.prevE a h
    exact
      { wf := { f := stepF_dims hc, sc := hc.wf.sc, pml := hc.wf.pml, prevE := p1, prev2E := p2,
                hasE := by show c.debye ≠ [] ∨ c.drude ≠ [] ∨ c.lorentz ≠ [] → _; simp [hc.debye, hc.drude, hc.lorentz]
                has2E := by show c.lorentz ≠ [] → _; simp [hc.lorentz]
                debye := hc.wf.debye, drude := hc.wf.drude, lorentz := hc.wf.lorentz, tfsf := hc.wf.tfsf }
        thick := hc.thick, scx := hc.scx, scy := hc.scy, debye := hc.debye, drude := hc.drude, lorentz := hc.lorentz, tfsf := hc.tfsf }

/-- A new simulation without layer. -/
theorem Bare.make {g : Grid K} (hw : g.Wide) (hT : g.T = 0) : ∃ c, Core.make g = .ok c ∧ Bare c ∧ c.g = g ∧
    (∀ i j, c.f.Ez.val i j = 0 ∧ c.f.Hx.val i j = 0 ∧ c.f.Hy.val i j = 0) ∧
    ∀ i j, 0 ≤ i → i < g.Nx → 0 ≤ j → j < g.Ny → HasMedium c.f (.simple vacuum) g.dt i j := by
  obtain ⟨c, h1, w, e, -⟩ := Core.make_ok (g := g) (by have := hw.nx; omega) (by have := hw.ny; omega)
  refine ⟨c, h1, ?_, e, ?_⟩
  · have hm := h1
    unfold Core.make at hm
    simp only [Except.bind_ok] at hm
    obtain ⟨f, -, p, hp, sc, hs, hc⟩ := hm
    unfold Pml.make Pml.makeWith at hp
    obtain ⟨co, -, hp⟩ := (Except.bind_ok ..).mp hp
    cases hp
    unfold PmlPar.scaling at hs
    rw [show (PmlPar.default g).T = 0 from hT, forRange_none _ _ (by norm_num)] at hs
    cases hs
    cases hc
    exact { wf := w, thick := hT, scx := fun _ => ⟨rfl, rfl⟩, scy := fun _ => ⟨rfl, rfl⟩, debye := rfl, drude := rfl, lorentz := rfl, tfsf := rfl }
  · have hm := h1
    unfold Core.make at hm
    simp only at hm
    rw [clearMaterials_closed ⟨⟨rfl, rfl⟩, ⟨rfl, rfl⟩, ⟨rfl, rfl⟩, ⟨rfl, rfl⟩, ⟨rfl, rfl⟩, ⟨rfl, rfl⟩, ⟨rfl, rfl⟩⟩] at hm
    simp only [Except.ok_bind, Except.bind_ok, Except.pure_eq] at hm
    obtain ⟨p, -, sc, -, hcc⟩ := hm
    have hf := (congrArg Core.f (Except.ok.inj hcc)).symm
    simp only at hf
    rw [hf]
    refine ⟨fun i j => ⟨rfl, rfl, rfl⟩, fun i j i0 i1 j0 j1 => ?_⟩
    exact Flds.paint_hit (mem_rect.mpr ⟨⟨i0, i1⟩, j0, j1⟩) rfl

/-- Adding an object of a simple material. -/
theorem Bare.insert {c : Core K} (hc : Bare c) {o : Object K} (hs : o.Safe c.g) {m : Simple K} (hk : o.mat.kind = .simple m) :
    ∃ c', c.insertObject o = .ok c' ∧ Bare c' ∧ c'.g = c.g ∧
      c'.f = c.f.paint o.mat.kind c.g.dt (fun x y => o.inside (c.g.toReal ⟨x, y⟩)) (scan c.g o) := by
  refine ⟨{ c with f := c.f.paint o.mat.kind c.g.dt (fun x y => o.inside (c.g.toReal ⟨x, y⟩)) (scan c.g o) }, ?_, ?_, rfl, rfl⟩
  · unfold Core.insertObject
    rw [paintObject_closed hc.wf.f hs]
    simp only [Except.ok_bind]
    rw [hk]
    rfl
  · exact
      { wf := { hc.wf with f := Flds.paint_dims hc.wf.f _ _ _ _ }
        thick := hc.thick, scx := hc.scx, scy := hc.scy, debye := hc.debye, drude := hc.drude, lorentz := hc.lorentz, tfsf := hc.tfsf }

theorem Bare.insertAll : ∀ (objs : List (Object K)) {c : Core K}, Bare c → (∀ o ∈ objs, o.Safe c.g) → (∀ o ∈ objs, ∃ m, o.mat.kind = .simple m) →
    ∃ c', forList objs c (fun o c => c.insertObject o) = .ok c' ∧ Bare c' ∧ c'.g = c.g ∧ c'.f = paintAll c.g objs c.f
  | [], c, hc, _, _ => ⟨c, rfl, hc, rfl, rfl⟩
  | o :: l, c, hc, hs, hm => by
    obtain ⟨m, hk⟩ := hm o (by simp)
    obtain ⟨c1, h1, w1, g1, f1⟩ := Bare.insert hc (hs o (by simp)) hk
    obtain ⟨c2, h2, w2, g2, f2⟩ := Bare.insertAll l w1 (by rw [g1]; exact fun o' ho => hs o' (by simp [ho])) (fun o' ho => hm o' (by simp [ho]))
    refine ⟨c2, ?_, w2, by rw [g2, g1], ?_⟩
    · rw [forList_cons, h1]; simp only [Except.ok_bind]
      exact h2
    · rw [f2, f1, g1]; rfl

end Qbox
