import Verif.Lemmas.SimPhys
import Verif.Lemmas.PmlOutside

/-! # Spectra do not act back on the fields, and what `clear_fields` leaves -/

namespace Qbox
open Scalar Spec

set_option linter.unusedSectionVars false
set_option linter.unusedSimpArgs false

variable {K : Type} [Scalar K]

/-! ## Without spectra -/

def TimeProfile.bare (tp : TimeProfile K) : TimeProfile K := { tp with dft := none }
def Source.bare (s : Source K) : Source K := { s with tp := s.tp.bare }
def Tfsf.bare (w : Tfsf K) : Tfsf K := { w with tp := w.tp.bare, fourier := none }
def Core.bare (c : Core K) : Core K := { c with tfsf := c.tfsf.map Tfsf.bare }
def Phys.bare (p : Phys K) : Phys K := ⟨p.core.bare, p.srcs.map Source.bare, p.objs⟩

/-- The call with the spectra of its arguments left out. -/
def Op.bare : Op K → Op K
  | .addSource x => .addSource x.bare
  | .setTfsf vol tp => .setTfsf vol tp.bare
  | op => op

theorem TimeProfile.response_bare {tp tp' : TimeProfile K} {t v : K} (h : tp.response t = .ok (v, tp')) :
    tp.bare.response t = .ok (v, tp'.bare) := by
  unfold TimeProfile.response at h
  cases hd : tp.dft with
  | none => simp only [hd] at h; cases h; rfl
  | some d =>
    simp only [hd] at h
    obtain ⟨⟨d', u⟩, -, h⟩ := (Except.bind_ok ..).mp h
    cases h; rfl

theorem Source.pulse_bare {g : Grid K} {t : K} {s : Source K} {f f' : Flds K} (h : (s.pulse g t f).2 = .ok f') :
    s.bare.pulse g t f = ((s.pulse g t f).1.bare, .ok f') := by
  unfold Source.pulse at h ⊢
  cases hk : s.kind with
  | point C p =>
    simp only [hk] at h
    rw [show s.bare.kind = _ from hk]
    simp only
    cases hr : s.tp.response t with
    | error e => simp only [hr] at h; cases h
    | ok q =>
      obtain ⟨v, tp⟩ := q
      simp only [hr] at h ⊢
      rw [show s.bare.tp.response t = _ from TimeProfile.response_bare hr]
      simp only [h]
      rfl
  | line C surf =>
    simp only [hk] at h
    rw [show s.bare.kind = _ from hk]
    simp only
    cases hs : g.toGridS surf with
    | error e => simp only [hs] at h; cases h
    | ok is =>
      simp only [hs] at h
      cases hr : s.tp.response t with
      | error e => simp only [hr] at h; cases h
      | ok q =>
        obtain ⟨v, tp⟩ := q
        simp only [hr] at h ⊢
        rw [show s.bare.tp.response t = _ from TimeProfile.response_bare hr]
        simp only [h]
        rfl

theorem pulseAll_bare {g : Grid K} {t : K} : ∀ (l l' : List (Source K)) (f f' : Flds K), pulseAll g t l f = .ok (l', f') →
    pulseAll g t (l.map Source.bare) f = .ok (l'.map Source.bare, f')
  | [], l', f, f', h => by cases h; rfl
  | s :: l, l', f, f', h => by
    unfold pulseAll at h
    obtain ⟨f1, h1, h⟩ := (Except.bind_ok ..).mp h
    obtain ⟨⟨k, f2⟩, h2, h⟩ := (Except.bind_ok ..).mp h
    cases h
    rw [List.map_cons, pulseAll, Source.pulse_bare h1]
    simp only [Except.ok_bind]
    rw [pulseAll_bare l k f1 _ h2]
    rfl

theorem Tfsf.pulse_bare {w w' : Tfsf K} (h : w.pulse = .ok w') : w.bare.pulse = .ok w'.bare := by
  unfold Tfsf.pulse at h
  simp only [Except.bind_ok] at h
  obtain ⟨a1, h1, a2, h2, ⟨v, tp⟩, h3, a4, h4, a5, h5, a6, h6, a7, h7, a8, h8, a9, h9, a10, h10, h⟩ := h
  cases h
  unfold Tfsf.pulse
  rw [show w.bare.Ez.rd 2 = _ from h1, Except.ok_bind]
  rw [show forRange 1 w.bare.Nx ⟨w.bare.Dz, w.bare.Ez, w.bare.Iz⟩ (lineEBody w.bare.Hx w.bare.ca w.bare.cb) = _ from h2, Except.ok_bind]
  rw [show w.bare.tp.response (w.bare.t + w.bare.dt) = _ from TimeProfile.response_bare h3, Except.ok_bind]
  simp only
  rw [h4, Except.ok_bind, show a4.wr 0 w.bare.left1 = _ from h5, Except.ok_bind, h6, Except.ok_bind,
    show a5.wr (w.bare.Nx - 1) w.bare.right1 = _ from h7, Except.ok_bind, show a7.rd (w.bare.Nx - 2) = _ from h8, Except.ok_bind]
  rw [show tfsfFourier a7 w.bare.Hx a1 (w.bare.t + w.bare.dt) w.bare.fourier = .ok none from rfl, Except.ok_bind,
    show forRange 0 (w.bare.Nx - 1) w.bare.Hx (lineHBody a7) = _ from h10]
  rfl

theorem optPulse_bare {o o' : Option (Tfsf K)} (h : optPulse o = .ok o') : optPulse (o.map Tfsf.bare) = .ok (o'.map Tfsf.bare) := by
  cases o with
  | none => cases h; rfl
  | some w =>
    obtain ⟨w', h1, h⟩ := (Except.bind_ok ..).mp h
    cases h
    show (do let w' ← w.bare.pulse; pure (some w')) = _
    rw [Tfsf.pulse_bare h1]; rfl

theorem optUpdateD_bare (o : Option (Tfsf K)) (E : Tensor K) : optUpdateD (o.map Tfsf.bare) E = optUpdateD o E := by cases o <;> rfl
theorem optUpdateH_bare (o : Option (Tfsf K)) (h : HPair K) : optUpdateH (o.map Tfsf.bare) h = optUpdateH o h := by cases o <;> rfl

theorem Core.stageE_bare {c c' : Core K} (h : c.stageE = .ok c') : c.bare.stageE = .ok c'.bare := by
  unfold Core.stageE at h
  simp only [Except.bind_ok] at h
  obtain ⟨a1, h1, ⟨a2, b2⟩, h2, ⟨a3, b3⟩, h3, ⟨a4, b4⟩, h4, ⟨a5, b5⟩, h5, a6, h6, h⟩ := h
  cases h
  unfold Core.stageE
  simp only [Core.bare, optUpdateD_bare]
  simp only [h1, h2, h3, h4, h5, h6, Except.ok_bind]
  rfl

theorem Core.stageH_bare {c c' : Core K} (h : c.stageH = .ok c') : c.bare.stageH = .ok c'.bare := by
  unfold Core.stageH at h
  simp only [Except.bind_ok] at h
  obtain ⟨a1, h1, a2, h2, ⟨a3, b3, d3⟩, h3, a4, h4, h⟩ := h
  cases h
  unfold Core.stageH
  simp only [Core.bare, optPulse_bare h1, Except.ok_bind, optUpdateH_bare]
  simp only [h2, h3, h4, Except.ok_bind]
  rfl

theorem Core.update_bare {c c' : Core K} {l l' : List (Source K)} (h : c.update l = .ok (c', l')) :
    c.bare.update (l.map Source.bare) = .ok (c'.bare, l'.map Source.bare) := by
  unfold Core.update at h
  simp only [Except.bind_ok] at h
  obtain ⟨a1, h1, ⟨l1, f1⟩, h2, a2, h3, h⟩ := h
  cases h
  unfold Core.update
  rw [Core.stageE_bare h1, Except.ok_bind, show pulseAll a1.bare.g a1.bare.t _ a1.bare.f = _ from pulseAll_bare _ _ _ _ h2, Except.ok_bind]
  simp only
  rw [show ({ a1.bare with f := f1 } : Core K).stageH = _ from Core.stageH_bare h3]
  rfl

theorem Core.insertObject_bare {c c' : Core K} {o : Object K} (h : c.insertObject o = .ok c') : c.bare.insertObject o = .ok c'.bare := by
  unfold Core.insertObject at h ⊢
  obtain ⟨f, h1, h⟩ := (Except.bind_ok ..).mp h
  rw [show paintObject c.bare.g o c.bare.f = _ from h1, Except.ok_bind]
  cases hk : o.mat.kind with
  | simple m => simp only [hk] at h; cases h; rfl
  | debye m => simp only [hk] at h; obtain ⟨l, h2, h⟩ := (Except.bind_ok ..).mp h; cases h; simp only [Core.bare, h2, Except.ok_bind]; rfl
  | drude m => simp only [hk] at h; obtain ⟨l, h2, h⟩ := (Except.bind_ok ..).mp h; cases h; simp only [Core.bare, h2, Except.ok_bind]; rfl
  | lorentz m => simp only [hk] at h; obtain ⟨l, h2, h⟩ := (Except.bind_ok ..).mp h; cases h; simp only [Core.bare, h2, Except.ok_bind]; rfl

theorem Core.updatePolGrid_bare {c c' : Core K} {o : Object K} (h : c.updatePolGrid o = .ok c') : c.bare.updatePolGrid o = .ok c'.bare := by
  unfold Core.updatePolGrid at h ⊢
  cases hk : o.mat.kind with
  | simple m => simp only [hk] at h; cases h; rfl
  | debye m => simp only [hk] at h; obtain ⟨l, h2, h⟩ := (Except.bind_ok ..).mp h; cases h; simp only [Core.bare, h2, Except.ok_bind]; rfl
  | drude m => simp only [hk] at h; obtain ⟨l, h2, h⟩ := (Except.bind_ok ..).mp h; cases h; simp only [Core.bare, h2, Except.ok_bind]; rfl
  | lorentz m => simp only [hk] at h; obtain ⟨l, h2, h⟩ := (Except.bind_ok ..).mp h; cases h; simp only [Core.bare, h2, Except.ok_bind]; rfl

/-- A loop under a map of its states. -/
theorem forList_image {σ τ ι : Type} (φ : σ → τ) (b : ι → σ → M σ) (b' : ι → τ → M τ) : ∀ (l : List ι)
    (_ : ∀ i ∈ l, ∀ s s', b i s = .ok s' → b' i (φ s) = .ok (φ s')) (s s' : σ), forList l s b = .ok s' → forList l (φ s) b' = .ok (φ s')
  | [], _, s, s', h => by cases h; rfl
  | i :: l, hb, s, s', h => by
    rw [forList_cons] at h ⊢
    obtain ⟨s1, h1, h⟩ := (Except.bind_ok ..).mp h
    rw [hb i (by simp) s s1 h1, Except.ok_bind]
    exact forList_image φ b b' l (fun i hi => hb i (by simp [hi])) s1 s' h

theorem forRange_image {σ τ : Type} (φ : σ → τ) {lo hi : ℤ} {b : ℤ → σ → M σ} {b' : ℤ → τ → M τ}
    (hb : ∀ i s s', b i s = .ok s' → b' i (φ s) = .ok (φ s')) {s s' : σ} (h : forRange lo hi s b = .ok s') : forRange lo hi (φ s) b' = .ok (φ s') :=
  forList_image φ b b' _ (fun i _ => hb i) s s' h

theorem Core.updateMaterialGrid_bare {c c' : Core K} {l : List (Object K)} (h : c.updateMaterialGrid l = .ok c') :
    c.bare.updateMaterialGrid l = .ok c'.bare := by
  unfold Core.updateMaterialGrid at h ⊢
  obtain ⟨f, h1, h⟩ := (Except.bind_ok ..).mp h
  rw [show Qbox.clearMaterials c.bare.g c.bare.f = _ from h1, Except.ok_bind]
  refine forList_image Core.bare _ _ l (fun o _ s s' hs => ?_) _ _ h
  obtain ⟨f, h1, h⟩ := (Except.bind_ok ..).mp hs
  rw [show paintObject s.bare.g o s.bare.f = _ from h1, Except.ok_bind]
  exact Core.updatePolGrid_bare h

theorem Tfsf.make_bare (g : Grid K) (tp : TimeProfile K) (vol : Vol K) (dt : K) : (Tfsf.make g tp vol dt).bare = Tfsf.make g tp.bare vol dt := rfl

theorem Phys.step_bare {p p' : Phys K} {op : Op K} (h : p.step op = .ok p') : p.bare.step op.bare = .ok p'.bare := by
  cases op with
  | update =>
    obtain ⟨⟨c, l⟩, h1, h⟩ := (Except.bind_ok ..).mp h
    cases h
    show (do let (c, l) ← p.core.bare.update (p.srcs.map Source.bare); pure (⟨c, l, p.objs⟩ : Phys K)) = _
    rw [Core.update_bare h1]; rfl
  | addObject o =>
    obtain ⟨c, h1, h⟩ := (Except.bind_ok ..).mp h
    cases h
    show (do let c ← p.core.bare.insertObject o; pure (⟨c, _, _⟩ : Phys K)) = _
    rw [Core.insertObject_bare h1]; rfl
  | addSource x => cases h; simp [Phys.step, Op.bare, Phys.bare]
  | clearFields =>
    cases h
    show Except.ok _ = _
    unfold Phys.bare Core.bare Core.clearFields
    cases p.core.tfsf <;> rfl
  | clearMaterials =>
    obtain ⟨c, h1, h⟩ := (Except.bind_ok ..).mp h
    cases h
    show (do let f ← Qbox.clearMaterials p.core.g p.core.f; pure _) = _
    rw [h1]; rfl
  | updateMaterialGrid =>
    obtain ⟨c, h1, h⟩ := (Except.bind_ok ..).mp h
    cases h
    show (do let c ← p.core.bare.updateMaterialGrid p.objs; pure _) = _
    rw [Core.updateMaterialGrid_bare h1]; rfl
  | setTfsf vol tp => cases h; rfl
  | pose i q => cases h; rfl
  | addMonitor => cases h; rfl
  | addTimeMonitor => cases h; rfl
  | removeMonitors => cases h; rfl
  | writeField => cases h; rfl
  | writeE => cases h; rfl
  | writeH => cases h; rfl
  | writeMonitor => cases h; rfl
  | writeTimeMonitor => cases h; rfl
  | subtract => cases h; rfl

/-- Two physical states that differ at most in recorded spectra remain so. -/
theorem Phys.run_bare : ∀ (ops : List (Op K)) (p q p' q' : Phys K), p.bare = q.bare → p.run ops = .ok p' → q.run ops = .ok q' → p'.bare = q'.bare
  | [], p, q, p', q', h, h1, h2 => by cases h1; cases h2; exact h
  | op :: l, p, q, p', q', h, h1, h2 => by
    unfold Phys.run at h1 h2
    obtain ⟨p1, e1, h1⟩ := (Except.bind_ok ..).mp h1
    obtain ⟨q1, e2, h2⟩ := (Except.bind_ok ..).mp h2
    have a1 := Phys.step_bare e1
    have a2 := Phys.step_bare e2
    rw [h, a2] at a1
    exact Phys.run_bare l p1 q1 p' q' (Except.ok.inj a1).symm h1 h2

/-! ## What `clear_fields` leaves -/

/-- The state as it would be before the first step: fields, incident line and layer are as when they were created, time is zero, and nothing has
been recorded. -/
def Core.rest (c : Core K) : Core K :=
  { c with
    t := 0, tStep := 0,
    f := { c.f with Ez := c.f.Ez.fill 0, Hx := c.f.Hx.fill 0, Hy := c.f.Hy.fill 0 },
    pml := { c.pml with psi := PmlPsi.init c.pml.par.T c.pml.Nx c.pml.Ny },
    tfsf := c.tfsf.map fun w => w.bare.reset }

def Phys.rest (p : Phys K) : Phys K := ⟨p.core.rest, p.srcs.map Source.bare, p.objs⟩

/-- No dispersive material is present. -/
structure Phys.Plain (p : Phys K) : Prop where
  debye : p.core.debye = []
  drude : p.core.drude = []
  lorentz : p.core.lorentz = []
  prevE : p.core.prevE = none
  prev2E : p.core.prev2E = none
  objs : ∀ o ∈ p.objs, ∃ m, o.mat.kind = .simple m

/-- The fields of a state put to rest. -/
def Flds.rest (f : Flds K) : Flds K := { f with Ez := f.Ez.fill 0, Hx := f.Hx.fill 0, Hy := f.Hy.fill 0 }

theorem setMat_rest {k : MatKind K} {dt : K} {i j : ℤ} {f f' : Flds K} (h : setMat k dt i j f = .ok f') : setMat k dt i j f.rest = .ok f'.rest := by
  unfold setMat at h ⊢
  simp only [Except.bind_ok] at h
  obtain ⟨a, h1, b, h2, c, h3, d, h4, h⟩ := h
  cases h
  simp only [Flds.rest, h1, h2, h3, h4, Except.ok_bind]
  rfl

theorem paintObject_rest {g : Grid K} {o : Object K} {f f' : Flds K} (h : paintObject g o f = .ok f') : paintObject g o f.rest = .ok f'.rest := by
  unfold paintObject at h ⊢
  refine forRange_image Flds.rest (fun i s s' hs => ?_) h
  refine forRange_image Flds.rest (fun j s s' hs => ?_) hs
  split
  · rename_i hc; rw [if_pos hc] at hs; exact setMat_rest hs
  · rename_i hc; rw [if_neg hc] at hs; cases hs; rfl

theorem clearMaterials_rest {g : Grid K} {f f' : Flds K} (h : clearMaterials g f = .ok f') : clearMaterials g f.rest = .ok f'.rest := by
  unfold clearMaterials at h ⊢
  refine forRange_image Flds.rest (fun i s s' hs => ?_) h
  exact forRange_image Flds.rest (fun j s s' hs => setMat_rest hs) hs

theorem Core.rest_f (c : Core K) : c.rest.f = c.f.rest := rfl

theorem Core.updateMaterialGrid_rest {c c' : Core K} {l : List (Object K)} (hl : ∀ o ∈ l, ∃ m, o.mat.kind = .simple m)
    (h : c.updateMaterialGrid l = .ok c') : c.rest.updateMaterialGrid l = .ok c'.rest ∧ ∃ f, c' = { c with f := f } := by
  unfold Core.updateMaterialGrid at h ⊢
  obtain ⟨f, h1, h⟩ := (Except.bind_ok ..).mp h
  rw [show Qbox.clearMaterials c.rest.g c.rest.f = _ from clearMaterials_rest h1, Except.ok_bind]
  constructor
  · refine forList_image Core.rest _ _ l (fun o ho s s' hs => ?_) _ _ h
    obtain ⟨f, h1, h⟩ := (Except.bind_ok ..).mp hs
    rw [show paintObject s.rest.g o s.rest.f = _ from paintObject_rest h1, Except.ok_bind]
    obtain ⟨m, hm⟩ := hl o ho
    unfold Core.updatePolGrid at h ⊢
    simp only [hm] at h ⊢
    cases h; rfl
  · have : ∀ (l : List (Object K)), (∀ o ∈ l, ∃ m, o.mat.kind = .simple m) → ∀ s s' : Core K, forList l s (fun o c => do
        let f ← paintObject c.g o c.f
        ({ c with f := f }).updatePolGrid o) = .ok s' → ∃ f, s' = { s with f := f } := by
      intro l
      induction l with
      | nil => intro _ s s' h; cases h; exact ⟨s.f, rfl⟩
      | cons o l ih =>
        intro hl s s' h
        rw [forList_cons] at h
        obtain ⟨s1, h1, h⟩ := (Except.bind_ok ..).mp h
        obtain ⟨f, h1, h2⟩ := (Except.bind_ok ..).mp h1
        obtain ⟨m, hm⟩ := hl o (by simp)
        unfold Core.updatePolGrid at h2
        simp only [hm] at h2
        cases h2
        obtain ⟨f', e⟩ := ih (fun o ho => hl o (by simp [ho])) _ _ h
        exact ⟨f', e⟩
    obtain ⟨f', e⟩ := this l hl _ _ h
    exact ⟨f', e⟩

/-! ### An update does not change what is at rest -/

theorem Arr.wr_n {a b : Arr K} {i : ℤ} {v : K} (h : a.wr i v = .ok b) : b.n = a.n := by
  unfold Arr.wr at h
  split at h
  · cases h; rfl
  · cases h

theorem Tfsf.pulse_rest {w w' : Tfsf K} (h : w.pulse = .ok w') : w'.bare.reset = w.bare.reset := by
  unfold Tfsf.pulse at h
  simp only [Except.bind_ok] at h
  obtain ⟨a1, h1, a2, h2, ⟨v, tp⟩, h3, a4, h4, a5, h5, a6, h6, a7, h7, a8, h8, a9, h9, a10, h10, h⟩ := h
  cases h
  have e1 : a2.Dz.n = w.Dz.n ∧ a2.Ez.n = w.Ez.n ∧ a2.Iz.n = w.Iz.n := by
    refine forRange_ok_rel (fun s s' : Line3 K => s'.Dz.n = s.Dz.n ∧ s'.Ez.n = s.Ez.n ∧ s'.Iz.n = s.Iz.n) (fun _ => ⟨rfl, rfl, rfl⟩)
      (fun a b c h k => ⟨k.1.trans h.1, k.2.1.trans h.2.1, k.2.2.trans h.2.2⟩) _ _ _ (fun k _ _ s s' hs => ?_) _ _ h2
    unfold lineEBody at hs
    simp only [Except.bind_ok] at hs
    obtain ⟨_, -, _, -, _, -, D, b1, _, -, _, -, _, -, E, b2, _, -, _, -, _, -, I, b3, hs⟩ := hs
    cases hs
    exact ⟨Arr.wr_n b1, Arr.wr_n b2, Arr.wr_n b3⟩
  have e2 : a10.n = w.Hx.n := by
    refine forRange_ok_rel (fun s s' : Arr K => s'.n = s.n) (fun _ => rfl) (fun a b c h k => k.trans h) _ _ _ (fun k _ _ s s' hs => ?_) _ _ h10
    unfold lineHBody at hs
    simp only [Except.bind_ok] at hs
    obtain ⟨_, -, _, -, _, -, hs⟩ := hs
    exact Arr.wr_n hs
  have e3 : tp.resp = w.tp.resp ∧ tp.params = w.tp.params := by
    unfold TimeProfile.response at h3
    cases hd : w.tp.dft with
    | none => simp only [hd] at h3; cases h3; exact ⟨rfl, rfl⟩
    | some d =>
      simp only [hd] at h3
      obtain ⟨⟨d', u⟩, -, h3⟩ := (Except.bind_ok ..).mp h3
      cases h3; exact ⟨rfl, rfl⟩
  have e4 : a7.n = w.Ez.n := by rw [Arr.wr_n h7, Arr.wr_n h5, Arr.wr_n h4, e1.2.1]
  simp only [Tfsf.bare, Tfsf.reset, TimeProfile.bare, e1.1, e1.2.2, e2, e3.1, e3.2, e4]

theorem Source.pulse_same {g : Grid K} {t : K} {s : Source K} {f : Flds K} : (s.pulse g t f).1.bare = s.bare := by
  have hr : ∀ {v tp}, s.tp.response t = .ok (v, tp) → ({ s with tp := tp } : Source K).bare = s.bare := by
    intro v tp h3
    unfold TimeProfile.response at h3
    cases hd : s.tp.dft with
    | none => simp only [hd] at h3; cases h3; rfl
    | some d =>
      simp only [hd] at h3
      obtain ⟨⟨d', u⟩, -, h3⟩ := (Except.bind_ok ..).mp h3
      cases h3; rfl
  unfold Source.pulse
  split
  · split
    · rfl
    · rename_i h; exact hr h
  · split
    · rfl
    · split
      · rfl
      · rename_i h; exact hr h

/-- Same sizes. -/
def Tensor.Same (a b : Tensor K) : Prop := b.nx = a.nx ∧ b.ny = a.ny

theorem Tensor.Same.refl (a : Tensor K) : a.Same a := ⟨rfl, rfl⟩
theorem Tensor.Same.trans {a b c : Tensor K} (h : a.Same b) (k : b.Same c) : a.Same c := ⟨k.1.trans h.1, k.2.trans h.2⟩
theorem Tensor.Same.fill {a b : Tensor K} (h : a.Same b) (v : K) : b.fill v = a.fill v := by
  unfold Tensor.fill; rw [h.1, h.2]
theorem Tensor.Same.wr {a b : Tensor K} {i j : ℤ} {v : K} (h : a.wr i j v = .ok b) : a.Same b := Tensor.wr_dims h

theorem loop2_same {lo hi a b : ℤ} {body : ℤ → ℤ → Tensor K → M (Tensor K)} (hb : ∀ i j s s', body i j s = .ok s' → s.Same s') {s s' : Tensor K}
    (h : forRange lo hi s (fun i s => forRange a b s (fun j s => body i j s)) = .ok s') : s.Same s' :=
  forRange_ok_rel Tensor.Same Tensor.Same.refl (fun _ _ _ => Tensor.Same.trans) _ _ _ (fun i _ _ s s' hs =>
    forRange_ok_rel Tensor.Same Tensor.Same.refl (fun _ _ _ => Tensor.Same.trans) _ _ _ (fun j _ _ s s' hs => hb i j s s' hs) _ _ hs) _ _ h

theorem psi2_same {lo hi a b : ℤ} {body : ℤ → ℤ → Psi2 K → M (Psi2 K)} (hb : ∀ i j s s', body i j s = .ok s' → s.F.Same s'.F) {s s' : Psi2 K}
    (h : forRange lo hi s (fun i s => forRange a b s (fun j s => body i j s)) = .ok s') : s.F.Same s'.F :=
  forRange_ok_rel (fun s s' : Psi2 K => s.F.Same s'.F) (fun s => .refl _) (fun _ _ _ => Tensor.Same.trans) _ _ _ (fun i _ _ s s' hs =>
    forRange_ok_rel (fun s s' : Psi2 K => s.F.Same s'.F) (fun s => .refl _) (fun _ _ _ => Tensor.Same.trans) _ _ _ (fun j _ _ s s' hs => hb i j s s' hs) _ _ hs) _ _ h

theorem Pml.updateE_same {p p' : Pml K} {Hx Hy Cb E E' : Tensor K} (h : p.updateE Hx Hy Cb E = .ok (p', E')) :
    E.Same E' ∧ ∃ psi, p' = { p with psi := psi } := by
  unfold Pml.updateE at h
  simp only [Except.bind_ok] at h
  obtain ⟨s, h1, r, h2, h⟩ := h
  cases h
  refine ⟨Tensor.Same.trans (b := s.F) (psi2_same (fun i j s s' hs => ?_) h1) (psi2_same (s := ⟨p.psi.Ezx1, p.psi.Ezx2, s.F⟩) (fun i j s s' hs => ?_) h2), _, rfl⟩
  · unfold pmlEyBody at hs
    simp only [Except.bind_ok] at hs
    obtain ⟨_, -, _, -, _, -, _, -, _, -, _, -, _, -, _, -, _, -, _, -, _, -, _, -, _, -, _, -, _, -, _, b1, _, -, _, -, _, -, _, b2, hs⟩ := hs
    cases hs
    exact (Tensor.Same.wr b1).trans (Tensor.Same.wr b2)
  · unfold pmlExBody at hs
    simp only [Except.bind_ok] at hs
    obtain ⟨_, -, _, -, _, -, _, -, _, -, _, -, _, -, _, -, _, -, _, -, _, -, _, -, _, -, _, -, _, -, _, b1, _, -, _, -, _, -, _, b2, hs⟩ := hs
    cases hs
    exact (Tensor.Same.wr b1).trans (Tensor.Same.wr b2)

theorem Pml.updateH_same {p p' : Pml K} {Ez Db X Y X' Y' : Tensor K} (h : p.updateH Ez Db X Y = .ok (p', X', Y')) :
    X.Same X' ∧ Y.Same Y' ∧ ∃ psi, p' = { p with psi := psi } := by
  unfold Pml.updateH at h
  simp only [Except.bind_ok] at h
  obtain ⟨s, h1, r, h2, h⟩ := h
  cases h
  refine ⟨psi2_same (fun i j s s' hs => ?_) h1, psi2_same (fun i j s s' hs => ?_) h2, _, rfl⟩
  · unfold pmlHyBody at hs
    simp only [Except.bind_ok] at hs
    obtain ⟨_, -, _, -, _, -, _, -, _, -, _, -, _, -, _, -, _, -, _, -, _, -, _, -, _, -, _, -, _, -, _, b1, _, -, _, -, _, -, _, b2, hs⟩ := hs
    cases hs
    exact (Tensor.Same.wr b1).trans (Tensor.Same.wr b2)
  · unfold pmlHxBody at hs
    simp only [Except.bind_ok] at hs
    obtain ⟨_, -, _, -, _, -, _, -, _, -, _, -, _, -, _, -, _, -, _, -, _, -, _, -, _, -, _, -, _, -, _, b1, _, -, _, -, _, -, _, b2, hs⟩ := hs
    cases hs
    exact (Tensor.Same.wr b1).trans (Tensor.Same.wr b2)

theorem ezLoop_same {Nx Ny : ℤ} {f : Flds K} {sc : Scaling K} {E : Tensor K} (h : ezLoop Nx Ny f sc = .ok E) : f.Ez.Same E := by
  unfold ezLoop at h
  refine loop2_same (fun i j s s' hs => ?_) h
  unfold ezBody at hs
  simp only [Except.bind_ok] at hs
  obtain ⟨_, -, _, -, _, -, _, -, _, -, _, -, _, -, _, -, _, -, hs⟩ := hs
  exact Tensor.Same.wr hs

theorem hLoop_same {Nx Ny : ℤ} {f : Flds K} {sc : Scaling K} {h : HPair K} (hh : hLoop Nx Ny f sc = .ok h) : f.Hx.Same h.Hx ∧ f.Hy.Same h.Hy := by
  unfold hLoop at hh
  have R := forRange_ok_rel (fun s s' : HPair K => s.Hx.Same s'.Hx ∧ s.Hy.Same s'.Hy) (fun s => ⟨.refl _, .refl _⟩)
    (fun _ _ _ h k => ⟨h.1.trans k.1, h.2.trans k.2⟩) _ _ _ (fun i _ _ s s' hs =>
    forRange_ok_rel (fun s s' : HPair K => s.Hx.Same s'.Hx ∧ s.Hy.Same s'.Hy) (fun s => ⟨.refl _, .refl _⟩)
    (fun _ _ _ h k => ⟨h.1.trans k.1, h.2.trans k.2⟩) _ _ _ (fun j _ _ s s' hs => by
      unfold hBody at hs
      simp only [Except.bind_ok] at hs
      obtain ⟨_, -, _, -, _, -, _, -, _, -, _, -, _, b1, _, -, _, -, _, -, _, -, _, -, _, -, _, b2, hs⟩ := hs
      cases hs
      exact ⟨Tensor.Same.wr b1, Tensor.Same.wr b2⟩) _ _ hs) _ _ hh
  exact R

theorem Tensor.addTo_same {a b : Tensor K} {i j : ℤ} {v : K} (h : a.addTo i j v = .ok b) : a.Same b := by
  unfold Tensor.addTo at h
  obtain ⟨_, -, h⟩ := (Except.bind_ok ..).mp h
  exact Tensor.Same.wr h

theorem optUpdateD_same {o : Option (Tfsf K)} {E E' : Tensor K} (h : optUpdateD o E = .ok E') : E.Same E' := by
  cases o with
  | none => cases h; exact .refl _
  | some w =>
    have h : w.updateD E = .ok E' := h
    unfold Tfsf.updateD at h
    refine forRange_ok_rel Tensor.Same Tensor.Same.refl (fun _ _ _ => Tensor.Same.trans) _ _ _ (fun i _ _ s s' hs => ?_) _ _ h
    simp only [Except.bind_ok] at hs
    obtain ⟨_, -, _, b1, _, -, hs⟩ := hs
    exact (Tensor.addTo_same b1).trans (Tensor.addTo_same hs)

theorem optUpdateH_same {o : Option (Tfsf K)} {h h' : HPair K} (hh : optUpdateH o h = .ok h') : h.Hx.Same h'.Hx ∧ h.Hy.Same h'.Hy := by
  cases o with
  | none => cases hh; exact ⟨.refl _, .refl _⟩
  | some w =>
    have hh : w.updateH h = .ok h' := hh
    unfold Tfsf.updateH at hh
    simp only [Except.bind_ok] at hh
    obtain ⟨X, h1, Y, h2, hh⟩ := hh
    cases hh
    constructor
    · refine forRange_ok_rel Tensor.Same Tensor.Same.refl (fun _ _ _ => Tensor.Same.trans) _ _ _ (fun i _ _ s s' hs => ?_) _ _ h1
      simp only [Except.bind_ok] at hs
      obtain ⟨_, -, _, b1, _, -, hs⟩ := hs
      exact (Tensor.addTo_same b1).trans (Tensor.addTo_same hs)
    · refine forRange_ok_rel Tensor.Same Tensor.Same.refl (fun _ _ _ => Tensor.Same.trans) _ _ _ (fun i _ _ s s' hs => ?_) _ _ h2
      simp only [Except.bind_ok] at hs
      obtain ⟨_, -, _, b1, _, -, hs⟩ := hs
      exact (Tensor.addTo_same b1).trans (Tensor.addTo_same hs)

/-- Same sizes of the fields, same coefficients. -/
structure Flds.Same (f f' : Flds K) : Prop where
  Ez : f.Ez.Same f'.Ez
  Hx : f.Hx.Same f'.Hx
  Hy : f.Hy.Same f'.Hy
  Ca : f'.Ca = f.Ca
  Cb : f'.Cb = f.Cb
  Da : f'.Da = f.Da
  Db : f'.Db = f.Db

theorem Flds.Same.refl (f : Flds K) : f.Same f := ⟨.refl _, .refl _, .refl _, rfl, rfl, rfl, rfl⟩
theorem Flds.Same.trans {a b c : Flds K} (h : a.Same b) (k : b.Same c) : a.Same c :=
  ⟨h.1.trans k.1, h.2.trans k.2, h.3.trans k.3, k.4.trans h.4, k.5.trans h.5, k.6.trans h.6, k.7.trans h.7⟩
theorem Flds.Same.rest {f f' : Flds K} (h : f.Same f') : f'.rest = f.rest := by
  unfold Flds.rest
  rw [h.1.fill, h.2.fill, h.3.fill, h.4, h.5, h.6, h.7]

theorem Flds.addAt_same {f f' : Flds K} {C : Fields} {i j : ℤ} {v : K} (h : f.addAt C i j v = .ok f') : f.Same f' := by
  unfold Flds.addAt at h
  cases C with
  | Ez =>
    simp only [Except.bind_ok] at h
    obtain ⟨_, -, _, b, h⟩ := h
    cases h; exact ⟨.wr b, .refl _, .refl _, rfl, rfl, rfl, rfl⟩
  | Hx =>
    simp only [Except.bind_ok] at h
    obtain ⟨_, -, _, b, h⟩ := h
    cases h; exact ⟨.refl _, .wr b, .refl _, rfl, rfl, rfl, rfl⟩
  | Hy =>
    simp only [Except.bind_ok] at h
    obtain ⟨_, -, _, b, h⟩ := h
    cases h; exact ⟨.refl _, .refl _, .wr b, rfl, rfl, rfl, rfl⟩
  | _ => cases h

theorem lineLoop_same {C : Fields} {b tg : V2 ℤ} {amp : K} : ∀ (k : ℕ) (p : V2 ℤ) (f f' : Flds K), lineLoop C b tg amp k p f = .ok f' → f.Same f'
  | 0, _, _, _, h => by cases h
  | k + 1, p, f, f', h => by
    unfold lineLoop at h
    split at h
    · cases h; exact .refl _
    · obtain ⟨f1, h1, h⟩ := (Except.bind_ok ..).mp h
      exact (Flds.addAt_same h1).trans (lineLoop_same k _ _ _ h)

theorem Source.pulse_fsame {g : Grid K} {t : K} {s : Source K} {f f' : Flds K} (h : (s.pulse g t f).2 = .ok f') : f.Same f' := by
  unfold Source.pulse at h
  split at h
  · split at h
    · cases h
    · exact Flds.addAt_same h
  · split at h
    · cases h
    · split at h
      · cases h
      · exact lineLoop_same _ _ _ _ h

theorem pulseAll_same {g : Grid K} {t : K} : ∀ (l l' : List (Source K)) (f f' : Flds K), pulseAll g t l f = .ok (l', f') →
    f.Same f' ∧ l'.map Source.bare = l.map Source.bare
  | [], l', f, f', h => by cases h; exact ⟨.refl _, rfl⟩
  | s :: l, l', f, f', h => by
    unfold pulseAll at h
    obtain ⟨f1, h1, h⟩ := (Except.bind_ok ..).mp h
    obtain ⟨⟨k, f2⟩, h2, h⟩ := (Except.bind_ok ..).mp h
    cases h
    obtain ⟨a, b⟩ := pulseAll_same l k f1 _ h2
    exact ⟨(Source.pulse_fsame h1).trans a, by rw [List.map_cons, List.map_cons, b, Source.pulse_same]⟩

theorem Core.stageE_rest {c c' : Core K} (h : c.stageE = .ok c') (hd : c.debye = []) (hr : c.drude = []) (hl : c.lorentz = [])
    (he : c.prevE = none) (hp : c.prev2E = none) : c'.rest = c.rest ∧ c'.debye = [] ∧ c'.drude = [] ∧ c'.lorentz = [] ∧ c'.prevE = none ∧ c'.prev2E = none := by
  unfold Core.stageE at h
  simp only [hd, hr, hl, he, hp] at h
  simp only [Except.bind_ok] at h
  obtain ⟨a1, h1, ⟨a2, b2⟩, h2, ⟨a3, b3⟩, h3, ⟨a4, b4⟩, h4, ⟨a5, b5⟩, h5, a6, h6, h⟩ := h
  cases h3; cases h4; cases h5; cases h
  refine ⟨?_, rfl, rfl, rfl, rfl, rfl⟩
  obtain ⟨k1, psi, rfl⟩ := Pml.updateE_same h2
  have k2 : c.f.Ez.Same a6 := ((ezLoop_same h1).trans k1).trans (optUpdateD_same h6)
  unfold Core.rest
  simp only [k2.fill]
  simp only [assignIf, hd, hr, hl, he, hp]

theorem Core.stageH_rest {c c' : Core K} (h : c.stageH = .ok c') : c'.rest = c.rest ∧ c'.debye = c.debye ∧ c'.drude = c.drude ∧
    c'.lorentz = c.lorentz ∧ c'.prevE = c.prevE ∧ c'.prev2E = c.prev2E := by
  unfold Core.stageH at h
  simp only [Except.bind_ok] at h
  obtain ⟨a1, h1, a2, h2, ⟨a3, b3, d3⟩, h3, a4, h4, h⟩ := h
  cases h
  refine ⟨?_, rfl, rfl, rfl, rfl, rfl⟩
  obtain ⟨x1, y1⟩ := hLoop_same h2
  obtain ⟨x2, y2, psi, rfl⟩ := Pml.updateH_same h3
  obtain ⟨x3, y3⟩ := optUpdateH_same h4
  have kx : c.f.Hx.Same a4.Hx := (x1.trans x2).trans x3
  have ky : c.f.Hy.Same a4.Hy := (y1.trans y2).trans y3
  have kt : a1.map (fun w => w.bare.reset) = c.tfsf.map fun w => w.bare.reset := by
    cases ht : c.tfsf with
    | none => rw [ht] at h1; cases h1; rfl
    | some w =>
      rw [ht] at h1
      obtain ⟨w', h5, h1⟩ := (Except.bind_ok ..).mp h1
      cases h1
      simp only [Option.map_some, Tfsf.pulse_rest h5]
  unfold Core.rest
  simp only [kx.fill, ky.fill, kt]

theorem Core.rest_flds (c : Core K) (f : Flds K) (h : c.f.Same f) : ({ c with f := f } : Core K).rest = c.rest := by
  unfold Core.rest
  have := h.rest
  unfold Flds.rest at this
  simp only [this]

theorem Phys.step_rest {p p' : Phys K} {op : Op K} (hp : p.Plain) (ho : NoDispersion op) (h : p.step op = .ok p') :
    p'.Plain ∧ if builds op then p.rest.step op.bare = .ok p'.rest else p'.rest = p.rest := by
  cases op with
  | update =>
    obtain ⟨⟨c, l⟩, h1, h⟩ := (Except.bind_ok ..).mp h
    cases h
    unfold Core.update at h1
    simp only [Except.bind_ok] at h1
    obtain ⟨a1, e1, ⟨l1, f1⟩, e2, a2, e3, h1⟩ := h1
    cases h1
    obtain ⟨r1, q1, q2, q3, q4, q5⟩ := Core.stageE_rest e1 hp.debye hp.drude hp.lorentz hp.prevE hp.prev2E
    obtain ⟨k1, k2⟩ := pulseAll_same _ _ _ _ e2
    obtain ⟨r2, s1, s2, s3, s4, s5⟩ := Core.stageH_rest e3
    refine ⟨⟨s1.trans q1, s2.trans q2, s3.trans q3, s4.trans q4, s5.trans q5, hp.objs⟩, ?_⟩
    rw [if_neg (by simp [builds])]
    unfold Phys.rest
    simp only [r2, k2, Core.rest_flds _ _ k1, r1]
  | addObject o =>
    obtain ⟨c, h1, h⟩ := (Except.bind_ok ..).mp h
    cases h
    obtain ⟨m, hm⟩ := ho
    unfold Core.insertObject at h1
    obtain ⟨f, h2, h1⟩ := (Except.bind_ok ..).mp h1
    simp only [hm] at h1
    cases h1
    refine ⟨⟨hp.debye, hp.drude, hp.lorentz, hp.prevE, hp.prev2E, ?_⟩, ?_⟩
    · intro o' ho'
      rcases List.mem_append.mp ho' with h | h
      · exact hp.objs o' h
      · rw [List.mem_singleton.mp h]; exact ⟨m, hm⟩
    · simp only [builds, ↓reduceIte]
      show (do let c ← p.core.rest.insertObject o; pure (⟨c, _, _⟩ : Phys K)) = _
      unfold Core.insertObject
      rw [show paintObject p.core.rest.g o p.core.rest.f = _ from paintObject_rest h2, Except.ok_bind]
      simp only [hm]
      rfl
  | addSource x =>
    cases h
    refine ⟨⟨hp.debye, hp.drude, hp.lorentz, hp.prevE, hp.prev2E, hp.objs⟩, ?_⟩
    simp only [builds, ↓reduceIte]
    simp [Phys.step, Op.bare, Phys.rest]
  | clearFields =>
    cases h
    refine ⟨⟨by simp [Core.clearFields, hp.debye], by simp [Core.clearFields, hp.drude], by simp [Core.clearFields, hp.lorentz], hp.prevE, hp.prev2E, hp.objs⟩, ?_⟩
    rw [if_neg (by simp [builds])]
    unfold Phys.rest Core.rest Core.clearFields
    simp only [hp.debye, hp.drude, hp.lorentz, List.map_nil]
    cases p.core.tfsf <;> rfl
  | clearMaterials =>
    obtain ⟨c, h1, h⟩ := (Except.bind_ok ..).mp h
    cases h
    refine ⟨⟨hp.debye, hp.drude, hp.lorentz, hp.prevE, hp.prev2E, hp.objs⟩, ?_⟩
    simp only [builds, ↓reduceIte]
    show (do let f ← Qbox.clearMaterials p.core.g p.core.f.rest; pure _) = _
    rw [clearMaterials_rest h1]; rfl
  | updateMaterialGrid =>
    obtain ⟨c, h1, h⟩ := (Except.bind_ok ..).mp h
    cases h
    obtain ⟨h2, f, rfl⟩ := Core.updateMaterialGrid_rest hp.objs h1
    refine ⟨⟨hp.debye, hp.drude, hp.lorentz, hp.prevE, hp.prev2E, hp.objs⟩, ?_⟩
    simp only [builds, ↓reduceIte]
    show (do let c ← p.core.rest.updateMaterialGrid p.objs; pure _) = _
    rw [h2]; rfl
  | setTfsf vol tp =>
    cases h
    exact ⟨⟨hp.debye, hp.drude, hp.lorentz, hp.prevE, hp.prev2E, hp.objs⟩, by simp only [builds, ↓reduceIte]; rfl⟩
  | pose i q =>
    cases h
    refine ⟨⟨hp.debye, hp.drude, hp.lorentz, hp.prevE, hp.prev2E, ?_⟩, by simp only [builds, ↓reduceIte]; rfl⟩
    intro o ho
    obtain ⟨k, hk, rfl⟩ := List.mem_iff_getElem.mp ho
    rw [List.getElem_modify]
    rw [List.length_modify] at hk
    obtain ⟨m, hm⟩ := hp.objs _ (List.getElem_mem hk)
    split
    · refine ⟨m, ?_⟩
      rw [← hm]
      cases q <;> rfl
    · exact ⟨m, hm⟩
  | addMonitor => cases h; exact ⟨hp, by rw [if_neg (by simp [builds])]⟩
  | addTimeMonitor => cases h; exact ⟨hp, by rw [if_neg (by simp [builds])]⟩
  | removeMonitors => cases h; exact ⟨hp, by rw [if_neg (by simp [builds])]⟩
  | writeField => cases h; exact ⟨hp, by rw [if_neg (by simp [builds])]⟩
  | writeE => cases h; exact ⟨hp, by rw [if_neg (by simp [builds])]⟩
  | writeH => cases h; exact ⟨hp, by rw [if_neg (by simp [builds])]⟩
  | writeMonitor => cases h; exact ⟨hp, by rw [if_neg (by simp [builds])]⟩
  | writeTimeMonitor => cases h; exact ⟨hp, by rw [if_neg (by simp [builds])]⟩
  | subtract => cases h; exact ⟨hp, by rw [if_neg (by simp [builds])]⟩

end Qbox
