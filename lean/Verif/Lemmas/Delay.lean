import Verif.Spec.DelaySpec
import Verif.Lemmas.Restart
import Verif.Lemmas.Reach
import Verif.Props.LinearProps

/-! # Two runs that differ only in their clocks, and what a quiet run keeps -/

namespace Qbox
open Scalar Spec Props

set_option linter.unusedSectionVars false
set_option linter.unusedSimpArgs false

/-! ## Clocks -/

/-- The signals agree at the steps after step `m`, up to step `hi`, when the second clock is `k` steps ahead. -/
def Agree (dt : ℝ) (k hi m : ℕ) (s s' : ℝ → ℝ) : Prop := ∀ j : ℕ, m < j → j ≤ hi → s' ((j + k : ℕ) * dt) = s (j * dt)

def LateSrc (dt : ℝ) (k hi m : ℕ) (x y : Source ℝ) : Prop := y.kind = x.kind ∧ Agree dt k hi m x.tp.resp y.tp.resp

structure LateWave (dt : ℝ) (k hi m : ℕ) (w w' : Tfsf ℝ) : Prop where
  step : w.dt = dt
  t : w.t = m * dt
  same : w' = { w with t := (m + k : ℕ) * dt, tp := w'.tp, fourier := w'.fourier }
  sig : Agree dt k hi m w.tp.resp w'.tp.resp

structure Late (k hi m : ℕ) (c c' : Core ℝ) : Prop where
  t : c.t = m * c.g.dt
  same : c' = { c with t := (m + k : ℕ) * c.g.dt, tStep := c'.tStep, tfsf := c'.tfsf }
  wave : Option.Rel (LateWave c.g.dt k hi m) c.tfsf c'.tfsf

theorem response_sig {tp tp' : TimeProfile ℝ} {t v : ℝ} (h : tp.response t = .ok (v, tp')) : v = tp.resp t ∧ tp'.resp = tp.resp := by
  obtain ⟨q, h1, h2⟩ := TimeProfile.response_ok tp t
  rw [h] at h1
  cases h1
  exact ⟨rfl, h2⟩

theorem Agree.next {dt : ℝ} {k hi m : ℕ} {s s' : ℝ → ℝ} (h : Agree dt k hi m s s') : Agree dt k hi (m + 1) s s' :=
  fun j h1 h2 => h j (by omega) h2

theorem Tfsf.pulse_late {dt : ℝ} {k hi m : ℕ} (hm : m < hi) {w w' v v' : Tfsf ℝ} (h : LateWave dt k hi m w w') (h1 : w.pulse = .ok v)
    (h2 : w'.pulse = .ok v') : LateWave dt k hi (m + 1) v v' := by
  obtain ⟨e1, e2, e3, e4⟩ := h
  unfold Tfsf.pulse at h1 h2
  rw [e3] at h2
  simp only [Except.bind_ok] at h1 h2
  obtain ⟨a1, b1, a2, b2, ⟨u, tp⟩, b3, a4, b4, a5, b5, a6, b6, a7, b7, a8, b8, a9, b9, a10, b10, h1⟩ := h1
  obtain ⟨a1', b1', a2', b2', ⟨u', tp'⟩, b3', a4', b4', a5', b5', a6', b6', a7', b7', a8', b8', a9', b9', a10', b10', h2⟩ := h2
  rw [b1] at b1'; cases b1'
  rw [b2] at b2'; cases b2'
  obtain ⟨r1, r2⟩ := response_sig b3
  obtain ⟨r1', r2'⟩ := response_sig b3'
  have t1 : w.t + w.dt = ((m + 1 : ℕ) : ℝ) * dt := by rw [e1, e2]; push_cast; ring
  have t2 : ((m + k : ℕ) : ℝ) * dt + w.dt = ((m + 1 + k : ℕ) : ℝ) * dt := by rw [e1]; push_cast; ring
  have ev : u' = u := by
    rw [r1, r1', t1]
    show w'.tp.resp (((m + k : ℕ) : ℝ) * dt + w.dt) = _
    rw [t2]
    exact e4 (m + 1) (by omega) (by omega)
  subst ev
  rw [b4] at b4'; cases b4'
  rw [b5] at b5'; cases b5'
  rw [b6] at b6'; cases b6'
  rw [b7] at b7'; cases b7'
  rw [b8] at b8'; cases b8'
  rw [b10] at b10'; cases b10'
  cases h1
  cases h2
  refine ⟨e1, t1, ?_, ?_⟩
  · simp only [Tfsf.mk.injEq, true_and, and_true]
    exact t2
  · simp only
    rw [r2, r2']
    exact e4.next

theorem optPulse_late {dt : ℝ} {k hi m : ℕ} (hm : m < hi) {o o' p p' : Option (Tfsf ℝ)} (h : Option.Rel (LateWave dt k hi m) o o')
    (h1 : optPulse o = .ok p) (h2 : optPulse o' = .ok p') : Option.Rel (LateWave dt k hi (m + 1)) p p' := by
  cases h with
  | none => cases h1; cases h2; exact .none
  | some h =>
    obtain ⟨v, a1, h1⟩ := (Except.bind_ok ..).mp h1
    obtain ⟨v', a2, h2⟩ := (Except.bind_ok ..).mp h2
    cases h1; cases h2
    exact .some (Tfsf.pulse_late hm h a1 a2)

theorem optUpdateD_late {dt : ℝ} {k hi m : ℕ} {o o' : Option (Tfsf ℝ)} (h : Option.Rel (LateWave dt k hi m) o o') (E : Tensor ℝ) :
    optUpdateD o' E = optUpdateD o E := by
  cases h with
  | none => rfl
  | some h => rw [h.same]; rfl

theorem optUpdateH_late {dt : ℝ} {k hi m : ℕ} {o o' : Option (Tfsf ℝ)} (h : Option.Rel (LateWave dt k hi m) o o') (p : HPair ℝ) :
    optUpdateH o' p = optUpdateH o p := by
  cases h with
  | none => rfl
  | some h => rw [h.same]; rfl

theorem Source.pulse_late {g : Grid ℝ} {k hi m : ℕ} (hm : m < hi) {s s' : Source ℝ} (h : LateSrc g.dt k hi m s s') {f f1 f2 : Flds ℝ}
    (h1 : (s.pulse g ((m + 1 : ℕ) * g.dt) f).2 = .ok f1) (h2 : (s'.pulse g ((m + 1 + k : ℕ) * g.dt) f).2 = .ok f2) :
    f1 = f2 ∧ LateSrc g.dt k hi (m + 1) (s.pulse g ((m + 1 : ℕ) * g.dt) f).1 (s'.pulse g ((m + 1 + k : ℕ) * g.dt) f).1 := by
  obtain ⟨e1, e2⟩ := h
  obtain ⟨tp, r1, r2⟩ := TimeProfile.response_ok s.tp ((m + 1 : ℕ) * g.dt)
  obtain ⟨tp', r1', r2'⟩ := TimeProfile.response_ok s'.tp ((m + 1 + k : ℕ) * g.dt)
  have ev := e2 (m + 1) (by omega) (by omega)
  have ag : Agree g.dt k hi (m + 1) tp.resp tp'.resp := by rw [r2, r2']; exact e2.next
  unfold Source.pulse at h1 h2 ⊢
  rw [e1] at h2 ⊢
  cases hk : s.kind with
  | point C p =>
    simp only [hk, r1, r1'] at h1 h2 ⊢
    rw [ev, h1] at h2
    cases h2
    exact ⟨rfl, rfl, ag⟩
  | line C surf =>
    simp only [hk] at h1 h2 ⊢
    cases hs : g.toGridS surf with
    | error e => simp only [hs] at h1; cases h1
    | ok is =>
      simp only [hs, r1, r1'] at h1 h2 ⊢
      rw [ev, h1] at h2
      cases h2
      exact ⟨rfl, rfl, ag⟩

theorem pulseAll_late {g : Grid ℝ} {k hi m : ℕ} (hm : m < hi) : ∀ {l l' k1 k2 : List (Source ℝ)} {f f1 f2 : Flds ℝ},
    List.Forall₂ (LateSrc g.dt k hi m) l l' → pulseAll g ((m + 1 : ℕ) * g.dt) l f = .ok (k1, f1) →
    pulseAll g ((m + 1 + k : ℕ) * g.dt) l' f = .ok (k2, f2) → f1 = f2 ∧ List.Forall₂ (LateSrc g.dt k hi (m + 1)) k1 k2 := by
  intro l l' k1 k2 f f1 f2 hl
  induction hl generalizing k1 k2 f f1 f2 with
  | nil => intro h1 h2; cases h1; cases h2; exact ⟨rfl, .nil⟩
  | cons hs hl ih =>
    intro h1 h2
    unfold pulseAll at h1 h2
    obtain ⟨a, a1, h1⟩ := (Except.bind_ok ..).mp h1
    obtain ⟨⟨b, c⟩, a2, h1⟩ := (Except.bind_ok ..).mp h1
    obtain ⟨a', a1', h2⟩ := (Except.bind_ok ..).mp h2
    obtain ⟨⟨b', c'⟩, a2', h2⟩ := (Except.bind_ok ..).mp h2
    obtain ⟨rfl, rfl⟩ := Prod.mk.inj (Except.ok.inj h1)
    obtain ⟨rfl, rfl⟩ := Prod.mk.inj (Except.ok.inj h2)
    obtain ⟨rfl, q⟩ := Source.pulse_late hm hs a1 a1'
    obtain ⟨e, q'⟩ := ih a2 a2'
    exact ⟨e, .cons q q'⟩

theorem Core.update_late {k hi m : ℕ} (hm : m < hi) {c c' d d' : Core ℝ} {l l' ls ls' : List (Source ℝ)} (h : Late k hi m c c')
    (hl : List.Forall₂ (LateSrc c.g.dt k hi m) l l') (h1 : c.update l = .ok (d, ls)) (h2 : c'.update l' = .ok (d', ls')) :
    Late k hi (m + 1) d d' ∧ List.Forall₂ (LateSrc d.g.dt k hi (m + 1)) ls ls' := by
  obtain ⟨e1, e2, e3⟩ := h
  have t1 : c.t + c.g.dt = ((m + 1 : ℕ) : ℝ) * c.g.dt := by rw [e1]; push_cast; ring
  have t2 : ((m + k : ℕ) : ℝ) * c.g.dt + c.g.dt = ((m + 1 + k : ℕ) : ℝ) * c.g.dt := by push_cast; ring
  unfold Core.update at h1 h2
  rw [e2] at h2
  simp only [Except.bind_ok] at h1 h2
  obtain ⟨a, b1, ⟨s1, f1⟩, b2, a', b3, h1⟩ := h1
  obtain ⟨p, q1, ⟨s2, f2⟩, q2, p', q3, h2⟩ := h2
  cases h1; cases h2
  unfold Core.stageE at b1 q1
  simp only [Except.bind_ok, optUpdateD_late e3] at b1 q1
  obtain ⟨a1, i1, ⟨a2, c2⟩, i2, ⟨a3, c3⟩, i3, ⟨a4, c4⟩, i4, ⟨a5, c5⟩, i5, a6, i6, b1⟩ := b1
  obtain ⟨a1', i1', ⟨a2', c2'⟩, i2', ⟨a3', c3'⟩, i3', ⟨a4', c4'⟩, i4', ⟨a5', c5'⟩, i5', a6', i6', q1⟩ := q1
  rw [i1] at i1'; cases i1'
  rw [i2] at i2'; cases i2'
  rw [i3] at i3'; cases i3'
  rw [i4] at i4'; cases i4'
  rw [i5] at i5'; cases i5'
  rw [i6] at i6'; cases i6'
  cases b1; cases q1
  simp only [t1, t2] at b2 q2
  obtain ⟨rfl, r⟩ := pulseAll_late hm hl b2 q2
  unfold Core.stageH at b3 q3
  simp only [Except.bind_ok] at b3 q3
  obtain ⟨w, j1, a8, j2, ⟨a9, c9, d9⟩, j3, a10, j4, b3⟩ := b3
  obtain ⟨w', j1', a8', j2', ⟨a9', c9', d9'⟩, j3', a10', j4', q3⟩ := q3
  have hw := optPulse_late hm e3 j1 j1'
  rw [optUpdateH_late hw] at j4'
  rw [j2] at j2'; cases j2'
  rw [j3] at j3'; cases j3'
  rw [j4] at j4'; cases j4'
  cases b3; cases q3
  refine ⟨⟨t1, ?_, hw⟩, r⟩
  simp only [Core.mk.injEq, true_and, and_true]
  exact t2

theorem Core.run_late {k hi : ℕ} : ∀ (n m : ℕ), m + n ≤ hi → ∀ {c c' d d' : Core ℝ} {l l' ls ls' : List (Source ℝ)}, Late k hi m c c' →
    List.Forall₂ (LateSrc c.g.dt k hi m) l l' → c.run n l = .ok (d, ls) → c'.run n l' = .ok (d', ls') →
    Late k hi (m + n) d d' ∧ List.Forall₂ (LateSrc d.g.dt k hi (m + n)) ls ls'
  | 0, m, _, c, c', d, d', l, l', ls, ls', h, hl, h1, h2 => by cases h1; cases h2; exact ⟨h, hl⟩
  | n + 1, m, hm, c, c', d, d', l, l', ls, ls', h, hl, h1, h2 => by
    unfold Core.run at h1 h2
    obtain ⟨⟨e, le⟩, a1, h1⟩ := (Except.bind_ok ..).mp h1
    obtain ⟨⟨e', le'⟩, a2, h2⟩ := (Except.bind_ok ..).mp h2
    obtain ⟨r1, r2⟩ := Core.update_late (by omega) h hl a1 a2
    have := Core.run_late n (m + 1) (by omega) r1 r2 h1 h2
    rwa [show m + 1 + n = m + (n + 1) by omega] at this

theorem Core.run_plus : ∀ (m n : ℕ) {c d e : Core ℝ} {l ls le : List (Source ℝ)}, c.run m l = .ok (d, ls) → d.run n ls = .ok (e, le) →
    c.run (m + n) l = .ok (e, le)
  | 0, n, c, d, e, l, ls, le, h1, h2 => by cases h1; rw [Nat.zero_add]; exact h2
  | m + 1, n, c, d, e, l, ls, le, h1, h2 => by
    unfold Core.run at h1
    obtain ⟨⟨p, q⟩, a1, h1⟩ := (Except.bind_ok ..).mp h1
    rw [show m + 1 + n = (m + n) + 1 by omega]
    unfold Core.run
    rw [a1, Except.ok_bind]
    exact Core.run_plus m n h1 h2

/-! ## What no step changes -/

def SamePol {P : Type} (R : P → P → Prop) (x y : String × P) : Prop := y.1 = x.1 ∧ R x.2 y.2

theorem mapUpdateJ_pol {P : Type} {R : P → P → Prop} {upd : P → Tensor ℝ → M (P × Tensor ℝ)} (h : ∀ p E r, upd p E = .ok r → R p r.1) :
    ∀ (l : List (String × P)) (E : Tensor ℝ) r, mapUpdateJ upd l E = .ok r → List.Forall₂ (SamePol R) l r.1
  | [], E, r, hr => by cases hr; exact .nil
  | (n, a) :: l, E, r, hr => by
    obtain ⟨x, h1, hr⟩ := (Except.bind_ok ..).mp hr
    obtain ⟨y, h2, hr⟩ := (Except.bind_ok ..).mp hr
    cases hr
    exact .cons ⟨rfl, h _ _ _ h1⟩ (mapUpdateJ_pol h l _ _ h2)

/-- Total-field regions of the same place. -/
structure SamePlace (x y : Tfsf ℝ) : Prop where
  ia : y.ia = x.ia
  ib : y.ib = x.ib
  ja : y.ja = x.ja
  jb : y.jb = x.jb
  Nx : y.Nx = x.Nx
  dt : y.dt = x.dt
  ca : y.ca = x.ca
  cb : y.cb = x.cb
  sig : y.tp.resp = x.tp.resp

/-- What no step changes. -/
structure SameMedia (c d : Core ℝ) : Prop where
  g : d.g = c.g
  sc : d.sc = c.sc
  f : SameTable c.f d.f
  pml : SameLayer c.pml d.pml
  prevE : d.prevE.isSome = c.prevE.isSome
  prev2E : d.prev2E.isSome = c.prev2E.isSome
  debye : List.Forall₂ (SamePol fun p q : DebyePol ℝ => q.mat = p.mat ∧ q.beta = p.beta) c.debye d.debye
  drude : List.Forall₂ (SamePol fun p q : DrudePol ℝ => q.mat = p.mat ∧ q.beta = p.beta) c.drude d.drude
  lorentz : List.Forall₂ (SamePol fun p q : LorentzPol ℝ => q.mat = p.mat ∧ q.delta = p.delta) c.lorentz d.lorentz
  tfsf : Option.Rel SamePlace c.tfsf d.tfsf

theorem forall₂_trans {α : Type} {R : α → α → Prop} (hR : ∀ x y z, R x y → R y z → R x z) : ∀ {l m n : List α}, List.Forall₂ R l m →
    List.Forall₂ R m n → List.Forall₂ R l n
  | _, _, _, .nil, .nil => .nil
  | _, _, _, .cons h1 h2, .cons k1 k2 => .cons (hR _ _ _ h1 k1) (forall₂_trans hR h2 k2)

theorem SameMedia.refl (c : Core ℝ) : SameMedia c c where
  g := rfl
  sc := rfl
  f := ⟨rfl, rfl, rfl, rfl⟩
  pml := ⟨rfl, rfl, rfl, rfl⟩
  prevE := rfl
  prev2E := rfl
  debye := List.forall₂_same.mpr fun _ _ => ⟨rfl, rfl, rfl⟩
  drude := List.forall₂_same.mpr fun _ _ => ⟨rfl, rfl, rfl⟩
  lorentz := List.forall₂_same.mpr fun _ _ => ⟨rfl, rfl, rfl⟩
  tfsf := by
    cases c.tfsf with
    | none => exact .none
    | some w => exact .some ⟨rfl, rfl, rfl, rfl, rfl, rfl, rfl, rfl, rfl⟩

theorem SameMedia.trans {c d e : Core ℝ} (h : SameMedia c d) (k : SameMedia d e) : SameMedia c e where
  g := k.g.trans h.g
  sc := k.sc.trans h.sc
  f := ⟨k.f.1.trans h.f.1, k.f.2.1.trans h.f.2.1, k.f.2.2.1.trans h.f.2.2.1, k.f.2.2.2.trans h.f.2.2.2⟩
  pml := ⟨k.pml.1.trans h.pml.1, k.pml.2.1.trans h.pml.2.1, k.pml.2.2.1.trans h.pml.2.2.1, k.pml.2.2.2.trans h.pml.2.2.2⟩
  prevE := k.prevE.trans h.prevE
  prev2E := k.prev2E.trans h.prev2E
  debye := forall₂_trans (fun _ _ _ a b => ⟨b.1.trans a.1, b.2.1.trans a.2.1, b.2.2.trans a.2.2⟩) h.debye k.debye
  drude := forall₂_trans (fun _ _ _ a b => ⟨b.1.trans a.1, b.2.1.trans a.2.1, b.2.2.trans a.2.2⟩) h.drude k.drude
  lorentz := forall₂_trans (fun _ _ _ a b => ⟨b.1.trans a.1, b.2.1.trans a.2.1, b.2.2.trans a.2.2⟩) h.lorentz k.lorentz
  tfsf := by
    have a := h.tfsf
    have b := k.tfsf
    generalize c.tfsf = x at a ⊢
    generalize d.tfsf = y at a b
    generalize e.tfsf = z at b ⊢
    cases a with
    | none => cases b; exact .none
    | some a =>
      cases b with
      | some b => exact .some ⟨b.ia.trans a.ia, b.ib.trans a.ib, b.ja.trans a.ja, b.jb.trans a.jb, b.Nx.trans a.Nx, b.dt.trans a.dt,
          b.ca.trans a.ca, b.cb.trans a.cb, b.sig.trans a.sig⟩

theorem debye_keeps {g : Grid ℝ} {P : DebyePol ℝ} {pE Ez r} (h : P.updateJ g pE Ez = .ok r) : r.1.mat = P.mat ∧ r.1.beta = P.beta := by
  obtain ⟨s, -, h⟩ := (Except.bind_ok ..).mp h
  cases h; exact ⟨rfl, rfl⟩
theorem drude_keeps {g : Grid ℝ} {P : DrudePol ℝ} {pE Ez r} (h : P.updateJ g pE Ez = .ok r) : r.1.mat = P.mat ∧ r.1.beta = P.beta := by
  obtain ⟨s, -, h⟩ := (Except.bind_ok ..).mp h
  cases h; exact ⟨rfl, rfl⟩
theorem lorentz_keeps {g : Grid ℝ} {P : LorentzPol ℝ} {pE Ez r} (h : P.updateJ g pE Ez = .ok r) : r.1.mat = P.mat ∧ r.1.delta = P.delta := by
  obtain ⟨s, -, h⟩ := (Except.bind_ok ..).mp h
  cases h; exact ⟨rfl, rfl⟩

theorem Tfsf.pulse_place {w v : Tfsf ℝ} (h : w.pulse = .ok v) : SamePlace w v := by
  unfold Tfsf.pulse at h
  simp only [Except.bind_ok] at h
  obtain ⟨a1, -, a2, -, ⟨u, tp⟩, r, a4, -, a5, -, a6, -, a7, -, a8, -, a9, -, a10, -, h⟩ := h
  cases h
  exact ⟨rfl, rfl, rfl, rfl, rfl, rfl, rfl, rfl, (response_sig r).2⟩

theorem isSome_assign {α : Type} (o v : Option α) (h : o.isSome → v.isSome) : (assignIf o v).isSome = o.isSome := by
  cases o with
  | none => rfl
  | some x => exact h rfl

theorem Core.Step.media {c c' : Core ℝ} {l l' : List (Source ℝ)} {E2 E3 E4 : Tensor ℝ} {f : Flds ℝ} (S : c.Step l c' l' E2 E3 E4 f)
    (hp : c.prev2E.isSome → c.prevE.isSome) : SameMedia c c' where
  g := S.g
  sc := S.sc
  f := S.coef'
  pml := by rw [S.pml]; exact ⟨rfl, rfl, rfl, rfl⟩
  prevE := by rw [S.prevE]; exact isSome_assign _ _ fun _ => rfl
  prev2E := by rw [S.prev2E]; exact isSome_assign _ _ hp
  debye := mapUpdateJ_pol (fun _ _ _ h => debye_keeps h) _ _ _ S.hd
  drude := mapUpdateJ_pol (fun _ _ _ h => drude_keeps h) _ _ _ S.hr
  lorentz := mapUpdateJ_pol (fun _ _ _ h => lorentz_keeps h) _ _ _ S.hl
  tfsf := by
    have h := S.tf
    cases e : c.tfsf with
    | none => rw [e] at h; rw [← Except.ok.inj h]; exact .none
    | some w =>
      rw [e] at h
      obtain ⟨v, a, h⟩ := (Except.bind_ok ..).mp h
      rw [← Except.ok.inj h]
      exact .some (Tfsf.pulse_place a)

theorem Core.run_media : ∀ (n : ℕ) {c d : Core ℝ} {l ls : List (Source ℝ)}, c.Std → (c.prev2E.isSome → c.prevE.isSome) → (∀ s ∈ l, Fits c.g s) →
    c.run n l = .ok (d, ls) → SameMedia c d
  | 0, c, d, l, ls, _, _, _, h => by cases h; exact SameMedia.refl _
  | n + 1, c, d, l, ls, hs, hp, hf, h => by
    obtain ⟨e, le, E2, E3, E4, f, u, S⟩ := Core.update_step hs l hf
    unfold Core.run at h
    rw [u] at h
    have m := S.media hp
    exact m.trans (Core.run_media n S.std (by rw [m.prevE, m.prev2E]; exact hp) S.fits h)

end Qbox
