import Verif.Spec.RenameSpec
import Verif.Lemmas.MatGrid
import Mathlib.Data.String.Basic

/-!
# Renaming materials: two simulations in lockstep
-/

namespace Qbox
open Scalar Spec

set_option linter.unusedSectionVars false

/-- Both computations fail in the same way, or their results correspond. -/
def MRel {α β : Type} (Q : α → β → Prop) : M α → M β → Prop
  | .ok a, .ok b => Q a b
  | .error e, .error e' => e = e'
  | _, _ => False

/-- Both calls have the same outcome and leave corresponding states. -/
def ResRel {σ : Type} (Q : σ → σ → Prop) : Res σ → Res σ → Prop
  | .ok a, .ok b => Q a b
  | .threw m a, .threw m' b => m = m' ∧ Q a b
  | .ub u, .ub u' => u = u'
  | _, _ => False

theorem MRel.same {α : Type} (x : M α) : MRel (fun a b => a = b) x x := by cases x <;> exact rfl

theorem MRel.pure {α β : Type} {Q : α → β → Prop} {a : α} {b : β} (h : Q a b) : MRel Q (Pure.pure a) (Pure.pure b) := h

theorem MRel.bind {α β γ δ : Type} {Q : α → β → Prop} {S : γ → δ → Prop} {x : M α} {y : M β} {k : α → M γ} {l : β → M δ}
    (h : MRel Q x y) (hk : ∀ a b, Q a b → MRel S (k a) (l b)) : MRel S (x >>= k) (y >>= l) := by
  cases x <;> cases y <;> first | exact hk _ _ h | exact h | exact h.elim

theorem MRel.bindSame {α γ δ : Type} {S : γ → δ → Prop} (x : M α) {k : α → M γ} {l : α → M δ}
    (hk : ∀ a, MRel S (k a) (l a)) : MRel S (x >>= k) (x >>= l) :=
  MRel.bind (MRel.same x) (fun a b (h : a = b) => by subst h; exact hk a)

theorem ResRel.tryM {σ α β : Type} {Q : α → β → Prop} {S : σ → σ → Prop} {x : M α} {y : M β} {s s' : σ} {k : α → Res σ} {l : β → Res σ}
    (h : MRel Q x y) (hs : S s s') (hk : ∀ a b, Q a b → ResRel S (k a) (l b)) : ResRel S (Qbox.tryM x s k) (Qbox.tryM y s' l) := by
  cases x with
  | ok a => cases y with
    | ok b => exact hk _ _ h
    | error e => exact h.elim
  | error e => cases y with
    | ok b => exact h.elim
    | error e' =>
      have : e = e' := h
      subst this
      cases e with
      | ub u => rfl
      | exn m => exact ⟨rfl, hs⟩

theorem ResRel.trySame {σ α : Type} {S : σ → σ → Prop} (x : M α) {s s' : σ} {k l : α → Res σ}
    (hs : S s s') (hk : ∀ a, ResRel S (k a) (l a)) : ResRel S (Qbox.tryM x s k) (Qbox.tryM x s' l) :=
  ResRel.tryM (MRel.same x) hs (fun a b (h : a = b) => by subst h; exact hk a)

theorem ResRel.andThen {σ : Type} {S : σ → σ → Prop} {r r' : Res σ} {k l : σ → Res σ} (h : ResRel S r r')
    (hk : ∀ a b, S a b → ResRel S (k a) (l b)) : ResRel S (r.andThen k) (r'.andThen l) := by
  cases r <;> cases r' <;> first | exact hk _ _ h | exact h | exact h.elim

section maps
variable {α : Type} {R : String → String → Prop}

/-- Maps with the same values under corresponding names. -/
abbrev KeyRel (R : String → String → Prop) (l l' : List (String × α)) : Prop :=
  List.Forall₂ (fun p p' => R p.1 p'.1 ∧ p.2 = p'.2) l l'

theorem Spec.KeepsOrder.eq_iff (hR : KeepsOrder R) {a a' b b' : String} (h1 : R a a') (h2 : R b b') : a = b ↔ a' = b' := by
  have u := hR _ _ _ _ h1 h2
  have v := hR _ _ _ _ h2 h1
  constructor
  · rintro rfl
    rcases lt_trichotomy a' b' with h | h | h
    · exact absurd (u.mpr h) (lt_irrefl _)
    · exact h
    · exact absurd (v.mpr h) (lt_irrefl _)
  · rintro rfl
    rcases lt_trichotomy a b with h | h | h
    · exact absurd (u.mp h) (lt_irrefl _)
    · exact h
    · exact absurd (v.mp h) (lt_irrefl _)

theorem KeyRel.find (hR : KeepsOrder R) {n n' : String} (hn : R n n') {l l' : List (String × α)} (h : KeyRel R l l') :
    mapFind n l = mapFind n' l' := by
  induction h with
  | nil => rfl
  | @cons p p' l l' hp _ ih =>
    obtain ⟨a, x⟩ := p
    obtain ⟨a', x'⟩ := p'
    obtain ⟨h1, h2⟩ := hp
    simp only at h1 h2
    unfold mapFind
    by_cases e : a = n
    · rw [if_pos e, if_pos ((hR.eq_iff h1 hn).mp e), h2]
    · rw [if_neg e, if_neg (fun e' => e ((hR.eq_iff h1 hn).mpr e')), ih]

theorem KeyRel.set (hR : KeepsOrder R) {n n' : String} (hn : R n n') (x : α) {l l' : List (String × α)} (h : KeyRel R l l') :
    KeyRel R (mapSet n x l) (mapSet n' x l') := by
  induction h with
  | nil => exact .nil
  | @cons p p' l l' hp hl ih =>
    obtain ⟨a, y⟩ := p
    obtain ⟨a', y'⟩ := p'
    obtain ⟨h1, h2⟩ := hp
    simp only at h1 h2
    unfold mapSet
    by_cases e : a = n
    · rw [if_pos e, if_pos ((hR.eq_iff h1 hn).mp e)]; exact .cons ⟨h1, rfl⟩ hl
    · rw [if_neg e, if_neg (fun e' => e ((hR.eq_iff h1 hn).mpr e'))]; exact .cons ⟨h1, h2⟩ ih

theorem KeyRel.insert (hR : KeepsOrder R) {n n' : String} (hn : R n n') (x : α) {l l' : List (String × α)} (h : KeyRel R l l') :
    KeyRel R (mapInsert n x l) (mapInsert n' x l') := by
  induction h with
  | nil => exact .cons ⟨hn, rfl⟩ .nil
  | @cons p p' l l' hp hl ih =>
    obtain ⟨a, y⟩ := p
    obtain ⟨a', y'⟩ := p'
    obtain ⟨h1, h2⟩ := hp
    simp only at h1 h2
    unfold mapInsert
    by_cases e : n < a
    · rw [if_pos e, if_pos ((hR _ _ _ _ hn h1).mp e)]; exact .cons ⟨hn, rfl⟩ (.cons ⟨h1, h2⟩ hl)
    · rw [if_neg e, if_neg (fun e' => e ((hR _ _ _ _ hn h1).mpr e'))]; exact .cons ⟨h1, h2⟩ ih

theorem KeyRel.addPol (hR : KeepsOrder R) {n n' : String} (hn : R n n') (fresh : α) (ins : α → M α) {l l' : List (String × α)} (h : KeyRel R l l') :
    MRel (KeyRel R) (Qbox.addPol n fresh ins l) (Qbox.addPol n' fresh ins l') := by
  unfold Qbox.addPol
  rw [KeyRel.find hR hn h]
  cases mapFind n' l' with
  | none => exact MRel.bindSame _ fun p => KeyRel.insert hR hn p h
  | some p => exact MRel.bindSame _ fun p => KeyRel.set hR hn p h

theorem KeyRel.atInsert (hR : KeepsOrder R) {n n' : String} (hn : R n n') (ins : α → M α) {l l' : List (String × α)} (h : KeyRel R l l') :
    MRel (KeyRel R) (Qbox.atInsert n ins l) (Qbox.atInsert n' ins l') := by
  unfold Qbox.atInsert
  rw [KeyRel.find hR hn h]
  cases mapFind n' l' with
  | none => exact rfl
  | some p => exact MRel.bindSame _ fun p => KeyRel.set hR hn p h

theorem KeyRel.map {l l' : List (String × α)} (f : α → α) (h : KeyRel R l l') :
    KeyRel R (l.map fun p => (p.1, f p.2)) (l'.map fun p => (p.1, f p.2)) := by
  induction h with
  | nil => exact .nil
  | cons hp _ ih => exact .cons ⟨hp.1, congrArg f hp.2⟩ ih

theorem KeyRel.updateJ {K : Type} (upd : α → Tensor K → M (α × Tensor K)) {l l' : List (String × α)} (h : KeyRel R l l') (E : Tensor K) :
    MRel (fun p p' => KeyRel R p.1 p'.1 ∧ p.2 = p'.2) (mapUpdateJ upd l E) (mapUpdateJ upd l' E) := by
  induction h generalizing E with
  | nil => exact ⟨.nil, rfl⟩
  | @cons p p' l l' hp _ ih =>
    obtain ⟨a, y⟩ := p
    obtain ⟨a', y'⟩ := p'
    obtain ⟨h1, h2⟩ := hp
    simp only at h1 h2
    subst h2
    unfold mapUpdateJ
    refine MRel.bindSame _ fun q => MRel.bind (ih q.2) fun r r' hr => ?_
    obtain ⟨r1, r2⟩ := r
    obtain ⟨r1', r2'⟩ := r'
    obtain ⟨k1, k2⟩ := hr
    exact ⟨.cons ⟨h1, rfl⟩ k1, k2⟩

end maps

variable {K : Type} [Scalar K]

/-- Physical states that differ in the names of materials only. -/
structure CoreRel (R : String → String → Prop) (c c' : Core K) : Prop where
  same : c' = { c with debye := c'.debye, drude := c'.drude, lorentz := c'.lorentz }
  debye : KeyRel R c.debye c'.debye
  drude : KeyRel R c.drude c'.drude
  lorentz : KeyRel R c.lorentz c'.lorentz

/-- Simulations that differ in the names of materials only. -/
structure SimRel (R : String → String → Prop) (s s' : Sim K) : Prop where
  same : s' = { s with core := s'.core, objs := s'.objs, mats := s'.mats }
  core : CoreRel R s.core s'.core
  objs : List.Forall₂ (Renamed R) s.objs s'.objs

variable {R : String → String → Prop}

theorem Spec.Renamed.paint {o o' : Object K} (h : Renamed R o o') (g : Grid K) (f : Flds K) : paintObject g o' f = paintObject g o f := by
  rw [h.same]; rfl

theorem Spec.Renamed.debyeInsert {o o' : Object K} (h : Renamed R o o') (g : Grid K) (P : DebyePol K) : P.insert g o' = P.insert g o := by
  rw [h.same]; rfl

theorem Spec.Renamed.drudeInsert {o o' : Object K} (h : Renamed R o o') (g : Grid K) (P : DrudePol K) : P.insert g o' = P.insert g o := by
  rw [h.same]; rfl

theorem Spec.Renamed.lorentzInsert {o o' : Object K} (h : Renamed R o o') (g : Grid K) (P : LorentzPol K) : P.insert g o' = P.insert g o := by
  rw [h.same]; rfl

theorem Spec.Renamed.kind {o o' : Object K} (h : Renamed R o o') : o'.mat.kind = o.mat.kind := by rw [h.same]

theorem Spec.Renamed.pose {o o' : Object K} (h : Renamed R o o') (p : PoseOp K) : Renamed R (o.pose p) (o'.pose p) := by
  obtain ⟨h1, h2⟩ := h
  generalize o'.mat.name = n at h1 h2
  subst h1
  cases p <;> exact ⟨rfl, h2⟩

theorem CoreRel.insertObject (hR : KeepsOrder R) {c c' : Core K} (h : CoreRel R c c') {o o' : Object K} (ho : Renamed R o o') :
    MRel (CoreRel R) (c.insertObject o) (c'.insertObject o') := by
  obtain ⟨e, h1, h2, h3⟩ := h
  generalize c'.debye = d' at e h1
  generalize c'.drude = r' at e h2
  generalize c'.lorentz = l' at e h3
  subst e
  unfold Core.insertObject
  simp only [ho.paint, ho.kind]
  refine MRel.bindSame _ fun f => ?_
  have hn : ∀ {P : Prop}, (∀ m, o.mat.kind ≠ .simple m) → (R o.mat.name o'.mat.name → P) → P := by
    intro P hk hP
    rcases ho.corr with ⟨m, hm⟩ | h
    · exact absurd hm (hk m)
    · exact hP h
  cases hk : o.mat.kind with
  | simple m => exact ⟨rfl, h1, h2, h3⟩
  | debye m =>
    refine hn (by rw [hk]; simp) fun hn => ?_
    simp only [ho.debyeInsert]
    exact MRel.bind (S := CoreRel R) (KeyRel.addPol hR hn _ _ h1) fun l k hl => MRel.pure ⟨rfl, hl, h2, h3⟩
  | drude m =>
    refine hn (by rw [hk]; simp) fun hn => ?_
    simp only [ho.drudeInsert]
    exact MRel.bind (S := CoreRel R) (KeyRel.addPol hR hn _ _ h2) fun l k hl => MRel.pure ⟨rfl, h1, hl, h3⟩
  | lorentz m =>
    refine hn (by rw [hk]; simp) fun hn => ?_
    simp only [ho.lorentzInsert]
    exact MRel.bind (S := CoreRel R) (KeyRel.addPol hR hn _ _ h3) fun l k hl => MRel.pure ⟨rfl, h1, h2, hl⟩

theorem CoreRel.updatePolGrid (hR : KeepsOrder R) {c c' : Core K} (h : CoreRel R c c') {o o' : Object K} (ho : Renamed R o o') :
    MRel (CoreRel R) (c.updatePolGrid o) (c'.updatePolGrid o') := by
  obtain ⟨e, h1, h2, h3⟩ := h
  generalize c'.debye = d' at e h1
  generalize c'.drude = r' at e h2
  generalize c'.lorentz = l' at e h3
  subst e
  unfold Core.updatePolGrid
  simp only [ho.kind]
  have hn : ∀ {P : Prop}, (∀ m, o.mat.kind ≠ .simple m) → (R o.mat.name o'.mat.name → P) → P := by
    intro P hk hP
    rcases ho.corr with ⟨m, hm⟩ | h
    · exact absurd hm (hk m)
    · exact hP h
  cases hk : o.mat.kind with
  | simple m => exact ⟨rfl, h1, h2, h3⟩
  | debye m =>
    refine hn (by rw [hk]; simp) fun hn => ?_
    simp only [ho.debyeInsert]
    exact MRel.bind (S := CoreRel R) (KeyRel.atInsert hR hn _ h1) fun l k hl => MRel.pure ⟨rfl, hl, h2, h3⟩
  | drude m =>
    refine hn (by rw [hk]; simp) fun hn => ?_
    simp only [ho.drudeInsert]
    exact MRel.bind (S := CoreRel R) (KeyRel.atInsert hR hn _ h2) fun l k hl => MRel.pure ⟨rfl, h1, hl, h3⟩
  | lorentz m =>
    refine hn (by rw [hk]; simp) fun hn => ?_
    simp only [ho.lorentzInsert]
    exact MRel.bind (S := CoreRel R) (KeyRel.atInsert hR hn _ h3) fun l k hl => MRel.pure ⟨rfl, h1, h2, hl⟩

theorem CoreRel.withF {c c' : Core K} (h : CoreRel R c c') (f : Flds K) : CoreRel R { c with f := f } { c' with f := f } := by
  obtain ⟨e, h1, h2, h3⟩ := h
  refine ⟨?_, h1, h2, h3⟩
  rw [e]

theorem CoreRel.parts {c c' : Core K} (h : CoreRel R c c') : ∃ d r l, c' = { c with debye := d, drude := r, lorentz := l } := ⟨_, _, _, h.same⟩

theorem CoreRel.g {c c' : Core K} (h : CoreRel R c c') : c'.g = c.g := by rw [h.same]
theorem CoreRel.f {c c' : Core K} (h : CoreRel R c c') : c'.f = c.f := by rw [h.same]
theorem CoreRel.t {c c' : Core K} (h : CoreRel R c c') : c'.t = c.t := by rw [h.same]

theorem CoreRel.forObjects (hR : KeepsOrder R) {l l' : List (Object K)} (hl : List.Forall₂ (Renamed R) l l') {c c' : Core K} (h : CoreRel R c c') :
    MRel (CoreRel R) (forList l c (fun o c => do let f ← paintObject c.g o c.f; ({ c with f := f }).updatePolGrid o))
      (forList l' c' (fun o c => do let f ← paintObject c.g o c.f; ({ c with f := f }).updatePolGrid o)) := by
  induction hl generalizing c c' with
  | nil => exact h
  | cons ho _ ih =>
    rw [forList_cons, forList_cons]
    refine MRel.bind (Q := CoreRel R) ?_ fun a b hab => ih hab
    obtain ⟨d', r', l', rfl⟩ := h.parts
    simp only [ho.paint]
    exact MRel.bindSame _ fun f => (h.withF f).updatePolGrid hR ho

theorem CoreRel.updateMaterialGrid (hR : KeepsOrder R) {c c' : Core K} (h : CoreRel R c c') {l l' : List (Object K)}
    (hl : List.Forall₂ (Renamed R) l l') : MRel (CoreRel R) (c.updateMaterialGrid l) (c'.updateMaterialGrid l') := by
  unfold Core.updateMaterialGrid
  obtain ⟨d', r', l', rfl⟩ := h.parts
  exact MRel.bindSame _ fun f => (h.withF f).forObjects hR hl

theorem CoreRel.clearFields {c c' : Core K} (h : CoreRel R c c') : CoreRel R c.clearFields c'.clearFields := by
  obtain ⟨e, h1, h2, h3⟩ := h
  refine ⟨?_, KeyRel.map _ h1, KeyRel.map _ h2, KeyRel.map _ h3⟩
  rw [e]; rfl

theorem CoreRel.stageE {c c' : Core K} (h : CoreRel R c c') : MRel (CoreRel R) c.stageE c'.stageE := by
  obtain ⟨e, h1, h2, h3⟩ := h
  generalize c'.debye = d' at e h1
  generalize c'.drude = r' at e h2
  generalize c'.lorentz = l' at e h3
  subst e
  unfold Core.stageE
  refine MRel.bindSame _ fun Ez => MRel.bindSame _ fun p => ?_
  refine MRel.bind (KeyRel.updateJ _ h1 _) fun a a' ha => ?_
  obtain ⟨a1, a2⟩ := a
  obtain ⟨a1', a2'⟩ := a'
  obtain ⟨k1, rfl⟩ := ha
  refine MRel.bind (KeyRel.updateJ _ h2 _) fun b b' hb => ?_
  obtain ⟨b1, b2⟩ := b
  obtain ⟨b1', b2'⟩ := b'
  obtain ⟨k2, rfl⟩ := hb
  refine MRel.bind (KeyRel.updateJ _ h3 _) fun d d' hd => ?_
  obtain ⟨d1, d2⟩ := d
  obtain ⟨d1', d2'⟩ := d'
  obtain ⟨k3, rfl⟩ := hd
  exact MRel.bindSame _ fun E => ⟨rfl, k1, k2, k3⟩

theorem CoreRel.stageH {c c' : Core K} (h : CoreRel R c c') : MRel (CoreRel R) c.stageH c'.stageH := by
  obtain ⟨e, h1, h2, h3⟩ := h
  generalize c'.debye = d' at e h1
  generalize c'.drude = r' at e h2
  generalize c'.lorentz = l' at e h3
  subst e
  unfold Core.stageH
  refine MRel.bindSame _ fun a => MRel.bindSame _ fun b => MRel.bindSame _ fun d => MRel.bindSame _ fun e => ⟨rfl, h1, h2, h3⟩

theorem SimRel.mk' {c c' : Core K} {os os' : List (Object K)} (hc : CoreRel R c c') (ho : List.Forall₂ (Renamed R) os os')
    (srcs : List (Source K)) (mons : List (Monitor K)) (tmons : List (TMon K)) (mats mats' : List String) (file : File K) (ck : Clocks) :
    SimRel R ⟨c, os, srcs, mons, tmons, mats, file, ck⟩ ⟨c', os', srcs, mons, tmons, mats', file, ck⟩ := ⟨rfl, hc, ho⟩

theorem SimRel.update (now : ℕ → ℝ) {s s' : Sim K} (h : SimRel R s s') : ResRel (SimRel R) (s.update now) (s'.update now) := by
  obtain ⟨e, hc, ho⟩ := h
  generalize s'.core = c' at e hc
  generalize s'.objs = os' at e ho
  generalize s'.mats = ms' at e
  subst e
  obtain ⟨c, os, srcs, mons, tmons, mats, file, ck⟩ := s
  simp only at hc ho
  unfold Sim.update
  refine ResRel.trySame _ (SimRel.mk' ?_ ho _ _ _ _ _ _ _) fun ck => ?_
  · obtain ⟨e, h1, h2, h3⟩ := hc
    exact ⟨by unfold Core.tick; rw [e], h1, h2, h3⟩
  refine ResRel.tryM hc.stageE (SimRel.mk' hc ho _ _ _ _ _ _ _) fun c1 c1' hc1 => ?_
  obtain ⟨d', r', l', rfl⟩ := hc1.parts
  have hc2 := hc1.withF (pulseTry c1.g c1.t srcs c1.f).f
  refine ResRel.trySame _ (SimRel.mk' hc2 ho _ _ _ _ _ _ _) fun _ => ?_
  refine ResRel.trySame _ (SimRel.mk' hc2 ho _ _ _ _ _ _ _) fun ck => ?_
  refine ResRel.trySame _ (SimRel.mk' hc2 ho _ _ _ _ _ _ _) fun ck => ?_
  refine ResRel.trySame _ (SimRel.mk' hc2 ho _ _ _ _ _ _ _) fun mons => ?_
  refine ResRel.trySame _ (SimRel.mk' hc2 ho _ _ _ _ _ _ _) fun ck => ?_
  refine ResRel.trySame _ (SimRel.mk' hc2 ho _ _ _ _ _ _ _) fun ck => ?_
  refine ResRel.tryM hc2.stageH (SimRel.mk' hc2 ho _ _ _ _ _ _ _) fun c3 c3' hc3 => ?_
  refine ResRel.trySame _ (SimRel.mk' hc3 ho _ _ _ _ _ _ _) fun ck => ?_
  obtain ⟨d', r', l', rfl⟩ := hc3.parts
  exact ResRel.trySame _ (SimRel.mk' hc3 ho _ _ _ _ _ _ _) fun p => SimRel.mk' hc3 ho _ _ _ _ _ _ _

theorem SimRel.writeField (now : ℕ → ℝ) (C : Fields) {s s' : Sim K} (h : SimRel R s s') :
    ResRel (SimRel R) (s.writeField now C) (s'.writeField now C) := by
  obtain ⟨e, hc, ho⟩ := h
  generalize s'.core = c' at e hc
  generalize s'.objs = os' at e ho
  generalize s'.mats = ms' at e
  subst e
  obtain ⟨c, os, srcs, mons, tmons, mats, file, ck⟩ := s
  simp only at hc ho
  unfold Sim.writeField
  refine ResRel.trySame _ (SimRel.mk' hc ho _ _ _ _ _ _ _) fun ck => ?_
  simp only [hc.f]
  refine ResRel.trySame _ (SimRel.mk' hc ho _ _ _ _ _ _ _) fun file => ?_
  exact ResRel.trySame _ (SimRel.mk' hc ho _ _ _ _ _ _ _) fun ck => SimRel.mk' hc ho _ _ _ _ _ _ _

theorem forall₂_modify {α : Type} {Q : α → α → Prop} {f : α → α} (hf : ∀ a b, Q a b → Q (f a) (f b)) {l l' : List α} (h : List.Forall₂ Q l l')
    (i : ℕ) : List.Forall₂ Q (l.modify i f) (l'.modify i f) := by
  induction h generalizing i with
  | nil => cases i <;> exact .nil
  | cons h1 h2 ih =>
    cases i with
    | zero => exact .cons (hf _ _ h1) h2
    | succ n => exact .cons h1 (ih n)

/-- Corresponding calls keep two simulations in lockstep. -/
theorem SimRel.step (hR : KeepsOrder R) (now : ℕ → ℝ) {s s' : Sim K} (h : SimRel R s s') {op op' : Op K} (hop : RenamedOp R op op') :
    ResRel (SimRel R) (s.step now op) (s'.step now op') := by
  cases hop with
  | @object o o' hoo =>
    obtain ⟨e, hc, ho⟩ := h
    generalize s'.core = c' at e hc
    generalize s'.objs = os' at e ho
    generalize s'.mats = ms' at e
    subst e
    obtain ⟨c, os, srcs, mons, tmons, mats, file, ck⟩ := s
    simp only at hc ho
    have : ∀ ms : List String, ∀ ms' : List String, ResRel (SimRel R)
        (tryM (c.insertObject o) (⟨c, os, srcs, mons, tmons, ms, file, ck⟩ : Sim K) fun c => .ok ⟨c, os ++ [o], srcs, mons, tmons, ms, file, ck⟩)
        (tryM (c'.insertObject o') (⟨c', os', srcs, mons, tmons, ms', file, ck⟩ : Sim K) fun c => .ok ⟨c, os' ++ [o'], srcs, mons, tmons, ms', file, ck⟩) := by
      intro ms ms'
      exact ResRel.tryM (hc.insertObject hR hoo) (SimRel.mk' hc ho _ _ _ _ _ _ _) fun a b hab =>
        SimRel.mk' hab (List.rel_append ho (.cons hoo .nil)) _ _ _ _ _ _ _
    unfold Sim.step
    by_cases h1 : o.mat.name ∈ mats <;> by_cases h2 : o'.mat.name ∈ ms' <;>
      simp only [h1, h2, if_true, if_false] <;> exact this _ _
  | same hn =>
    cases op with
    | update => exact h.update now
    | addObject o => exact absurd rfl (hn o)
    | writeField C => exact h.writeField now C
    | writeE => exact h.writeField now .Ez
    | writeH => exact ResRel.andThen (h.writeField now .Hx) fun a b hab => hab.writeField now .Hy
    | clearFields =>
      obtain ⟨e, hc, ho⟩ := h
      refine ⟨?_, hc.clearFields, ho⟩
      rw [e]
    | pose i p =>
      obtain ⟨e, hc, ho⟩ := h
      refine ⟨?_, hc, forall₂_modify (fun a b hab => hab.pose p) ho i⟩
      rw [e]
    | setTfsf vol tp =>
      obtain ⟨e, ⟨e', h1, h2, h3⟩, ho⟩ := h
      refine ⟨by rw [e], ⟨?_, h1, h2, h3⟩, ho⟩
      show s'.core.setTfsf vol tp = _
      unfold Core.setTfsf
      rw [e']
    | updateMaterialGrid =>
      have hc := h.core
      have ho := h.objs
      refine ResRel.tryM (hc.updateMaterialGrid hR ho) h fun a b hab => ⟨?_, hab, ho⟩
      rw [h.same]
    | clearMaterials =>
      have hc := h.core
      have ho := h.objs
      unfold Sim.step
      rw [hc.g, hc.f]
      refine ResRel.trySame _ h fun a => ⟨?_, hc.withF a, ho⟩
      rw [h.same]
    | addSource x => exact ⟨by rw [h.same], h.core, h.objs⟩
    | removeMonitors => exact ⟨by rw [h.same], h.core, h.objs⟩
    | addMonitor m =>
      unfold Sim.step
      rw [h.core.g]
      exact ResRel.trySame _ h fun a => ⟨by rw [h.same], h.core, h.objs⟩
    | addTimeMonitor m =>
      unfold Sim.step
      rw [show s'.file = s.file from by rw [h.same]]
      exact ResRel.trySame _ h fun a => ⟨by rw [h.same], h.core, h.objs⟩
    | writeMonitor =>
      unfold Sim.step
      rw [show s'.clocks = s.clocks from by rw [h.same]]
      refine ResRel.trySame _ h fun a => ResRel.trySame _ ⟨by rw [h.same], h.core, h.objs⟩ fun a => ⟨by rw [h.same], h.core, h.objs⟩
    | writeTimeMonitor i =>
      unfold Sim.step
      rw [show s'.tmons = s.tmons from by rw [h.same], show s'.file = s.file from by rw [h.same], h.core.g, h.core.f]
      cases hi : s.tmons[i]? with
      | none => simp only [hi]; exact h
      | some m => simp only [hi]; exact ResRel.trySame _ ⟨by rw [h.same], h.core, h.objs⟩ fun a => ⟨by rw [h.same], h.core, h.objs⟩
    | subtract i o =>
      unfold Sim.step
      rw [show s'.mons = s.mons from by rw [h.same]]
      cases hi : s.mons[i]? with
      | none => simp only [hi]; exact h
      | some m => simp only [hi]; exact ResRel.trySame _ ⟨by rw [h.same], h.core, h.objs⟩ fun a => ⟨by rw [h.same], h.core, h.objs⟩

theorem SimRel.run (hR : KeepsOrder R) (now : ℕ → ℝ) {ops ops' : List (Op K)} (hops : List.Forall₂ (RenamedOp R) ops ops') {s s' : Sim K}
    (h : SimRel R s s') : MRel (SimRel R) (s.run now ops) (s'.run now ops') := by
  induction hops generalizing s s' with
  | nil => exact h
  | @cons op op' l l' hop _ ih =>
    unfold Sim.run
    have := h.step hR now hop
    cases e : s.step now op <;> cases e' : s'.step now op' <;> rw [e, e'] at this <;>
      first | exact ih this | exact ih this.2 | exact this.elim | (cases this; rfl)

end Qbox
