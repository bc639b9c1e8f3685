import Verif.Lemmas.Delay

/-! # A run with delayed signals -/

namespace Qbox
open Scalar Spec Props

set_option linter.unusedSectionVars false
set_option linter.unusedSimpArgs false

/-- A state before the first step. -/
structure Unstarted (c : Core ℝ) : Prop where
  t : c.t = 0
  prev : c.prev2E.isSome → c.prevE.isSome

theorem Unstarted.make {g : Grid ℝ} {c : Core ℝ} (h : Core.make g = .ok c) : Unstarted c := by
  unfold Core.make at h
  simp only [Except.bind_ok] at h
  obtain ⟨f, -, p, -, sc, -, h⟩ := h
  cases h
  exact ⟨rfl, fun h => h⟩

theorem orInit_some' {α : Type} (o : Option α) (v : α) : (orInit o v).isSome = true := by cases o <;> rfl

theorem Unstarted.insertObject {c c' : Core ℝ} {o : Object ℝ} (h : Unstarted c) (hi : c.insertObject o = .ok c') : Unstarted c' := by
  unfold Core.insertObject at hi
  obtain ⟨f, -, hi⟩ := (Except.bind_ok ..).mp hi
  cases hk : o.mat.kind with
  | simple m => simp only [hk] at hi; cases hi; exact ⟨h.t, h.prev⟩
  | debye m => simp only [hk] at hi; obtain ⟨l, -, hi⟩ := (Except.bind_ok ..).mp hi; cases hi; exact ⟨h.t, fun _ => orInit_some' _ _⟩
  | drude m => simp only [hk] at hi; obtain ⟨l, -, hi⟩ := (Except.bind_ok ..).mp hi; cases hi; exact ⟨h.t, fun _ => orInit_some' _ _⟩
  | lorentz m => simp only [hk] at hi; obtain ⟨l, -, hi⟩ := (Except.bind_ok ..).mp hi; cases hi; exact ⟨h.t, fun _ => orInit_some' _ _⟩

theorem Unstarted.insertAll : ∀ (l : List (Object ℝ)) {c c' : Core ℝ}, Unstarted c → forList l c (fun o c => c.insertObject o) = .ok c' → Unstarted c'
  | [], c, c', h, hi => by cases hi; exact h
  | o :: l, c, c', h, hi => by
    rw [forList_cons] at hi
    obtain ⟨d, h1, hi⟩ := (Except.bind_ok ..).mp hi
    exact Unstarted.insertAll l (h.insertObject h1) hi

/-- A state with an incident wave that has not begun, or with none. -/
noncomputable def withWave (c : Core ℝ) : Option (Vol ℝ × TimeProfile ℝ) → Core ℝ
  | none => c
  | some w => c.setTfsf w.1 w.2

theorem withWave_g (c : Core ℝ) (o : Option (Vol ℝ × TimeProfile ℝ)) : (withWave c o).g = c.g := by cases o <;> rfl
theorem withWave_f (c : Core ℝ) (o : Option (Vol ℝ × TimeProfile ℝ)) : (withWave c o).f = c.f := by cases o <;> rfl

def WaveFits (g : Grid ℝ) (o : Option (Vol ℝ × TimeProfile ℝ)) : Prop := ∀ w, o = some w → TfsfFits g w.1

theorem withWave_std {c : Core ℝ} (h : c.Std) {o : Option (Vol ℝ × TimeProfile ℝ)} (ho : WaveFits c.g o) : (withWave c o).Std := by
  cases o with
  | none => exact h
  | some w => exact h.of_same (Core.setTfsf_ok h.wf (ho w rfl) w.2) rfl rfl rfl rfl

/-- Two silent states with the same media are the same combination. -/
theorem combo_silent {c d : Core ℝ} (hc : Silent c) (hd : Silent d) (m : SameMedia c d) (ht : d.t = c.t) : Combo 1 0 c c d := by
  have z : ∀ x y : Tensor ℝ, TZero x → TZero y → TCombo 1 0 x x y := fun x y hx hy i j => by rw [hx, hy]; ring
  have z3 : ∀ x y : Tensor3 ℝ, T3Zero x → T3Zero y → T3Combo 1 0 x x y := fun x y hx hy i j k => by rw [hx, hy]; ring
  have zo : ∀ x y : Option (Tensor ℝ), (∀ a, x = some a → TZero a) → (∀ a, y = some a → TZero a) → y.isSome = x.isSome →
      Opt3 (TCombo 1 0) x x y := by
    intro x y hx hy e
    cases x with
    | none => cases y with
      | none => exact .none
      | some y => cases e
    | some x => cases y with
      | none => cases e
      | some y => exact .some (z _ _ (hx _ rfl) (hy _ rfl))
  have zl : ∀ {P : Type} {R : P → P → Prop} {Q : P → Prop} {T : String × P → String × P → String × P → Prop} {l l' : List (String × P)},
      (∀ x y, SamePol R x y → Q x.2 → Q y.2 → T x x y) → List.Forall₂ (SamePol R) l l' → (∀ q ∈ l, Q q.2) → (∀ q ∈ l', Q q.2) → Forall3 T l l l' := by
    intro P R Q T l l' hT h
    induction h with
    | nil => intro _ _; exact .nil
    | cons h _ ih =>
      intro h1 h2
      exact .cons (hT _ _ h (h1 _ (by simp)) (h2 _ (by simp))) (ih (fun q hq => h1 q (by simp [hq])) (fun q hq => h2 q (by simp [hq])))
  refine ⟨⟨rfl, m.g⟩, ⟨rfl, ht⟩, ⟨rfl, m.sc⟩, ⟨⟨rfl, rfl, rfl, rfl⟩, m.f, z _ _ hc.Ez hd.Ez, z _ _ hc.Hx hd.Hx, z _ _ hc.Hy hd.Hy⟩,
    ⟨⟨rfl, rfl, rfl, rfl⟩, m.pml, z _ _ hc.Ezx1 hd.Ezx1, z _ _ hc.Ezx2 hd.Ezx2, z _ _ hc.Hyx1 hd.Hyx1, z _ _ hc.Hyx2 hd.Hyx2,
      z _ _ hc.Ezy1 hd.Ezy1, z _ _ hc.Ezy2 hd.Ezy2, z _ _ hc.Hxy1 hd.Hxy1, z _ _ hc.Hxy2 hd.Hxy2⟩, zo _ _ hc.prevE hd.prevE m.prevE,
    zo _ _ hc.prev2E hd.prev2E m.prev2E, ?_, ?_, ?_, ?_⟩
  · exact zl (Q := fun P => T3Zero P.J) (fun x y h h1 h2 => ⟨⟨rfl, rfl, rfl⟩, ⟨h.1, h.2.1, h.2.2⟩, z3 _ _ h1 h2⟩) m.debye hc.debye hd.debye
  · exact zl (Q := fun P => T3Zero P.J) (fun x y h h1 h2 => ⟨⟨rfl, rfl, rfl⟩, ⟨h.1, h.2.1, h.2.2⟩, z3 _ _ h1 h2⟩) m.drude hc.drude hd.drude
  · exact zl (Q := fun P => T3Zero P.J ∧ T3Zero P.prevJ) (fun x y h h1 h2 => ⟨⟨rfl, rfl, rfl⟩, ⟨h.1, h.2.1, h.2.2⟩, z3 _ _ h1.1 h2.1,
      z3 _ _ h1.2 h2.2⟩) m.lorentz hc.lorentz hd.lorentz
  · rw [hc.tfsf, hd.tfsf]; exact .none

/-- A profile without a signal. -/
noncomputable def TimeProfile.mute (tp : TimeProfile ℝ) : TimeProfile ℝ := { tp with resp := fun _ => 0 }
noncomputable def Source.mute (s : Source ℝ) : Source ℝ := { s with tp := s.tp.mute }

theorem combo_zero {c : Core ℝ} (hc : Silent c) {o : Option (Vol ℝ × TimeProfile ℝ)} (ho : ∀ w, o = some w → ∀ t, w.2.resp t = 0) :
    Combo 0 0 (withWave c o) (withWave c o) (withWave c o) := by
  have h := ((silent_iff c).mp hc).2
  cases o with
  | none => exact h
  | some w =>
    refine { h with tfsf := .some ⟨⟨rfl, rfl, rfl, rfl, rfl, rfl, rfl, rfl, rfl⟩, ⟨rfl, rfl, rfl, rfl, rfl, rfl, rfl, rfl, rfl⟩, ?_, ?_, ?_, ?_, ?_, ?_,
      ?_, ?_, ?_⟩ }
    · intro t
      rw [show (Tfsf.make c.g w.2 w.1 c.g.dt).tp.resp t = 0 from ho w rfl t]; ring
    all_goals first
      | (intro i; show (0 : ℝ) = 0 * 0 + 0 * 0; ring)
      | (show (0 : ℝ) = 0 * 0 + 0 * 0; ring)

theorem Forall3.srcs {a b : ℝ} {l : List (Source ℝ)} (h : ∀ s ∈ l, ∀ t, s.tp.resp t = a * s.tp.resp t + b * s.tp.resp t) :
    Forall3 (SrcCombo a b) l l l := Forall3_same fun s hs => ⟨rfl, rfl, h s hs⟩

theorem fits_kind {g : Grid ℝ} {s s' : Source ℝ} (e : s'.kind = s.kind) (h : Fits g s) : Fits g s' := by
  unfold Fits at h ⊢; rw [e]; exact h

/-- What a delayed run computes. -/
theorem delayed_run {c : Core ℝ} (hs : c.Std) (hz : Silent c) (hf : Unstarted c) {o o' : Option (Vol ℝ × TimeProfile ℝ)} (ho : WaveFits c.g o)
    {k : ℕ} (hw : Option.Rel (LaterWave c.g.dt k) o o') {l l' : List (Source ℝ)} (hl : List.Forall₂ (LaterSource c.g.dt k) l l')
    (fl : ∀ s ∈ l, Fits c.g s) (n : ℕ) :
    ∃ d m d' m', (withWave c o).run n l = .ok (d, m) ∧ (withWave c o').run (k + n) l' = .ok (d', m') ∧
      ∀ i j, d'.f.Ez.val i j = d.f.Ez.val i j ∧ d'.f.Hx.val i j = d.f.Hx.val i j ∧ d'.f.Hy.val i j = d.f.Hy.val i j := by
  have fl' : ∀ s ∈ l', Fits c.g s := by
    clear ho hw
    induction hl with
    | nil => simp
    | cons h _ ih =>
      intro s hs
      rcases List.mem_cons.mp hs with rfl | hs
      · exact fits_kind h.1 (fl _ (by simp))
      · exact ih (fun s hs => fl s (by simp [hs])) s hs
  have ho' : WaveFits c.g o' := by
    cases hw with
    | none => exact ho
    | some h => intro w e; cases e; rw [h.1]; exact ho _ rfl
  -- the quiet part, with sources that never say anything
  set om : Option (Vol ℝ × TimeProfile ℝ) := o'.map fun w => (w.1, w.2.mute) with hom
  set lm := l'.map Source.mute with hlm
  have hom0 : ∀ w, om = some w → ∀ t, w.2.resp t = 0 := by
    intro w e t
    rw [hom] at e
    cases o' with
    | none => cases e
    | some x => rw [← Option.some.inj e]; rfl
  have hofm : WaveFits c.g om := by
    intro w e
    rw [hom] at e
    cases o' with
    | none => cases e
    | some x => rw [← Option.some.inj e]; exact ho' x rfl
  have flm : ∀ s ∈ lm, Fits c.g s := by
    intro s hs
    obtain ⟨q, hq, rfl⟩ := List.mem_map.mp hs
    exact fits_kind rfl (fl' q hq)
  have sm := withWave_std hs hofm
  have sb := withWave_std hs ho'
  obtain ⟨M, lM, _, _, _, _, uM, u2, u3, ⟨stM, -, -⟩, zM, -⟩ := C15_superposition 0 0 k _ _ _ sm sm sm lm lm lm
    (by rw [withWave_g]; exact flm) (by rw [withWave_g]; exact flm) (by rw [withWave_g]; exact flm) (combo_zero hz hom0)
    (Forall3.srcs (by
      intro s hs t
      obtain ⟨q, hq, rfl⟩ := List.mem_map.mp hs
      show (0 : ℝ) = 0 * 0 + 0 * 0
      ring))
  rw [uM] at u2 u3
  cases u2; cases u3
  have prevW : ∀ x, (withWave c x).prev2E.isSome → (withWave c x).prevE.isSome := by
    intro x; cases x <;> exact hf.prev
  have mM := Core.run_media k sm (prevW _) (by rw [withWave_g]; exact flm) uM
  -- the first `k` steps of the delayed run
  obtain ⟨B, lB, uB, wB, gB, -, -, fB, sB⟩ := Core.run_ok k sb.wf sb.wide l' (by rw [withWave_g]; exact fl')
  have mB := Core.run_media k sb (prevW _) (by rw [withWave_g]; exact fl') uB
  have late0 : Late 0 k 0 (withWave c om) (withWave c o') := by
    cases o' with
    | none => exact ⟨by rw [show (withWave c om).t = c.t from rfl, hf.t]; simp, by
        simp only [hom, Option.map_none, withWave]
        rw [show ((0 + 0 : ℕ) : ℝ) * c.g.dt = c.t by rw [hf.t]; simp], by
        simp only [hom, Option.map_none, withWave]; rw [hz.tfsf]; exact .none⟩
    | some x =>
      refine ⟨by rw [show (withWave c om).t = c.t from rfl, hf.t]; simp, ?_, ?_⟩
      · simp only [hom, Option.map_some, withWave, Core.setTfsf, Core.mk.injEq, true_and, and_true]
        rw [hf.t]; simp
      · refine .some ⟨rfl, by simp [Tfsf.make], ?_, ?_⟩
        · simp [Tfsf.make, hom, withWave_g]
        · intro j h1 h2
          have : ∃ y, LaterWave c.g.dt k y x := by
            cases hw with
            | some h => exact ⟨_, h⟩
          obtain ⟨y, h⟩ := this
          rw [withWave_g]
          exact h.2.quiet j h2
  have lsrc0 : List.Forall₂ (LateSrc (withWave c om).g.dt 0 k 0) lm l' := by
    rw [withWave_g, hlm]
    clear fl fl' flm uM uB sB fB hlm
    induction hl with
    | nil => exact .nil
    | cons h _ ih => exact .cons ⟨rfl, fun j h1 h2 => h.2.quiet j h2⟩ ih
  obtain ⟨lateK, -⟩ := Core.run_late k 0 (by omega) late0 lsrc0 uM uB
  rw [Nat.zero_add] at lateK
  -- the rest starts as the original run does, with another clock
  set A := withWave c o with hA
  set E : Core ℝ := { M with t := 0, tStep := 0, tfsf := M.tfsf.bind fun w => o.map fun x => { w with t := 0, tp := x.2, fourier := none } } with hE
  have sA : A.Std := withWave_std hs ho
  have sE : E.Std := by
    refine stM.of_same { stM.wf with tfsf := ?_ } rfl rfl rfl rfl
    intro w e
    rw [hE] at e
    simp only at e
    cases hM : M.tfsf with
    | none => rw [hM] at e; cases e
    | some v =>
      rw [hM] at e
      cases o with
      | none => cases e
      | some x =>
        have := stM.wf.tfsf v hM
        cases e
        exact ⟨{ this.1 with keys := fun d h => by cases h }, { this.2 with }⟩
  have silM : Silent { M with t := 0, tStep := 0, tfsf := none } := by
    rw [silent_iff]
    exact ⟨rfl, { zM with t := ⟨rfl, rfl⟩, tfsf := .none }⟩
  have gM : M.g = c.g := by rw [mM.g, withWave_g]
  have media0 : SameMedia c { M with t := 0, tStep := 0, tfsf := none } := by
    have h : SameMedia c { M with tfsf := none } := by
      cases o' with
      | none => exact { mM with tfsf := by rw [hz.tfsf]; exact .none }
      | some x => exact { mM with tfsf := by rw [hz.tfsf]; exact .none }
    exact { h with }
  have cAE : Combo 1 0 A A E := by
    have h := combo_silent hz silM media0 hf.t.symm
    cases o with
    | none =>
      refine { h with tfsf := ?_ }
      rw [hA]
      simp only [withWave, hz.tfsf, hE, Option.map_none]
      cases M.tfsf <;> exact .none
    | some x =>
      cases hw with
      | some hxy =>
        have hp := mM.tfsf
        have hzz := zM.tfsf
        simp only [hom, withWave, Option.map_some, Core.setTfsf] at hp
        refine { h with tfsf := ?_ }
        rw [hA]
        simp only [withWave, hE, Core.setTfsf]
        cases hM : M.tfsf with
        | none => rw [hM] at hp; cases hp
        | some v =>
          rw [hM] at hp hzz
          cases hp with
          | some hp =>
          cases hzz with
          | some hv =>
            refine .some ⟨⟨rfl, rfl, rfl, rfl, rfl, rfl, rfl, rfl, rfl⟩, ⟨?_, ?_, ?_, ?_, ?_, ?_, rfl, ?_, ?_⟩, ?_, ?_, ?_, ?_, ?_, ?_, ?_, ?_, ?_⟩
            · exact hp.ia.trans (by simp [Tfsf.make, hxy.1])
            · exact hp.ib.trans (by simp [Tfsf.make, hxy.1])
            · exact hp.ja.trans (by simp [Tfsf.make, hxy.1])
            · exact hp.jb.trans (by simp [Tfsf.make, hxy.1])
            · exact hp.Nx.trans (by simp [Tfsf.make, hxy.1])
            · exact hp.dt
            · exact hp.ca.trans (by simp [Tfsf.make, hxy.1])
            · exact hp.cb.trans (by simp [Tfsf.make, hxy.1])
            · intro t; show x.2.resp t = 1 * x.2.resp t + 0 * x.2.resp t; ring
            · intro i; rw [show v.Ez.val i = _ from hv.Ez i]; show _ = 1 * (0 : ℝ) + 0 * 0; ring
            · intro i; rw [show v.Dz.val i = _ from hv.Dz i]; show _ = 1 * (0 : ℝ) + 0 * 0; ring
            · intro i; rw [show v.Hx.val i = _ from hv.Hx i]; show _ = 1 * (0 : ℝ) + 0 * 0; ring
            · intro i; rw [show v.Iz.val i = _ from hv.Iz i]; show _ = 1 * (0 : ℝ) + 0 * 0; ring
            · show v.left0 = _; rw [show v.left0 = _ from hv.left0]; show _ = 1 * (0 : ℝ) + 0 * 0; ring
            · show v.left1 = _; rw [show v.left1 = _ from hv.left1]; show _ = 1 * (0 : ℝ) + 0 * 0; ring
            · show v.right0 = _; rw [show v.right0 = _ from hv.right0]; show _ = 1 * (0 : ℝ) + 0 * 0; ring
            · show v.right1 = _; rw [show v.right1 = _ from hv.right1]; show _ = 1 * (0 : ℝ) + 0 * 0; ring
  have gE : E.g = c.g := gM
  obtain ⟨D, lD, _, _, F, lF, uD, u2, uF, -, cDF, -⟩ := C15_superposition 1 0 n A A E sA sA sE l l l
    (by rw [hA, withWave_g]; exact fl) (by rw [hA, withWave_g]; exact fl) (by rw [gE]; exact fl) cAE
    (Forall3.srcs (by intro s hs t; ring))
  rw [uD] at u2
  cases u2
  obtain ⟨G, lG, uG, -⟩ := Core.run_ok n wB (by rw [gB]; exact sb.wide) lB fB
  have lateE : Late k n 0 E B := by
    refine ⟨by simp [hE], ?_, ?_⟩
    · rw [lateK.same]
      simp only [hE, Core.mk.injEq, true_and, and_true]
      simp
    · have hp := mM.tfsf
      have hq := mB.tfsf
      have hr := lateK.wave
      rw [gE]
      rw [gM] at hr
      simp only [hE]
      cases hw with
      | none =>
        simp only [hom, withWave, Option.map_none, hz.tfsf] at hp hq
        cases hM : M.tfsf with
        | some v => rw [hM] at hp; cases hp
        | none =>
          cases hB : B.tfsf with
          | some v => rw [hB] at hq; cases hq
          | none => exact .none
      | some hxy =>
        rename_i x y
        simp only [hom, withWave, Option.map_some, Core.setTfsf] at hp hq
        cases hM : M.tfsf with
        | none => rw [hM] at hp; cases hp
        | some v =>
          cases hB : B.tfsf with
          | none => rw [hB] at hq; cases hq
          | some u =>
            rw [hM, hB] at hr
            rw [hB] at hq
            cases hr with
            | some hr =>
            cases hq with
            | some hq =>
              refine .some ⟨hr.step, by simp, ?_, ?_⟩
              · rw [hr.same]
                simp
              · intro j h1 h2
                rw [hq.sig]
                exact hxy.2.late j h1
  have lsrcE : List.Forall₂ (LateSrc E.g.dt k n 0) l lB := by
    rw [gE]
    clear fl fl' flm uM uB fB hlm uD uF uG lsrc0 lm
    induction hl generalizing lB with
    | nil => cases sB; exact .nil
    | cons h _ ih =>
      cases sB with
      | cons h1 h2 => exact .cons ⟨h1.1.trans h.1, fun j a1 a2 => by rw [h1.2.2]; exact h.2.late j a1⟩ (ih _ h2)
  obtain ⟨lateN, -⟩ := Core.run_late n 0 (by omega) lateE lsrcE uF uG
  refine ⟨D, lD, G, lG, uD, Core.run_plus k n uB uG, fun i j => ?_⟩
  rw [lateN.same]
  have a1 := cDF.f.Ez i j
  have a2 := cDF.f.Hx i j
  have a3 := cDF.f.Hy i j
  exact ⟨by simp only; rw [a1]; ring, by simp only; rw [a2]; ring, by simp only; rw [a3]; ring⟩

end Qbox
