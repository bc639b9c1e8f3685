import Verif.Spec.PoleSpec
import Verif.Lemmas.FilterChain

/-! # The same poles written down in another way -/

namespace Qbox
open Scalar Spec Props

theorem sumL_sum (l : List ℝ) : sumL l = l.sum := (List.sum_eq_foldl).symm

/-- Poles of no strength do not count in a sum of strengths, nor does the order. -/
theorem samePoles_sum {α : Type} {s f : α → ℝ} (h0 : ∀ p, s p = 0 → f p = 0) {l l' : List α} (h : SamePoles s l l') : sumL (l'.map f) = sumL (l.map f) := by
  classical
  have drop : ∀ k : List α, ((k.filter fun p => s p ≠ 0).map f).sum = (k.map f).sum := by
    intro k
    induction k with
    | nil => rfl
    | cons p k ih =>
      by_cases hp : s p = 0
      · rw [List.filter_cons_of_neg (by simpa using hp), ih, List.map_cons, List.sum_cons, h0 p hp, zero_add]
      · rw [List.filter_cons_of_pos (by simpa using hp), List.map_cons, List.sum_cons, ih, List.map_cons, List.sum_cons]
  rw [sumL_sum, sumL_sum, ← drop l, ← drop l']
  exact (h.symm.map f).sum_eq

theorem samePoles_alike {α : Type} {s : α → ℝ} {cell : α → FCell} (h0 : ∀ p, s p = 0 → (cell p).b = 0) (hJ : ∀ p, (cell p).J = 0) {l l' : List α}
    (h : SamePoles s l l') : Alike (l.map cell) (l'.map cell) := by
  classical
  have drop : ∀ k : List α, Alike (k.map cell) ((k.filter fun p => s p ≠ 0).map cell) := by
    intro k
    induction k with
    | nil => exact .refl _
    | cons p k ih =>
      by_cases hp : s p = 0
      · rw [List.filter_cons_of_neg (by simpa using hp), List.map_cons]
        exact (Alike.drop [] _ _ (h0 p hp) (hJ p)).trans ih
      · rw [List.filter_cons_of_pos (by simpa using hp), List.map_cons, List.map_cons]
        exact ih.cons _
  refine (drop l).trans (Alike.trans (alike_perm (List.Perm.map cell h) fun c hc => ?_) (drop l').symm)
  obtain ⟨p, -, rfl⟩ := List.mem_map.mp hc
  exact hJ p

theorem idle_beta {p : DebyePole ℝ} (h : p.dEps = 0) (dt : ℝ) : p.beta dt = 0 := by simp [DebyePole.beta, h]
theorem idle_beta_drude {p : DrudePole ℝ} (h : p.omega = 0) (dt : ℝ) : p.beta dt = 0 := by simp [DrudePole.beta, h]

theorem debye_Cb_same {eps : ℝ} {l l' : List (DebyePole ℝ)} (h : SamePoles (·.dEps) l l') (dt : ℝ) :
    (⟨eps, l'⟩ : Debye ℝ).Cb dt = (⟨eps, l⟩ : Debye ℝ).Cb dt := by
  unfold Debye.Cb
  simp only [samePoles_sum (f := fun p => p.beta dt) (fun p hp => idle_beta hp dt) h]

theorem drude_same {eps : ℝ} {l l' : List (DrudePole ℝ)} (h : SamePoles (·.omega) l l') (dt : ℝ) :
    (⟨eps, l'⟩ : Drude ℝ).Cb dt = (⟨eps, l⟩ : Drude ℝ).Cb dt ∧ (⟨eps, l'⟩ : Drude ℝ).Ca dt = (⟨eps, l⟩ : Drude ℝ).Ca dt := by
  unfold Drude.Cb Drude.Ca
  simp only [samePoles_sum (f := fun p => p.beta dt) (fun p hp => idle_beta_drude hp dt) h, and_self]

/-- Polarizations at rest in the same medium at the same nodes. -/
inductive KinDebye (g : Grid ℝ) : DebyePol ℝ → DebyePol ℝ → Prop
  | mk (eps l l') (P P' : DebyePol ℝ) (mark : ℤ → ℤ → Bool) : SamePoles (·.dEps) l l' → P.mat = ⟨eps, l⟩ → P'.mat = ⟨eps, l'⟩ →
      (∀ x y N, P.J.val x y N = 0) → (∀ x y N, P'.J.val x y N = 0) →
      (∀ x y (N : ℕ) (h : N < l.length), P.beta.val x y N = if mark x y then l[N].beta g.dt else 0) →
      (∀ x y (N : ℕ) (h : N < l'.length), P'.beta.val x y N = if mark x y then l'[N].beta g.dt else 0) → KinDebye g P P'

inductive KinDrude (g : Grid ℝ) : DrudePol ℝ → DrudePol ℝ → Prop
  | mk (eps l l') (P P' : DrudePol ℝ) (mark : ℤ → ℤ → Bool) : SamePoles (·.omega) l l' → P.mat = ⟨eps, l⟩ → P'.mat = ⟨eps, l'⟩ →
      (∀ x y N, P.J.val x y N = 0) → (∀ x y N, P'.J.val x y N = 0) →
      (∀ x y (N : ℕ) (h : N < l.length), P.beta.val x y N = if mark x y then l[N].beta g.dt else 0) →
      (∀ x y (N : ℕ) (h : N < l'.length), P'.beta.val x y N = if mark x y then l'[N].beta g.dt else 0) → KinDrude g P P'

theorem KinDebye.make {g : Grid ℝ} {eps : ℝ} {l l' : List (DebyePole ℝ)} (h : SamePoles (·.dEps) l l') : KinDebye g (DebyePol.make g ⟨eps, l⟩) (DebyePol.make g ⟨eps, l'⟩) :=
  .mk eps l l' _ _ (fun _ _ => false) h rfl rfl (fun _ _ _ => rfl) (fun _ _ _ => rfl) (fun _ _ _ _ => rfl) (fun _ _ _ _ => rfl)

theorem KinDrude.make {g : Grid ℝ} {eps : ℝ} {l l' : List (DrudePole ℝ)} (h : SamePoles (·.omega) l l') : KinDrude g (DrudePol.make g ⟨eps, l⟩) (DrudePol.make g ⟨eps, l'⟩) :=
  .mk eps l l' _ _ (fun _ _ => false) h rfl rfl (fun _ _ _ => rfl) (fun _ _ _ => rfl) (fun _ _ _ _ => rfl) (fun _ _ _ _ => rfl)

theorem paint_mark {α : Type} {f : α → ℝ} {l : List α} {b : Tensor3 ℝ} (hn : b.nz = (l.length : ℤ)) {mark q : ℤ → ℤ → Bool} {D : Finset (ℤ × ℤ)} {x y : ℤ} {N : ℕ}
    (h : N < l.length) (hb : b.val x y N = if mark x y then f l[N] else 0) :
    (b.paint (Arr.ofList (l.map f)).val q D).val x y N = if (mark x y || (decide ((x, y) ∈ D) && q x y)) then f l[N] else 0 := by
  show (if _ then _ else _) = _
  by_cases c : (x, y) ∈ D ∧ q x y = true
  · rw [if_pos ⟨c.1, c.2, by positivity, by rw [hn]; exact_mod_cast h⟩]
    simp [c.1, c.2, Arr.ofList, h]
  · rw [if_neg (fun hh => c ⟨hh.1, hh.2.1⟩), hb]
    have : (decide ((x, y) ∈ D) && q x y) = false := by
      rw [Bool.eq_false_iff, ne_eq, Bool.and_eq_true, decide_eq_true_eq]
      exact c
    rw [this, Bool.or_false]

theorem KinDebye.insert {g : Grid ℝ} {P P' : DebyePol ℝ} (h : KinDebye g P P') (w : P.WF g.Nx g.Ny) (w' : P'.WF g.Nx g.Ny) {o o' : Object ℝ}
    (hi : ∀ x, o'.inside x = o.inside x) {Q : DebyePol ℝ} (hu : P.insert g o = .ok Q) : ∃ Q', P'.insert g o' = .ok Q' ∧ KinDebye g Q Q' := by
  rw [DebyePol.insert_closed w] at hu
  rw [DebyePol.insert_closed w']
  simp only [hi]
  cases hu
  cases h with
  | mk eps l l' _ _ mark hp hm hm' hJ hJ' hb hb' =>
    refine ⟨_, rfl, .mk eps l l' _ _ (fun x y => mark x y || (decide ((x, y) ∈ rect 0 g.Nx 0 g.Ny) && o.inside (g.toReal ⟨x, y⟩))) hp hm hm' hJ hJ'
      (fun x y N h => ?_) (fun x y N h => ?_)⟩
    · simp only [hm]
      exact paint_mark (f := fun q : DebyePole ℝ => q.beta g.dt) (by rw [w.beta.2.2, w.np, hm]) h (hb x y N h)
    · simp only [hm']
      exact paint_mark (f := fun q : DebyePole ℝ => q.beta g.dt) (by rw [w'.beta.2.2, w'.np, hm']) h (hb' x y N h)

theorem KinDrude.insert {g : Grid ℝ} {P P' : DrudePol ℝ} (h : KinDrude g P P') (w : P.WF g.Nx g.Ny) (w' : P'.WF g.Nx g.Ny) {o o' : Object ℝ}
    (hi : ∀ x, o'.inside x = o.inside x) {Q : DrudePol ℝ} (hu : P.insert g o = .ok Q) : ∃ Q', P'.insert g o' = .ok Q' ∧ KinDrude g Q Q' := by
  rw [DrudePol.insert_closed w] at hu
  rw [DrudePol.insert_closed w']
  simp only [hi]
  cases hu
  cases h with
  | mk eps l l' _ _ mark hp hm hm' hJ hJ' hb hb' =>
    refine ⟨_, rfl, .mk eps l l' _ _ (fun x y => mark x y || (decide ((x, y) ∈ rect 0 g.Nx 0 g.Ny) && o.inside (g.toReal ⟨x, y⟩))) hp hm hm' hJ hJ'
      (fun x y N h => ?_) (fun x y N h => ?_)⟩
    · simp only [hm]
      exact paint_mark (f := fun q : DrudePole ℝ => q.beta g.dt) (by rw [w.beta.2.2, w.np, hm]) h (hb x y N h)
    · simp only [hm']
      exact paint_mark (f := fun q : DrudePole ℝ => q.beta g.dt) (by rw [w'.beta.2.2, w'.np, hm']) h (hb' x y N h)

theorem cellsOf_list {α : Type} {l : List α} {a k b m : ℤ → ℝ} {cell : α → FCell} (h : ∀ (N : ℕ) (h : N < l.length), (⟨a N, k N, b N, m N⟩ : FCell) = cell l[N]) :
    cellsOf a k b m l.length = l.map cell := by
  unfold cellsOf
  refine List.ext_getElem (by simp) fun N h1 h2 => ?_
  rw [List.getElem_map, List.getElem_map, List.getElem_range]
  exact h N (by simpa using h2)

theorem KinDebye.alike {g : Grid ℝ} {P P' : DebyePol ℝ} (h : KinDebye g P P') (w : P.WF g.Nx g.Ny) (w' : P'.WF g.Nx g.Ny) (i j : ℤ) :
    Alike (debyeCells g P i j) (debyeCells g P' i j) := by
  cases h with
  | mk eps l l' _ _ mark hp hm hm' hJ hJ' hb hb' =>
    have e : ∀ {Q : DebyePol ℝ} {k : List (DebyePole ℝ)}, Q.WF g.Nx g.Ny → Q.mat = ⟨eps, k⟩ → (∀ x y N, Q.J.val x y N = 0) →
        (∀ x y (N : ℕ) (h : N < k.length), Q.beta.val x y N = if mark x y then k[N].beta g.dt else 0) → Q.mat.Cb g.dt = (⟨eps, l⟩ : Debye ℝ).Cb g.dt → debyeCells g Q i j =
        k.map fun p => ⟨(⟨eps, l⟩ : Debye ℝ).Cb g.dt * half * (1 + p.kappa g.dt), p.kappa g.dt, (if mark i j then p.beta g.dt else 0) / g.dt, 0⟩ := by
      intro Q k wq hq hj hbq hcb
      unfold debyeCells
      rw [hcb, wq.np, hq]
      refine cellsOf_list fun N h => ?_
      rw [hj, hbq i j N h]
      simp [Arr.ofList, h]
    have e1 := e w hm hJ hb (by rw [hm])
    have e2 := e w' hm' hJ' hb' (by rw [hm', debye_Cb_same hp])
    rw [e1, e2]
    refine samePoles_alike (fun p hp => ?_) (fun p => rfl) hp
    simp only [idle_beta hp, ite_self, zero_div]

theorem KinDrude.alike {g : Grid ℝ} {P P' : DrudePol ℝ} (h : KinDrude g P P') (w : P.WF g.Nx g.Ny) (w' : P'.WF g.Nx g.Ny) (i j : ℤ) :
    Alike (drudeCells g P i j) (drudeCells g P' i j) := by
  cases h with
  | mk eps l l' _ _ mark hp hm hm' hJ hJ' hb hb' =>
    have e : ∀ {Q : DrudePol ℝ} {k : List (DrudePole ℝ)}, Q.WF g.Nx g.Ny → Q.mat = ⟨eps, k⟩ → (∀ x y N, Q.J.val x y N = 0) →
        (∀ x y (N : ℕ) (h : N < k.length), Q.beta.val x y N = if mark x y then k[N].beta g.dt else 0) → Q.mat.Cb g.dt = (⟨eps, l⟩ : Drude ℝ).Cb g.dt → drudeCells g Q i j =
        k.map fun p => ⟨(⟨eps, l⟩ : Drude ℝ).Cb g.dt * half * (1 + p.kappa g.dt), p.kappa g.dt, (if mark i j then p.beta g.dt else 0), 0⟩ := by
      intro Q k wq hq hj hbq hcb
      unfold drudeCells
      rw [hcb, wq.np, hq]
      refine cellsOf_list fun N h => ?_
      rw [hj, hbq i j N h]
      simp [Arr.ofList, h]
    have e1 := e w hm hJ hb (by rw [hm])
    have e2 := e w' hm' hJ' hb' (by rw [hm', (drude_same hp g.dt).1])
    rw [e1, e2]
    refine samePoles_alike (fun p hp => ?_) (fun p => rfl) hp
    simp only [idle_beta_drude hp, ite_self]

/-! ## The maps of the polarizations -/

theorem addPol_rel {P : Type} {T : P → P → Prop} {name : String} {fr fr' : P} {ins ins' : P → M P} {l l' : List (String × P)}
    (hfr : ∀ Q, ins fr = .ok Q → ∃ Q', ins' fr' = .ok Q' ∧ T Q Q') (h : List.Forall₂ (fun a b => b.1 = a.1 ∧ T a.2 b.2) l l')
    (hin : List.Forall₂ (fun a b => ∀ Q, ins a.2 = .ok Q → ∃ Q', ins' b.2 = .ok Q' ∧ T Q Q') l l') {k : List (String × P)} (hk : addPol name fr ins l = .ok k) :
    ∃ k', addPol name fr' ins' l' = .ok k' ∧ List.Forall₂ (fun a b => b.1 = a.1 ∧ T a.2 b.2) k k' := by
  have find : (mapFind name l = none ∧ mapFind name l' = none) ∨ ∃ a a', mapFind name l = some a ∧ mapFind name l' = some a' ∧
      ∀ Q, ins a = .ok Q → ∃ Q', ins' a' = .ok Q' ∧ T Q Q' := by
    clear hk
    induction h with
    | nil => exact .inl ⟨rfl, rfl⟩
    | @cons a b la lb hab _ ih =>
      obtain ⟨n, a⟩ := a
      obtain ⟨n', b⟩ := b
      obtain ⟨rfl, -⟩ := hab
      cases hin with
      | cons h1 h2 =>
        unfold mapFind
        by_cases hn : n' = name
        · rw [if_pos hn, if_pos hn]
          exact .inr ⟨a, b, rfl, rfl, h1⟩
        · rw [if_neg hn, if_neg hn]
          exact ih h2
  unfold addPol at hk ⊢
  rcases find with ⟨f1, f2⟩ | ⟨a, a', f1, f2, hT⟩
  · rw [f1] at hk
    rw [f2]
    simp only at hk ⊢
    obtain ⟨Q, hQ, hk⟩ := (Except.bind_ok ..).mp hk
    obtain ⟨Q', hQ', t⟩ := hfr Q hQ
    rw [hQ']
    cases hk
    refine ⟨_, rfl, ?_⟩
    clear hk hin f1 f2
    induction h with
    | nil => exact .cons ⟨rfl, t⟩ .nil
    | @cons a b la lb hab hl ih =>
      obtain ⟨n, a⟩ := a
      obtain ⟨n', b⟩ := b
      obtain ⟨rfl, hT⟩ := hab
      unfold mapInsert
      split
      · exact .cons ⟨rfl, t⟩ (.cons ⟨rfl, hT⟩ hl)
      · exact .cons ⟨rfl, hT⟩ ih
  · rw [f1] at hk
    rw [f2]
    simp only at hk ⊢
    obtain ⟨Q, hQ, hk⟩ := (Except.bind_ok ..).mp hk
    obtain ⟨Q', hQ', t⟩ := hT Q hQ
    rw [hQ']
    cases hk
    refine ⟨_, rfl, ?_⟩
    clear hk hin f1 f2
    induction h with
    | nil => exact .nil
    | @cons a b la lb hab hl ih =>
      obtain ⟨n, a⟩ := a
      obtain ⟨n', b⟩ := b
      obtain ⟨rfl, hT⟩ := hab
      unfold mapSet
      split
      · exact .cons ⟨rfl, t⟩ hl
      · exact .cons ⟨rfl, hT⟩ ih

theorem forall2_imp_mem {α β : Type} {R S : α → β → Prop} {l : List α} {l' : List β} (h : List.Forall₂ R l l')
    (hi : ∀ a ∈ l, ∀ b ∈ l', R a b → S a b) : List.Forall₂ S l l' := by
  induction h with
  | nil => exact .nil
  | @cons a b la lb hab _ ih => exact .cons (hi a (by simp) b (by simp) hab) (ih fun x hx y hy => hi x (by simp [hx]) y (by simp [hy]))

/-! ## The whole state -/

/-- Physical states at rest whose media differ in the way their poles are written down. -/
structure KinParts (c c' : Core ℝ) : Prop where
  same : c' = { c with debye := c'.debye, drude := c'.drude }
  debye : List.Forall₂ (fun a b => b.1 = a.1 ∧ KinDebye c.g a.2 b.2) c.debye c'.debye
  drude : List.Forall₂ (fun a b => b.1 = a.1 ∧ KinDrude c.g a.2 b.2) c.drude c'.drude

structure KinCore (c c' : Core ℝ) : Prop where
  std : c.Std
  std' : c'.Std
  parts : KinParts c c'

theorem same_paint {k k' : MatKind ℝ} (h : SameMedium k k') (hl : (∃ m, k = .lorentz m) → k' = k) (dt : ℝ) :
    k'.Ca dt = k.Ca dt ∧ k'.Cb dt = k.Cb dt ∧ k'.Da dt = k.Da dt ∧ k'.Db dt = k.Db dt := by
  cases h with
  | simple => simp
  | debye eps l l' h => exact ⟨rfl, debye_Cb_same h dt, rfl, rfl⟩
  | drude eps l l' h => exact ⟨(drude_same h dt).2, (drude_same h dt).1, rfl, rfl⟩
  | lorentz eps l l' h => rw [hl ⟨_, rfl⟩]; simp

theorem KinCore.insertObject {c c' : Core ℝ} (h : KinCore c c') {o o' : Object ℝ} (hs : o.Safe c.g) (ho : Relisted o o') (hlz : (∃ m, o.mat.kind = .lorentz m) → o' = o) :
    ∃ d d', c.insertObject o = .ok d ∧ c'.insertObject o' = .ok d' ∧ d.g = c.g ∧ KinCore d d' := by
  obtain ⟨w, w', e, t1, t2⟩ := h
  obtain ⟨d, hd, wd, gd⟩ := w.insertObject hs
  have gc : c'.g = c.g := by rw [e]
  have ins : ∀ x, o'.inside x = o.inside x := by
    intro x; rw [ho.same]; rfl
  have hs' : o'.Safe c'.g := by
    rw [gc]
    obtain ⟨n, hn⟩ : ∃ n, o' = { o with mat := { o.mat with kind := n } } := ⟨_, ho.same⟩
    rw [hn]
    exact hs
  obtain ⟨d', hd', wd', gd'⟩ := w'.insertObject hs'
  refine ⟨d, d', hd, hd', gd, wd, wd', ?_⟩
  have wf := w.wf
  have wf' := w'.wf
  have name : o'.mat.name = o.mat.name := by rw [ho.same]
  have paint : ∀ f, paintObject c.g o' f = paintObject c.g o f := by
    intro f
    have b : objBox c.g o' = objBox c.g o := by
      obtain ⟨n, hn⟩ : ∃ n, o' = { o with mat := { o.mat with kind := n } } := ⟨_, ho.same⟩
      rw [hn]; rfl
    obtain ⟨p1, p2, p3, p4⟩ := same_paint ho.kind (fun ⟨m, hm⟩ => by rw [hlz ⟨m, hm⟩]) c.g.dt
    unfold paintObject setMat
    rw [b]
    simp only [ins, p1, p2, p3, p4]
  clear w w' wd wd' hs hs' gd gd'
  have wd1 : ∀ a ∈ c.debye, ∀ b ∈ c'.debye, (b.1 = a.1 ∧ KinDebye c.g a.2 b.2) → ∀ Q, a.2.insert c.g o = .ok Q → ∃ Q', b.2.insert c.g o' = .ok Q' ∧ KinDebye c.g Q Q' :=
    fun a ha b hb hab Q hQ => hab.2.insert (wf.debye a ha) (by rw [← gc]; exact wf'.debye b hb) ins hQ
  have wd2 : ∀ a ∈ c.drude, ∀ b ∈ c'.drude, (b.1 = a.1 ∧ KinDrude c.g a.2 b.2) → ∀ Q, a.2.insert c.g o = .ok Q → ∃ Q', b.2.insert c.g o' = .ok Q' ∧ KinDrude c.g Q Q' :=
    fun a ha b hb hab Q hQ => hab.2.insert (wf.drude a ha) (by rw [← gc]; exact wf'.drude b hb) ins hQ
  clear wf wf' gc
  generalize c'.debye = x1 at e t1 wd1
  generalize c'.drude = x2 at e t2 wd2
  subst e
  unfold Core.insertObject at hd hd'
  simp only [paint] at hd'
  obtain ⟨f, hf, hd⟩ := (Except.bind_ok ..).mp hd
  obtain ⟨f', hf', hd'⟩ := (Except.bind_ok ..).mp hd'
  rw [hf] at hf'
  cases hf'
  have hk := ho.kind
  generalize k0 : o.mat.kind = k at hd hk
  generalize k0' : o'.mat.kind = k' at hd' hk
  have debye : ∀ {m m' : Debye ℝ}, KinDebye c.g (DebyePol.make c.g m) (DebyePol.make c.g m') → ∀ {l : List (String × DebyePol ℝ)},
      addPol o.mat.name (DebyePol.make c.g m) (fun P => P.insert c.g o) c.debye = .ok l →
      ∃ l', addPol o'.mat.name (DebyePol.make c.g m') (fun P => P.insert c.g o') x1 = .ok l' ∧ List.Forall₂ (fun a b => b.1 = a.1 ∧ KinDebye c.g a.2 b.2) l l' := by
    intro m m' hm l hl
    rw [name]
    exact addPol_rel (fun Q hQ => hm.insert (DebyePol.make_wf _ _) (DebyePol.make_wf _ _) ins hQ) t1 (forall2_imp_mem t1 wd1) hl
  have drude : ∀ {m m' : Drude ℝ}, KinDrude c.g (DrudePol.make c.g m) (DrudePol.make c.g m') → ∀ {l : List (String × DrudePol ℝ)},
      addPol o.mat.name (DrudePol.make c.g m) (fun P => P.insert c.g o) c.drude = .ok l →
      ∃ l', addPol o'.mat.name (DrudePol.make c.g m') (fun P => P.insert c.g o') x2 = .ok l' ∧ List.Forall₂ (fun a b => b.1 = a.1 ∧ KinDrude c.g a.2 b.2) l l' := by
    intro m m' hm l hl
    rw [name]
    exact addPol_rel (fun Q hQ => hm.insert (DrudePol.make_wf _ _) (DrudePol.make_wf _ _) ins hQ) t2 (forall2_imp_mem t2 wd2) hl
  have doneD : ∀ {m m' : Debye ℝ}, KinDebye c.g (DebyePol.make c.g m) (DebyePol.make c.g m') → k = .debye m → k' = .debye m' → KinParts d d' := by
    rintro m m' hm rfl rfl
    simp only at hd hd'
    obtain ⟨l, hl, hd⟩ := (Except.bind_ok ..).mp hd
    obtain ⟨l', hl', hd'⟩ := (Except.bind_ok ..).mp hd'
    obtain ⟨l2, h2, t⟩ := debye hm hl
    rw [h2] at hl'
    cases hl'
    cases hd
    cases hd'
    exact ⟨rfl, t, t2⟩
  have doneR : ∀ {m m' : Drude ℝ}, KinDrude c.g (DrudePol.make c.g m) (DrudePol.make c.g m') → k = .drude m → k' = .drude m' → KinParts d d' := by
    rintro m m' hm rfl rfl
    simp only at hd hd'
    obtain ⟨l, hl, hd⟩ := (Except.bind_ok ..).mp hd
    obtain ⟨l', hl', hd'⟩ := (Except.bind_ok ..).mp hd'
    obtain ⟨l2, h2, t⟩ := drude hm hl
    rw [h2] at hl'
    cases hl'
    cases hd
    cases hd'
    exact ⟨rfl, t1, t⟩
  cases hk with
  | simple m =>
    cases hd
    cases hd'
    exact ⟨rfl, t1, t2⟩
  | debye eps A B hp => exact doneD (.make hp) rfl rfl
  | drude eps A B hp => exact doneR (.make hp) rfl rfl
  | lorentz eps A B hp =>
    have eo := hlz ⟨_, k0⟩
    rw [eo, k0] at k0'
    cases k0'
    rw [eo] at hd'
    simp only at hd hd'
    obtain ⟨l, hl, hd⟩ := (Except.bind_ok ..).mp hd
    rw [hl] at hd'
    cases hd
    cases hd'
    exact ⟨rfl, t1, t2⟩

theorem KinCore.alike {c c' : Core ℝ} (h : KinCore c c') : AlikeCore c c' := by
  obtain ⟨w, w', e, t1, t2⟩ := h
  have gc : c'.g = c.g := by rw [e]
  have flat : ∀ {P : Type} {cells : P → ℤ → ℤ → List FCell} {i j : ℤ} {l l' : List (String × P)},
      List.Forall₂ (fun a b => Alike (cells a.2 i j) (cells b.2 i j)) l l' → Alike (mapCells cells l i j) (mapCells cells l' i j) := by
    intro P cells i j l l' h
    induction h with
    | nil => exact .refl _
    | cons h _ ih => exact h.append ih
  have lz : c'.lorentz = c.lorentz := by rw [e]
  refine ⟨w, w', ?_, fun i j _ => flat ?_, fun i j _ => flat ?_, by rw [lz]⟩
  · rw [lz]
    exact e
  · exact forall2_imp_mem t1 fun a ha b hb h => h.2.alike (w.wf.debye a ha) (by rw [← gc]; exact w'.wf.debye b hb) i j
  · exact forall2_imp_mem t2 fun a ha b hb h => h.2.alike (w.wf.drude a ha) (by rw [← gc]; exact w'.wf.drude b hb) i j

end Qbox
