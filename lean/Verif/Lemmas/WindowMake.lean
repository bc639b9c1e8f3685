import Verif.Lemmas.WindowStep
import Verif.Lemmas.Reach
import Verif.Props.LinearProps

/-!
# Building two programs with the same scene
-/

namespace Qbox
open Scalar Spec Props

set_option linter.unusedSectionVars false
set_option linter.unusedSimpArgs false

theorem Arr.ofList_map_div (l : List ℝ) (s : ℝ) (N : ℤ) : (Arr.ofList (l.map fun x => x / s)).val N = s⁻¹ * (Arr.ofList l).val N := by
  simp only [Arr.ofList]
  simp only [List.getD_eq_getElem?_getD, List.getElem?_map]
  cases l[N.toNat]? with
  | none => simp
  | some x => simp [div_eq_inv_mul]

namespace Spec.View
variable {v : View}

theorem toReal_view {g g' : Grid ℝ} (h : g'.dx = v.s * g.dx) (i j : ℤ) : g'.toReal ⟨i + v.a, j + v.b⟩ = v.point g.dx (g.toReal ⟨i, j⟩) := by
  simp only [Grid.toReal, View.point, ofInt_real, h, V2.mk.injEq]
  push_cast
  constructor <;> ring

theorem SameObj.node {g g' : Grid ℝ} (hx : g'.dx = v.s * g.dx) {o o' : Object ℝ} (h : v.SameObj g.dx o o') (i j : ℤ) :
    o'.inside (g'.toReal ⟨i + v.a, j + v.b⟩) = o.inside (g.toReal ⟨i, j⟩) := by
  rw [toReal_view hx]; exact h.inside _

/-! ## materials -/

section
variable {α : Type} {R : α → α → Prop} {l l' : List (String × α)}

theorem find_view (n : String) (h : List.Forall₂ (fun p q => p.1 = q.1 ∧ R p.2 q.2) l l') :
    (mapFind n l = none ∧ mapFind n l' = none) ∨ ∃ P Q, mapFind n l = some P ∧ mapFind n l' = some Q ∧ R P Q := by
  induction h with
  | nil => exact .inl ⟨rfl, rfl⟩
  | @cons p q l l' hp _ ih =>
    obtain ⟨a, P⟩ := p
    obtain ⟨b, Q⟩ := q
    obtain ⟨e, h⟩ := hp
    simp only at e h
    subst e
    unfold mapFind
    by_cases hn : a = n
    · rw [if_pos hn, if_pos hn]; exact .inr ⟨P, Q, rfl, rfl, h⟩
    · rw [if_neg hn, if_neg hn]; exact ih

theorem set_view (n : String) {P Q : α} (hR : R P Q) (h : List.Forall₂ (fun p q => p.1 = q.1 ∧ R p.2 q.2) l l') :
    List.Forall₂ (fun p q => p.1 = q.1 ∧ R p.2 q.2) (mapSet n P l) (mapSet n Q l') := by
  induction h with
  | nil => exact .nil
  | @cons p q l l' hp hl ih =>
    obtain ⟨a, A⟩ := p
    obtain ⟨b, B⟩ := q
    obtain ⟨e, h⟩ := hp
    simp only at e h
    subst e
    unfold mapSet
    by_cases hn : a = n
    · rw [if_pos hn, if_pos hn]; exact .cons ⟨rfl, hR⟩ hl
    · rw [if_neg hn, if_neg hn]; exact .cons ⟨rfl, h⟩ ih

theorem insert_view (n : String) {P Q : α} (hR : R P Q) (h : List.Forall₂ (fun p q => p.1 = q.1 ∧ R p.2 q.2) l l') :
    List.Forall₂ (fun p q => p.1 = q.1 ∧ R p.2 q.2) (mapInsert n P l) (mapInsert n Q l') := by
  induction h with
  | nil => exact .cons ⟨rfl, hR⟩ .nil
  | @cons p q l l' hp hl ih =>
    obtain ⟨a, A⟩ := p
    obtain ⟨b, B⟩ := q
    obtain ⟨e, h⟩ := hp
    simp only at e h
    subst e
    unfold mapInsert
    by_cases hn : n < a
    · rw [if_pos hn, if_pos hn]; exact .cons ⟨rfl, hR⟩ (.cons ⟨rfl, h⟩ hl)
    · rw [if_neg hn, if_neg hn]; exact .cons ⟨rfl, h⟩ ih

theorem addPol_view (n : String) {fresh fresh' : α} {ins ins' : α → M α} (hf : R fresh fresh')
    (hi : ∀ P Q, R P Q → ∃ P' Q', ins P = .ok P' ∧ ins' Q = .ok Q' ∧ R P' Q')
    (h : List.Forall₂ (fun p q => p.1 = q.1 ∧ R p.2 q.2) l l') :
    ∃ k k', addPol n fresh ins l = .ok k ∧ addPol n fresh' ins' l' = .ok k' ∧ List.Forall₂ (fun p q => p.1 = q.1 ∧ R p.2 q.2) k k' := by
  unfold addPol
  rcases find_view n h with ⟨e1, e2⟩ | ⟨P, Q, e1, e2, hR⟩
  · obtain ⟨P', Q', a, b, c⟩ := hi _ _ hf
    rw [e1, e2]; simp only [a, b]
    exact ⟨_, _, rfl, rfl, insert_view n c h⟩
  · obtain ⟨P', Q', a, b, c⟩ := hi _ _ hR
    rw [e1, e2]; simp only [a, b]
    exact ⟨_, _, rfl, rfl, set_view n c h⟩
end

theorem paint_view {S : ℤ → ℤ → Prop} {k : ℝ} {A B : Tensor3 ℝ} (h : v.On3 S k A B) {x y : ℤ → ℝ} (hxy : ∀ N, y N = k * x N)
    {g g' : Grid ℝ} (hS : ∀ i j, S i j → Node g i j ∧ Node g' (i + v.a) (j + v.b)) {p q : ℤ → ℤ → Bool}
    (hpq : ∀ i j, q (i + v.a) (j + v.b) = p i j) (hz : B.nz = A.nz) :
    v.On3 S k (A.paint x p (rect 0 g.Nx 0 g.Ny)) (B.paint y q (rect 0 g'.Nx 0 g'.Ny)) := by
  intro i j hi N
  have n1 := mem_node (hS i j hi).1
  have n2 := mem_node (hS i j hi).2
  simp only [Tensor3.paint, Tensor3.setv_val]
  simp only [n1, n2, hpq, hz, true_and]
  split_ifs
  · exact hxy N
  · exact h i j hi N

variable (hs : v.s ≠ 0)
include hs

/-- Adding the same object to both programs. -/
theorem Sees.insertObject {SE SH : ℤ → ℤ → Prop} {c d : Core ℝ} (hc : c.Std) (hd : d.Std) (h : v.Sees SE SH c d)
    (hE : ∀ i j, SE i j → Node c.g i j ∧ Node d.g (i + v.a) (j + v.b)) (hH : ∀ i j, SH i j → Node c.g i j ∧ Node d.g (i + v.a) (j + v.b))
    {o o' : Object ℝ} (ho : v.SameObj c.g.dx o o') (so : o.Safe c.g) (so' : o'.Safe d.g) (co : o.Covered c.g) (co' : o'.Covered d.g) :
    ∃ c' d', c.insertObject o = .ok c' ∧ d.insertObject o' = .ok d' ∧ c'.Std ∧ d'.Std ∧ c'.g = c.g ∧ d'.g = d.g ∧ v.Sees SE SH c' d' := by
  obtain ⟨c', a1, a2, a3⟩ := hc.insertObject so
  obtain ⟨d', b1, b2, b3⟩ := hd.insertObject so'
  refine ⟨c', d', a1, b1, a2, b2, a3, b3, ?_⟩
  have hdt : d.g.dt = v.s * c.g.dt := by rw [hd.law.dt, hc.law.dt, h.dx]; ring
  obtain ⟨e1, -⟩ := insertObject_f hc.wf.f so a1
  obtain ⟨e2, -⟩ := insertObject_f hd.wf.f so' b1
  -- both nodes are painted or neither is
  have hit : ∀ i j, Node c.g i j → Node d.g (i + v.a) (j + v.b) →
      (((i, j) ∈ scan c.g o ∧ o.inside (c.g.toReal ⟨i, j⟩) = true) ↔ o.inside (c.g.toReal ⟨i, j⟩) = true) ∧
      (((i + v.a, j + v.b) ∈ scan d.g o' ∧ o'.inside (d.g.toReal ⟨i + v.a, j + v.b⟩) = true) ↔ o.inside (c.g.toReal ⟨i, j⟩) = true) := by
    intro i j h1 h2
    have e := ho.node h.dx i j
    refine ⟨⟨fun x => x.2, fun x => ⟨co i j h1.1 h1.2.1 h1.2.2.1 h1.2.2.2 x, x⟩⟩, ⟨fun x => e ▸ x.2, fun x => ?_⟩⟩
    have x' := e.trans x
    exact ⟨co' _ _ h2.1 h2.2.1 h2.2.2.1 h2.2.2.2 x', x'⟩
  have pE : v.On SE 1 c'.f.Ez d'.f.Ez := by rw [e1, e2]; exact h.same.Ez
  have paint : ∀ {S : ℤ → ℤ → Prop} {k : ℝ} {A B : Tensor ℝ} {x y : ℝ}, (∀ i j, S i j → Node c.g i j ∧ Node d.g (i + v.a) (j + v.b)) → v.On S k A B →
      y = k * x → v.On S k (A.setv fun X Y => if (X, Y) ∈ scan c.g o ∧ o.inside (c.g.toReal ⟨X, Y⟩) = true then x else A.val X Y)
        (B.setv fun X Y => if (X, Y) ∈ scan d.g o' ∧ o'.inside (d.g.toReal ⟨X, Y⟩) = true then y else B.val X Y) := by
    intro S k A B x y hS hA hxy i j hi
    obtain ⟨u1, u2⟩ := hit i j (hS i j hi).1 (hS i j hi).2
    simp only [Tensor.setv_val]
    by_cases hin : o.inside (c.g.toReal ⟨i, j⟩) = true
    · rw [if_pos (u1.mpr hin), if_pos (u2.mpr hin), hxy]
    · rw [if_neg (fun x => hin (u1.mp x)), if_neg (fun x => hin (u2.mp x))]; exact hA i j hi
  obtain ⟨p1, p2, p3, p4, p5⟩ := insertObject_parts a1
  obtain ⟨q1, q2, q3, q4, q5⟩ := insertObject_parts b1
  have key : v.OnO SE 1 c'.prevE d'.prevE ∧ v.OnO SE 1 c'.prev2E d'.prev2E ∧
      List.Forall₂ (fun p q => p.1 = q.1 ∧ v.Deb SE p.2 q.2) c'.debye d'.debye ∧
      List.Forall₂ (fun p q => p.1 = q.1 ∧ v.Dru SE p.2 q.2) c'.drude d'.drude ∧
      List.Forall₂ (fun p q => p.1 = q.1 ∧ v.Lor SE p.2 q.2) c'.lorentz d'.lorentz := by
    have orI : ∀ {A B : Option (Tensor ℝ)} {E F : Tensor ℝ}, v.OnO SE 1 A B → v.On SE 1 E F → v.OnO SE 1 (orInit A E) (orInit B F) := by
      intro A B E F hA hE
      cases A <;> cases B
      · exact hE
      · exact hA.elim
      · exact hA.elim
      · exact hA
    have z : ∀ (k : ℝ) (n m p n' m' p' : ℤ), v.On3 SE k (.const n m p 0) (.const n' m' p' 0) := fun k n m p n' m' p' i j _ N => by
      simp [Tensor3.const]
    unfold Core.insertObject at a1 b1
    rw [paintObject_closed hc.wf.f so] at a1
    rw [paintObject_closed hd.wf.f so'] at b1
    simp only [Except.ok_bind] at a1 b1
    rw [ho.kind] at b1
    cases hk : o.mat.kind with
    | simple m =>
      rw [hk] at a1 b1
      cases a1; cases b1
      exact ⟨h.prevE, h.prev2E, h.debye, h.drude, h.lorentz⟩
    | debye m =>
      rw [hk] at a1 b1
      simp only [View.kind, ho.name] at a1 b1
      obtain ⟨k, k', r1, r2, r3⟩ := addPol_view o.mat.name (R := fun P Q => v.Deb SE P Q ∧ P.WF c.g.Nx c.g.Ny ∧ Q.WF d.g.Nx d.g.Ny)
        (fresh := DebyePol.make c.g m) (fresh' := DebyePol.make d.g (v.debye m)) (ins := fun P => P.insert c.g o) (ins' := fun P => P.insert d.g o')
        ⟨⟨rfl, by simp [DebyePol.make, View.debye], z _ _ _ _ _ _ _, z _ _ _ _ _ _ _⟩, DebyePol.make_wf _ _, DebyePol.make_wf _ _⟩
        (fun P Q hR => by
          obtain ⟨h1, h2, h3⟩ := hR
          refine ⟨_, _, DebyePol.insert_closed h2 o, DebyePol.insert_closed h3 o', ⟨h1.mat, h1.np, h1.J, ?_⟩, ⟨h2.np, h2.J, h2.beta⟩, ⟨h3.np, h3.J, h3.beta⟩⟩
          refine paint_view h1.beta (fun N => ?_) hE (fun i j => ho.node h.dx i j) (by rw [h3.beta.2.2, h2.beta.2.2, h1.np])
          rw [h1.mat, hdt, debye_betas hs, one_mul])
        (forall2_wf (W := fun P : DebyePol ℝ => P.WF c.g.Nx c.g.Ny) (W' := fun P : DebyePol ℝ => P.WF d.g.Nx d.g.Ny) h.debye hc.wf.debye hd.wf.debye)
      rw [r1] at a1; rw [r2] at b1
      cases a1; cases b1
      exact ⟨orI h.prevE h.same.Ez, h.prev2E, r3.imp fun p q hp => ⟨hp.1, hp.2.1⟩, h.drude, h.lorentz⟩
    | drude m =>
      rw [hk] at a1 b1
      simp only [View.kind, ho.name] at a1 b1
      obtain ⟨k, k', r1, r2, r3⟩ := addPol_view o.mat.name (R := fun P Q => v.Dru SE P Q ∧ P.WF c.g.Nx c.g.Ny ∧ Q.WF d.g.Nx d.g.Ny)
        (fresh := DrudePol.make c.g m) (fresh' := DrudePol.make d.g (v.drude m)) (ins := fun P => P.insert c.g o) (ins' := fun P => P.insert d.g o')
        ⟨⟨rfl, by simp [DrudePol.make, View.drude], z _ _ _ _ _ _ _, z _ _ _ _ _ _ _⟩, DrudePol.make_wf _ _, DrudePol.make_wf _ _⟩
        (fun P Q hR => by
          obtain ⟨h1, h2, h3⟩ := hR
          refine ⟨_, _, DrudePol.insert_closed h2 o, DrudePol.insert_closed h3 o', ⟨h1.mat, h1.np, h1.J, ?_⟩, ⟨h2.np, h2.J, h2.beta⟩, ⟨h3.np, h3.J, h3.beta⟩⟩
          refine paint_view h1.beta (fun N => ?_) hE (fun i j => ho.node h.dx i j) (by rw [h3.beta.2.2, h2.beta.2.2, h1.np])
          rw [h1.mat, hdt, drude_betas hs, Arr.ofList_map_div])
        (forall2_wf (W := fun P : DrudePol ℝ => P.WF c.g.Nx c.g.Ny) (W' := fun P : DrudePol ℝ => P.WF d.g.Nx d.g.Ny) h.drude hc.wf.drude hd.wf.drude)
      rw [r1] at a1; rw [r2] at b1
      cases a1; cases b1
      exact ⟨orI h.prevE h.same.Ez, h.prev2E, h.debye, r3.imp fun p q hp => ⟨hp.1, hp.2.1⟩, h.lorentz⟩
    | lorentz m =>
      rw [hk] at a1 b1
      simp only [View.kind, ho.name] at a1 b1
      obtain ⟨k, k', r1, r2, r3⟩ := addPol_view o.mat.name (R := fun P Q => v.Lor SE P Q ∧ P.WF c.g.Nx c.g.Ny ∧ Q.WF d.g.Nx d.g.Ny)
        (fresh := LorentzPol.make c.g m) (fresh' := LorentzPol.make d.g (v.lorentz m)) (ins := fun P => P.insert c.g o) (ins' := fun P => P.insert d.g o')
        ⟨⟨rfl, by simp [LorentzPol.make, View.lorentz], z _ _ _ _ _ _ _, z _ _ _ _ _ _ _, z _ _ _ _ _ _ _⟩, LorentzPol.make_wf _ _, LorentzPol.make_wf _ _⟩
        (fun P Q hR => by
          obtain ⟨h1, h2, h3⟩ := hR
          refine ⟨_, _, LorentzPol.insert_closed h2 o, LorentzPol.insert_closed h3 o', ⟨h1.mat, h1.np, h1.J, h1.prevJ, ?_⟩,
            ⟨h2.np, h2.J, h2.delta, h2.prevJ⟩, ⟨h3.np, h3.J, h3.delta, h3.prevJ⟩⟩
          refine paint_view h1.delta (fun N => ?_) hE (fun i j => ho.node h.dx i j) (by rw [h3.delta.2.2, h2.delta.2.2, h1.np])
          rw [h1.mat, hdt, lorentz_deltas hs, one_mul])
        (forall2_wf (W := fun P : LorentzPol ℝ => P.WF c.g.Nx c.g.Ny) (W' := fun P : LorentzPol ℝ => P.WF d.g.Nx d.g.Ny) h.lorentz hc.wf.lorentz hd.wf.lorentz)
      rw [r1] at a1; rw [r2] at b1
      cases a1; cases b1
      exact ⟨orI h.prevE h.same.Ez, orI h.prev2E h.same.Ez, h.debye, h.drude, r3.imp fun p q hp => ⟨hp.1, hp.2.1⟩⟩
  obtain ⟨k1, k2, k3, k4, k5⟩ := key
  exact {
    dx := by rw [a3, b3]; exact h.dx
    same := {
      tStep := by rw [p5, q5]; exact h.same.tStep
      t := by rw [p4, q4]; exact h.same.t
      Ez := pE
      Hx := by rw [e1, e2]; exact h.same.Hx
      Hy := by rw [e1, e2]; exact h.same.Hy }
    Ca := by rw [e1, e2]; exact paint hE h.Ca (by rw [ho.kind, hdt, kind_Ca hs, one_mul])
    Cb := by rw [e1, e2]; exact paint hE h.Cb (by rw [ho.kind, hdt, kind_Cb hs])
    Da := by rw [e1, e2]; exact paint hH h.Da (by rw [ho.kind, hdt, kind_Da, one_mul])
    Db := by rw [e1, e2]; exact paint hH h.Db (by rw [ho.kind, hdt, kind_Db])
    prevE := k1
    prev2E := k2
    debye := k3
    drude := k4
    lorentz := k5
    tfsf := by rw [p3, q3]; exact h.tfsf }

theorem Sees.insertAll {SE SH : ℤ → ℤ → Prop} : ∀ {l l' : List (Object ℝ)} {c d : Core ℝ}, c.Std → d.Std → v.Sees SE SH c d →
    (∀ i j, SE i j → Node c.g i j ∧ Node d.g (i + v.a) (j + v.b)) → (∀ i j, SH i j → Node c.g i j ∧ Node d.g (i + v.a) (j + v.b)) →
    List.Forall₂ (v.SameObj c.g.dx) l l' → (∀ o ∈ l, o.Safe c.g ∧ o.Covered c.g) → (∀ o ∈ l', o.Safe d.g ∧ o.Covered d.g) →
    ∃ c' d', forList l c (fun o c => c.insertObject o) = .ok c' ∧ forList l' d (fun o c => c.insertObject o) = .ok d' ∧ c'.Std ∧ d'.Std ∧
      c'.g = c.g ∧ d'.g = d.g ∧ v.Sees SE SH c' d'
  | _, _, c, d, hc, hd, h, _, _, .nil, _, _ => ⟨c, d, rfl, rfl, hc, hd, rfl, rfl, h⟩
  | _, _, c, d, hc, hd, h, hE, hH, .cons (a := o) (b := o') (l₁ := l) (l₂ := l') ho hl, s, s' => by
    obtain ⟨c1, d1, a1, a2, a3, a4, a5, a6, a7⟩ := h.insertObject hs hc hd hE hH ho (s o (by simp)).1 (s' o' (by simp)).1
      (s o (by simp)).2 (s' o' (by simp)).2
    obtain ⟨c2, d2, b1, b2, b3, b4, b5, b6, b7⟩ := Sees.insertAll a3 a4 a7 (by rw [a5, a6]; exact hE) (by rw [a5, a6]; exact hH)
      (by rw [a5]; exact hl) (by rw [a5]; exact fun o ho => s o (by simp [ho])) (by rw [a6]; exact fun o ho => s' o (by simp [ho]))
    refine ⟨c2, d2, ?_, ?_, b3, b4, by rw [b5, a5], by rw [b6, a6], b7⟩
    · rw [forList_cons, a1]; exact b1
    · rw [forList_cons, a2]; exact b2

omit hs in
theorem make_vals {g : Grid ℝ} {c : Core ℝ} (hm : Core.make g = .ok c) : c.f.Ez.val = (fun _ _ => 0) ∧ c.f.Hx.val = (fun _ _ => 0) ∧
    c.f.Hy.val = (fun _ _ => 0) ∧ (∀ i j, Node g i j → c.f.Ca.val i j = 1 ∧ c.f.Cb.val i j = g.dt ∧ c.f.Da.val i j = 1 ∧ c.f.Db.val i j = g.dt) ∧
    c.prevE = none ∧ c.prev2E = none := by
  unfold Core.make at hm
  simp only [Except.bind_ok, Except.pure_eq] at hm
  obtain ⟨f, hf, p, -, sc, -, hcc⟩ := hm
  rw [clearMaterials_closed (f := ⟨.const g.Nx g.Ny 0, .const g.Nx g.Ny 0, .const g.Nx g.Ny 0, .const g.Nx g.Ny 0,
    .const g.Nx g.Ny 0, .const g.Nx g.Ny 0, .const g.Nx g.Ny 0⟩) ⟨⟨rfl, rfl⟩, ⟨rfl, rfl⟩, ⟨rfl, rfl⟩, ⟨rfl, rfl⟩, ⟨rfl, rfl⟩,
    ⟨rfl, rfl⟩, ⟨rfl, rfl⟩⟩] at hf
  cases hf
  cases hcc
  refine ⟨rfl, rfl, rfl, fun i j hn => ?_, rfl, rfl⟩
  have := mem_node hn
  have k1 : (vacuum : Simple ℝ).Ca g.dt = 1 := by simp [Simple.Ca, vacuum]
  have k2 : (vacuum : Simple ℝ).Cb g.dt = g.dt := by simp [Simple.Cb, vacuum]
  have k3 : (vacuum : Simple ℝ).Da g.dt = 1 := rfl
  have k4 : (vacuum : Simple ℝ).Db g.dt = g.dt := rfl
  simp [Flds.paint, this, MatKind.Ca, MatKind.Cb, MatKind.Da, MatKind.Db, k1, k2, k3, k4]

omit hs in
theorem Sees.make {g g' : Grid ℝ} {c d : Core ℝ} (hl : Lawful g) (hl' : Lawful g') (hx : g'.dx = v.s * g.dx) (hm : Core.make g = .ok c)
    (hm' : Core.make g' = .ok d) (e : c.g = g) (e' : d.g = g') (t1 : c.tStep = 0) (t2 : c.t = 0) (t3 : c.tfsf = none) (t1' : d.tStep = 0)
    (t2' : d.t = 0) (t3' : d.tfsf = none) {SE SH : ℤ → ℤ → Prop} (hE : ∀ i j, SE i j → Node g i j ∧ Node g' (i + v.a) (j + v.b))
    (hH : ∀ i j, SH i j → Node g i j ∧ Node g' (i + v.a) (j + v.b)) : v.Sees SE SH c d := by
  obtain ⟨a1, a2, a3, a4, a5, a6⟩ := make_vals hm
  obtain ⟨b1, b2, b3, b4, b5, b6⟩ := make_vals hm'
  obtain ⟨n1, n2, n3⟩ := Core.make_no_pol hm
  obtain ⟨m1, m2, m3⟩ := Core.make_no_pol hm'
  have hdt : g'.dt = v.s * g.dt := by rw [hl'.dt, hl.dt, hx]; ring
  exact {
    dx := by rw [e, e', hx]
    same := {
      tStep := by rw [t1, t1']
      t := by rw [t2, t2', mul_zero]
      Ez := fun i j _ => by rw [a1, b1, mul_zero]
      Hx := fun i j _ => by rw [a2, b2, mul_zero]
      Hy := fun i j _ => by rw [a3, b3, mul_zero] }
    Ca := fun i j hi => by rw [(a4 _ _ (hE i j hi).1).1, (b4 _ _ (hE i j hi).2).1, one_mul]
    Cb := fun i j hi => by rw [(a4 _ _ (hE i j hi).1).2.1, (b4 _ _ (hE i j hi).2).2.1, hdt]
    Da := fun i j hi => by rw [(a4 _ _ (hH i j hi).1).2.2.1, (b4 _ _ (hH i j hi).2).2.2.1, one_mul]
    Db := fun i j hi => by rw [(a4 _ _ (hH i j hi).1).2.2.2, (b4 _ _ (hH i j hi).2).2.2.2, hdt]
    prevE := by rw [a5, b5]; trivial
    prev2E := by rw [a6, b6]; trivial
    debye := by rw [n1, m1]; exact .nil
    drude := by rw [n2, m2]; exact .nil
    lorentz := by rw [n3, m3]; exact .nil
    tfsf := by rw [t3, t3']; trivial }

omit hs in
theorem Sees.setTfsf {SE SH : ℤ → ℤ → Prop} {c d : Core ℝ} (hc : c.Std) (hd : d.Std) (h : v.Sees SE SH c d) {w w' : Vol ℝ × TimeProfile ℝ}
    (hw : v.SameWave c.g d.g w w') (f : TfsfFits c.g w.1) (f' : TfsfFits d.g w'.1) : v.Sees SE SH (c.setTfsf w.1 w.2) (d.setTfsf w'.1 w'.2) := by
  have hdt : d.g.dt = v.s * c.g.dt := by rw [hd.law.dt, hc.law.dt, h.dx]; ring
  have eN : (Tfsf.make d.g w'.2 w'.1 d.g.dt).Nx = (Tfsf.make c.g w.2 w.1 c.g.dt).Nx := by
    rw [(Tfsf.make_inGrid f w.2 c.g.dt).1, (Tfsf.make_inGrid f' w'.2 d.g.dt).1]
    show (d.g.toGrid w'.1.b).y - (d.g.toGrid w'.1.a).y + 5 = (c.g.toGrid w.1.b).y - (c.g.toGrid w.1.a).y + 5
    rw [hw.a, hw.b]; simp only; ring
  exact { h with
    same := ⟨h.same.tStep, h.same.t, h.same.Ez, h.same.Hx, h.same.Hy⟩
    tfsf := by
      show v.Tf _ _
      exact {
        ia := congrArg V2.x hw.a
        ib := congrArg V2.x hw.b
        ja := congrArg V2.y hw.a
        jb := congrArg V2.y hw.b
        Nx := eN
        t := by simp [Tfsf.make]
        dt := hdt
        Ez := congrArg (fun n => Arr.const n 0) eN
        Dz := congrArg (fun n => Arr.const n 0) eN
        Hx := congrArg (fun n => Arr.const n 0) eN
        Iz := congrArg (fun n => Arr.const n 0) eN
        ca := by
          show Arr.const _ _ = Arr.const _ _
          rw [zero_mul, zero_mul]; exact congrArg (fun n => Arr.const n _) eN
        cb := by
          show Arr.const _ _ = Arr.const _ _
          rw [zero_mul, zero_mul]; exact congrArg (fun n => Arr.const n _) eN
        left0 := rfl
        left1 := rfl
        right0 := rfl
        right1 := rfl
        signal := hw.signal } }

omit hs in
theorem Std_setTfsf {c : Core ℝ} (hc : c.Std) {w : Vol ℝ × TimeProfile ℝ} (f : TfsfFits c.g w.1) : (c.setTfsf w.1 w.2).Std :=
  hc.of_same (Core.setTfsf_ok hc.wf f w.2) rfl rfl rfl rfl

/-- Both programs to the end. -/
theorem run_view {g g' : Grid ℝ} (hg : g.Wide) (hg' : g'.Wide) (hl : Lawful g) (hl' : Lawful g') (hT : g.T = 0 ∨ 2 ≤ g.T)
    (hT' : g'.T = 0 ∨ 2 ≤ g'.T) (hx : g'.dx = v.s * g.dx) {S S' : Scene} (f : S.Fits g) (f' : S'.Fits g') (h : v.SameScene g g' S S')
    (SE SH : ℕ → ℤ → ℤ → Prop) (hk : ∀ r, v.Shrinks g g' (SE r) (SH r) (SE (r + 1)) (SH (r + 1)))
    (hE : ∀ i j, SE 0 i j → Node g i j ∧ Node g' (i + v.a) (j + v.b))
    (hH : ∀ i j, SH 0 i j → Node g i j ∧ Node g' (i + v.a) (j + v.b)) (n : ℕ) :
    ∃ c d, S.run g n = .ok c ∧ S'.run g' n = .ok d ∧ v.SameFields (SE n) (SH n) c d := by
  obtain ⟨c0, m0, s0, rfl, t1, t2, t3⟩ := Core.make_std hg hl hT
  obtain ⟨d0, m0', s0', rfl, t1', t2', t3'⟩ := Core.make_std hg' hl' hT'
  have h0 : v.Sees (SE 0) (SH 0) c0 d0 := Sees.make hl hl' hx m0 m0' rfl rfl t1 t2 t3 t1' t2' t3' hE hH
  obtain ⟨c1, d1, a1, a2, a3, a4, a5, a6, a7⟩ := h0.insertAll hs s0 s0' hE hH h.objs
    (fun o ho => ⟨safe_of_clear hl (f.clear o ho), covered_of_sound hl (f.box o ho)⟩)
    (fun o ho => ⟨safe_of_clear hl' (f'.clear o ho), covered_of_sound hl' (f'.box o ho)⟩)
  rw [← a5, ← a6] at hk
  have fin : ∀ c2 d2 : Core ℝ, c2.Std → d2.Std → c2.g = c1.g → d2.g = d1.g → v.Sees (SE 0) (SH 0) c2 d2 →
      ∃ c' d' m m', c2.run n S.srcs = .ok (c', m) ∧ d2.run n S'.srcs = .ok (d', m') ∧ v.SameFields (SE n) (SH n) c' d' := by
    intro c2 d2 h1 h2 e1 e2 h3
    obtain ⟨c', d', m, m', b1, b2, b3⟩ := h3.run hs SE SH n 0 h1 h2 (by rw [e1, e2]; exact hk)
      (by rw [e1, e2, a5, a6]; exact h.srcs) (by rw [e1, a5]; exact f.srcs) (by rw [e2, a6]; exact f'.srcs)
    rw [zero_add] at b3
    exact ⟨c', d', m, m', b1, b2, b3.same⟩
  unfold Scene.run
  rw [m0, m0']
  simp only [Except.ok_bind]
  rw [a1, a2]
  simp only [Except.ok_bind]
  have hw := h.wave
  have fw := f.wave
  have fw' := f'.wave
  cases e : S.wave with
  | none =>
    rw [e] at hw
    cases e' : S'.wave with
    | some w' => rw [e'] at hw; cases hw
    | none =>
      obtain ⟨c', d', m, m', b1, b2, b3⟩ := fin c1 d1 a3 a4 rfl rfl a7
      exact ⟨c', d', by simp only [b1]; rfl, by simp only [b2]; rfl, b3⟩
  | some w =>
    rw [e] at hw
    cases e' : S'.wave with
    | none => rw [e'] at hw; cases hw
    | some w' =>
      rw [e'] at hw
      have hw : v.SameWave c0.g d0.g w w' := by cases hw; assumption
      obtain ⟨u1, u2, u3, u4, u5, u6⟩ := fw w e
      obtain ⟨u1', u2', u3', u4', u5', u6'⟩ := fw' w' e'
      have g1 : TfsfFits c1.g w.1 := by rw [a5]; exact ⟨u1, u2, u3, u4, u5, u6⟩
      have g2 : TfsfFits d1.g w'.1 := by rw [a6]; exact ⟨u1', u2', u3', u4', u5', u6'⟩
      obtain ⟨c', d', m, m', b1, b2, b3⟩ := fin _ _ (Std_setTfsf a3 g1) (Std_setTfsf a4 g2) rfl rfl
        (a7.setTfsf a3 a4 (by rw [a5, a6]; exact hw) g1 g2)
      exact ⟨c', d', by simp only [b1]; rfl, by simp only [b2]; rfl, b3⟩

/-! ## regions -/

omit hs in
theorem shrinks_inner (g g' : Grid ℝ) (h : 0 ≤ g.T) (h' : 0 ≤ g'.T) (r : ℕ) :
    v.Shrinks g g' (fun i j => InnerE g r i j ∧ InnerE g' r (i + v.a) (j + v.b)) (fun i j => InnerH g r i j ∧ InnerH g' r (i + v.a) (j + v.b))
      (fun i j => InnerE g (r + 1 : ℕ) i j ∧ InnerE g' (r + 1 : ℕ) (i + v.a) (j + v.b))
      (fun i j => InnerH g (r + 1 : ℕ) i j ∧ InnerH g' (r + 1 : ℕ) (i + v.a) (j + v.b)) := by
  constructor <;> intro i j <;> simp only [InnerE, InnerH, Node, Upd, FreeE, FreeH] <;> push_cast <;> intros <;> omega

omit hs in
theorem shrinks_all (g g' : Grid ℝ) (hN : g'.Nx = g.Nx) (hM : g'.Ny = g.Ny) (h : g.T = 0) (h' : g'.T = 0) (ha : v.a = 0) (hb : v.b = 0) :
    v.Shrinks g g' (Node g) (Node g) (Node g) (Node g) := by
  constructor <;> intro i j <;> simp only [Node, Upd, FreeE, FreeH, h, h', ha, hb, hN, hM] <;> intros <;> (try simp only [add_zero, true_or, true_and, iff_self]) <;> omega

end Spec.View
end Qbox
