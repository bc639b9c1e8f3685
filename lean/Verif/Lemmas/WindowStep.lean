import Verif.Lemmas.Window

/-!
# One step of two programs with the same scene: currents, incident wave, fields
-/

namespace Qbox
open Scalar Spec Props

set_option linter.unusedSectionVars false
set_option linter.unusedSimpArgs false

namespace Spec.View
variable (v : View)

def On3 (S : ℤ → ℤ → Prop) (k : ℝ) (A B : Tensor3 ℝ) : Prop := ∀ i j, S i j → ∀ N, B.val (i + v.a) (j + v.b) N = k * A.val i j N

def OnO (S : ℤ → ℤ → Prop) (k : ℝ) : Option (Tensor ℝ) → Option (Tensor ℝ) → Prop
  | none, none => True
  | some A, some B => v.On S k A B
  | _, _ => False

structure Deb (S : ℤ → ℤ → Prop) (P Q : DebyePol ℝ) : Prop where
  mat : Q.mat = v.debye P.mat
  np : Q.np = P.np
  J : v.On3 S v.s⁻¹ P.J Q.J
  beta : v.On3 S 1 P.beta Q.beta

structure Dru (S : ℤ → ℤ → Prop) (P Q : DrudePol ℝ) : Prop where
  mat : Q.mat = v.drude P.mat
  np : Q.np = P.np
  J : v.On3 S v.s⁻¹ P.J Q.J
  beta : v.On3 S v.s⁻¹ P.beta Q.beta

structure Lor (S : ℤ → ℤ → Prop) (P Q : LorentzPol ℝ) : Prop where
  mat : Q.mat = v.lorentz P.mat
  np : Q.np = P.np
  J : v.On3 S v.s⁻¹ P.J Q.J
  prevJ : v.On3 S v.s⁻¹ P.prevJ Q.prevJ
  delta : v.On3 S 1 P.delta Q.delta

/-- The same incident wave. -/
structure Tf (w u : Tfsf ℝ) : Prop where
  ia : u.ia = w.ia + v.a
  ib : u.ib = w.ib + v.a
  ja : u.ja = w.ja + v.b
  jb : u.jb = w.jb + v.b
  Nx : u.Nx = w.Nx
  t : u.t = v.s * w.t
  dt : u.dt = v.s * w.dt
  Ez : u.Ez = w.Ez
  Dz : u.Dz = w.Dz
  Hx : u.Hx = w.Hx
  Iz : u.Iz = w.Iz
  ca : u.ca = w.ca
  cb : u.cb = w.cb
  left0 : u.left0 = w.left0
  left1 : u.left1 = w.left1
  right0 : u.right0 = w.right0
  right1 : u.right1 = w.right1
  signal : v.SameSignal w.tp.resp u.tp.resp

def TfO : Option (Tfsf ℝ) → Option (Tfsf ℝ) → Prop
  | none, none => True
  | some w, some u => v.Tf w u
  | _, _ => False

structure Sees (SE SH : ℤ → ℤ → Prop) (c d : Core ℝ) : Prop where
  dx : d.g.dx = v.s * c.g.dx
  same : v.SameFields SE SH c d
  Ca : v.On SE 1 c.f.Ca d.f.Ca
  Cb : v.On SE v.s c.f.Cb d.f.Cb
  Da : v.On SH 1 c.f.Da d.f.Da
  Db : v.On SH v.s c.f.Db d.f.Db
  prevE : v.OnO SE 1 c.prevE d.prevE
  prev2E : v.OnO SE 1 c.prev2E d.prev2E
  debye : List.Forall₂ (fun p q => p.1 = q.1 ∧ v.Deb SE p.2 q.2) c.debye d.debye
  drude : List.Forall₂ (fun p q => p.1 = q.1 ∧ v.Dru SE p.2 q.2) c.drude d.drude
  lorentz : List.Forall₂ (fun p q => p.1 = q.1 ∧ v.Lor SE p.2 q.2) c.lorentz d.lorentz
  tfsf : v.TfO c.tfsf d.tfsf

/-- After one step the fields on `SE'`, `SH'` only depend on the fields on `SE`, `SH`, in both grids. -/
structure Shrinks (g g' : Grid ℝ) (SE SH SE' SH' : ℤ → ℤ → Prop) : Prop where
  keepE : ∀ i j, SE' i j → SE i j
  keepH : ∀ i j, SH' i j → SH i j
  nodeE : ∀ i j, SE' i j → Node g i j ∧ Node g' (i + v.a) (j + v.b)
  updE : ∀ i j, SE' i j → (Upd g i j ↔ Upd g' (i + v.a) (j + v.b))
  updH : ∀ i j, SH' i j → (Upd g i j ↔ Upd g' (i + v.a) (j + v.b))
  nearE : ∀ i j, SE' i j → Upd g i j → SH i j ∧ SH (i - 1) j ∧ SH i (j - 1)
  nearH : ∀ i j, SH' i j → Upd g i j → SE' i j ∧ SE' (i + 1) j ∧ SE' i (j + 1)
  freeE : ∀ i j, SE' i j → FreeE g i j ∧ FreeE g' (i + v.a) (j + v.b)
  freeH : ∀ i j, SH' i j → FreeH g i j ∧ FreeH g' (i + v.a) (j + v.b)

variable {v}

theorem On.mono {S S' : ℤ → ℤ → Prop} {k : ℝ} {A B : Tensor ℝ} (h : v.On S k A B) (hS : ∀ i j, S' i j → S i j) : v.On S' k A B :=
  fun i j hi => h i j (hS i j hi)
theorem On3.mono {S S' : ℤ → ℤ → Prop} {k : ℝ} {A B : Tensor3 ℝ} (h : v.On3 S k A B) (hS : ∀ i j, S' i j → S i j) : v.On3 S' k A B :=
  fun i j hi => h i j (hS i j hi)
theorem OnO.mono {S S' : ℤ → ℤ → Prop} {k : ℝ} {A B : Option (Tensor ℝ)} (h : v.OnO S k A B) (hS : ∀ i j, S' i j → S i j) : v.OnO S' k A B := by
  cases A <;> cases B <;> first | exact h | exact On.mono h hS
theorem Deb.mono {S S' : ℤ → ℤ → Prop} {P Q : DebyePol ℝ} (h : v.Deb S P Q) (hS : ∀ i j, S' i j → S i j) : v.Deb S' P Q :=
  ⟨h.mat, h.np, h.J.mono hS, h.beta.mono hS⟩
theorem Dru.mono {S S' : ℤ → ℤ → Prop} {P Q : DrudePol ℝ} (h : v.Dru S P Q) (hS : ∀ i j, S' i j → S i j) : v.Dru S' P Q :=
  ⟨h.mat, h.np, h.J.mono hS, h.beta.mono hS⟩
theorem Lor.mono {S S' : ℤ → ℤ → Prop} {P Q : LorentzPol ℝ} (h : v.Lor S P Q) (hS : ∀ i j, S' i j → S i j) : v.Lor S' P Q :=
  ⟨h.mat, h.np, h.J.mono hS, h.prevJ.mono hS, h.delta.mono hS⟩

/-! ## currents -/

theorem cellIter_view {A B : Type} (sc : A → B) (f : ℤ → ℝ → A → ℝ × A) (f' : ℤ → ℝ → B → ℝ × B)
    (h : ∀ n E J, f' n E (sc J) = ((f n E J).1, sc (f n E J).2)) (n : ℕ) (E : ℝ) (J : ℤ → A) :
    cellIter f' n (E, fun N => sc (J N)) = ((cellIter f n (E, J)).1, fun N => sc ((cellIter f n (E, J)).2 N)) := by
  induction n with
  | zero => rfl
  | succ n ih =>
    rw [cellIter_succ, cellIter_succ, ih]
    simp only [h]
    refine Prod.ext rfl (funext fun N => ?_)
    simp only
    split_ifs <;> rfl

variable (hs : v.s ≠ 0)
include hs

theorem debyeStep_view (dt Cb : ℝ) (kap bet : ℤ → ℝ) (pE : ℝ) (N : ℤ) (E J : ℝ) :
    debyeStep (v.s * dt) (v.s * Cb) kap bet pE N E (v.s⁻¹ * J)
      = ((debyeStep dt Cb kap bet pE N E J).1, v.s⁻¹ * (debyeStep dt Cb kap bet pE N E J).2) := by
  have e : E - v.s * Cb * half * (1 + kap N) * (v.s⁻¹ * J) = E - Cb * half * (1 + kap N) * J := by field_simp
  have e2 : bet N / (v.s * dt) = v.s⁻¹ * (bet N / dt) := by rw [mul_comm v.s dt, ← div_div, div_eq_inv_mul]
  refine Prod.ext e ?_
  simp only [debyeStep]
  rw [e, e2]; ring

theorem drudeStep_view (Cb : ℝ) (kap bet bet' : ℤ → ℝ) (hb : ∀ N, bet' N = v.s⁻¹ * bet N) (pE : ℝ) (N : ℤ) (E J : ℝ) :
    drudeStep (v.s * Cb) kap bet' pE N E (v.s⁻¹ * J)
      = ((drudeStep Cb kap bet pE N E J).1, v.s⁻¹ * (drudeStep Cb kap bet pE N E J).2) := by
  have e : E - v.s * Cb * half * (1 + kap N) * (v.s⁻¹ * J) = E - Cb * half * (1 + kap N) * J := by field_simp
  refine Prod.ext e ?_
  simp only [drudeStep]
  rw [e, hb]; ring

theorem lorentzStep_view (dt Cb CaPrev : ℝ) (alp bet del : ℤ → ℝ) (p2E : ℝ) (N : ℤ) (E : ℝ) (J : ℝ × ℝ) :
    lorentzStep (v.s * dt) (v.s * Cb) CaPrev alp bet del p2E N E (v.s⁻¹ * J.1, v.s⁻¹ * J.2)
      = ((lorentzStep dt Cb CaPrev alp bet del p2E N E J).1,
        (v.s⁻¹ * (lorentzStep dt Cb CaPrev alp bet del p2E N E J).2.1, v.s⁻¹ * (lorentzStep dt Cb CaPrev alp bet del p2E N E J).2.2)) := by
  have e : E + (CaPrev * p2E - v.s * Cb * half * ((1 + alp N) * (v.s⁻¹ * J.1) + bet N * (v.s⁻¹ * J.2)))
      = E + (CaPrev * p2E - Cb * half * ((1 + alp N) * J.1 + bet N * J.2)) := by
    rw [show (1 + alp N) * (v.s⁻¹ * J.1) + bet N * (v.s⁻¹ * J.2) = v.s⁻¹ * ((1 + alp N) * J.1 + bet N * J.2) by ring]
    field_simp
  have e2 : del N / (ofInt 2 * (v.s * dt)) = v.s⁻¹ * (del N / (ofInt 2 * dt)) := by
    rw [show (ofInt 2 : ℝ) * (v.s * dt) = (ofInt 2 * dt) * v.s by ring, ← div_div, div_eq_inv_mul]
  refine Prod.ext e (Prod.ext ?_ rfl)
  simp only [lorentzStep]
  rw [e, e2]; ring

theorem debye_cell {S : ℤ → ℤ → Prop} {P Q : DebyePol ℝ} (h : v.Deb S P Q) {g g' : Grid ℝ} (hdt : g'.dt = v.s * g.dt) {pE pF E F : Tensor ℝ}
    (hp : v.On S 1 pE pF) (hE : v.On S 1 E F) (n : ℕ) {i j : ℤ} (hi : S i j) :
    Q.cell g' pF F n (i + v.a) (j + v.b) = ((P.cell g pE E n i j).1, fun N => v.s⁻¹ * (P.cell g pE E n i j).2 N) := by
  unfold DebyePol.cell
  rw [h.mat, hdt, debye_Cb hs, debye_kappas hs, hp i j hi, hE i j hi, one_mul, one_mul,
    show Q.J.val (i + v.a) (j + v.b) = fun N => v.s⁻¹ * P.J.val i j N from funext (h.J i j hi),
    show Q.beta.val (i + v.a) (j + v.b) = P.beta.val i j from funext fun N => (h.beta i j hi N).trans (one_mul _)]
  exact cellIter_view (fun x => v.s⁻¹ * x) _ _ (fun n E J => debyeStep_view hs _ _ _ _ _ n E J) n _ _

theorem drude_cell {S : ℤ → ℤ → Prop} {P Q : DrudePol ℝ} (h : v.Dru S P Q) {g g' : Grid ℝ} (hdt : g'.dt = v.s * g.dt) {pE pF E F : Tensor ℝ}
    (hp : v.On S 1 pE pF) (hE : v.On S 1 E F) (n : ℕ) {i j : ℤ} (hi : S i j) :
    Q.cell g' pF F n (i + v.a) (j + v.b) = ((P.cell g pE E n i j).1, fun N => v.s⁻¹ * (P.cell g pE E n i j).2 N) := by
  unfold DrudePol.cell
  rw [h.mat, hdt, drude_Cb hs, drude_kappas hs, hp i j hi, hE i j hi, one_mul, one_mul,
    show Q.J.val (i + v.a) (j + v.b) = fun N => v.s⁻¹ * P.J.val i j N from funext (h.J i j hi)]
  exact cellIter_view (fun x => v.s⁻¹ * x) _ _ (fun n E J => drudeStep_view hs _ _ _ _ (h.beta i j hi) _ n E J) n _ _

theorem lorentz_cell {S : ℤ → ℤ → Prop} {P Q : LorentzPol ℝ} (h : v.Lor S P Q) {g g' : Grid ℝ} (hdt : g'.dt = v.s * g.dt)
    {pE pF E F : Tensor ℝ} (hp : v.On S 1 pE pF) (hE : v.On S 1 E F) (n : ℕ) {i j : ℤ} (hi : S i j) :
    Q.cell g' pF F n (i + v.a) (j + v.b)
      = ((P.cell g pE E n i j).1, fun N => (v.s⁻¹ * ((P.cell g pE E n i j).2 N).1, v.s⁻¹ * ((P.cell g pE E n i j).2 N).2)) := by
  unfold LorentzPol.cell
  rw [h.mat, hdt, lorentz_Cb hs, lorentz_CaPrev hs, lorentz_alphas hs, lorentz_betas hs, hp i j hi, hE i j hi, one_mul, one_mul,
    show Q.delta.val (i + v.a) (j + v.b) = P.delta.val i j from funext fun N => (h.delta i j hi N).trans (one_mul _),
    show (fun N => (Q.J.val (i + v.a) (j + v.b) N, Q.prevJ.val (i + v.a) (j + v.b) N))
      = fun N => (fun x : ℝ × ℝ => (v.s⁻¹ * x.1, v.s⁻¹ * x.2)) (P.J.val i j N, P.prevJ.val i j N) from
      funext fun N => Prod.ext (h.J i j hi N) (h.prevJ i j hi N)]
  exact cellIter_view (fun x : ℝ × ℝ => (v.s⁻¹ * x.1, v.s⁻¹ * x.2)) _ _ (fun n E J => lorentzStep_view hs _ _ _ _ _ _ _ n E J) n _ _

omit hs in
theorem mem_node {g : Grid ℝ} {i j : ℤ} (h : Node g i j) : (i, j) ∈ rect 0 g.Nx 0 g.Ny := by
  rw [mem_rect]; exact ⟨⟨h.1, h.2.1⟩, h.2.2⟩

section
variable {S : ℤ → ℤ → Prop} {g g' : Grid ℝ} (hdt : g'.dt = v.s * g.dt) (hS : ∀ i j, S i j → Node g i j ∧ Node g' (i + v.a) (j + v.b))
include hdt hS

theorem debye_updateJ {P Q : DebyePol ℝ} (h : v.Deb S P Q) (hP : P.WF g.Nx g.Ny) (hQ : Q.WF g'.Nx g'.Ny) {pE pF E F : Tensor ℝ}
    (dpE : pE.Dim g.Nx g.Ny) (dpF : pF.Dim g'.Nx g'.Ny) (dE : E.Dim g.Nx g.Ny) (dF : F.Dim g'.Nx g'.Ny) (hp : v.On S 1 pE pF)
    (hE : v.On S 1 E F) :
    ∃ P' Q' E' F', P.updateJ g (some pE) E = .ok (P', E') ∧ Q.updateJ g' (some pF) F = .ok (Q', F') ∧
      (v.Deb S P' Q' ∧ P'.WF g.Nx g.Ny ∧ Q'.WF g'.Nx g'.Ny) ∧ E'.Dim g.Nx g.Ny ∧ F'.Dim g'.Nx g'.Ny ∧ v.On S 1 E' F' := by
  refine ⟨_, _, _, _, DebyePol.updateJ_closed hP dpE dE, DebyePol.updateJ_closed hQ dpF dF,
    ⟨⟨h.mat, h.np, fun i j hi N => ?_, h.beta⟩, ⟨hP.np, hP.J, hP.beta⟩, ⟨hQ.np, hQ.J, hQ.beta⟩⟩, dE, dF, fun i j hi => ?_⟩
  · simp only [Tensor3.setv_val]
    rw [if_pos (mem_node (hS i j hi).1), if_pos (mem_node (hS i j hi).2), h.np, debye_cell hs h hdt hp hE _ hi]
  · simp only [Tensor.setv_val]
    rw [if_pos (mem_node (hS i j hi).1), if_pos (mem_node (hS i j hi).2), h.np, debye_cell hs h hdt hp hE _ hi, one_mul]

theorem drude_updateJ {P Q : DrudePol ℝ} (h : v.Dru S P Q) (hP : P.WF g.Nx g.Ny) (hQ : Q.WF g'.Nx g'.Ny) {pE pF E F : Tensor ℝ}
    (dpE : pE.Dim g.Nx g.Ny) (dpF : pF.Dim g'.Nx g'.Ny) (dE : E.Dim g.Nx g.Ny) (dF : F.Dim g'.Nx g'.Ny) (hp : v.On S 1 pE pF)
    (hE : v.On S 1 E F) :
    ∃ P' Q' E' F', P.updateJ g (some pE) E = .ok (P', E') ∧ Q.updateJ g' (some pF) F = .ok (Q', F') ∧
      (v.Dru S P' Q' ∧ P'.WF g.Nx g.Ny ∧ Q'.WF g'.Nx g'.Ny) ∧ E'.Dim g.Nx g.Ny ∧ F'.Dim g'.Nx g'.Ny ∧ v.On S 1 E' F' := by
  refine ⟨_, _, _, _, DrudePol.updateJ_closed hP dpE dE, DrudePol.updateJ_closed hQ dpF dF,
    ⟨⟨h.mat, h.np, fun i j hi N => ?_, h.beta⟩, ⟨hP.np, hP.J, hP.beta⟩, ⟨hQ.np, hQ.J, hQ.beta⟩⟩, dE, dF, fun i j hi => ?_⟩
  · simp only [Tensor3.setv_val]
    rw [if_pos (mem_node (hS i j hi).1), if_pos (mem_node (hS i j hi).2), h.np, drude_cell hs h hdt hp hE _ hi]
  · simp only [Tensor.setv_val]
    rw [if_pos (mem_node (hS i j hi).1), if_pos (mem_node (hS i j hi).2), h.np, drude_cell hs h hdt hp hE _ hi, one_mul]

theorem lorentz_updateJ {P Q : LorentzPol ℝ} (h : v.Lor S P Q) (hP : P.WF g.Nx g.Ny) (hQ : Q.WF g'.Nx g'.Ny) {pE pF E F : Tensor ℝ}
    (dpE : pE.Dim g.Nx g.Ny) (dpF : pF.Dim g'.Nx g'.Ny) (dE : E.Dim g.Nx g.Ny) (dF : F.Dim g'.Nx g'.Ny) (hp : v.On S 1 pE pF)
    (hE : v.On S 1 E F) :
    ∃ P' Q' E' F', P.updateJ g (some pE) E = .ok (P', E') ∧ Q.updateJ g' (some pF) F = .ok (Q', F') ∧
      (v.Lor S P' Q' ∧ P'.WF g.Nx g.Ny ∧ Q'.WF g'.Nx g'.Ny) ∧ E'.Dim g.Nx g.Ny ∧ F'.Dim g'.Nx g'.Ny ∧ v.On S 1 E' F' := by
  refine ⟨_, _, _, _, LorentzPol.updateJ_closed hP dpE dE, LorentzPol.updateJ_closed hQ dpF dF,
    ⟨⟨h.mat, h.np, fun i j hi N => ?_, fun i j hi N => ?_, h.delta⟩, ⟨hP.np, hP.J, hP.delta, hP.prevJ⟩, ⟨hQ.np, hQ.J, hQ.delta, hQ.prevJ⟩⟩,
    dE, dF, fun i j hi => ?_⟩
  · simp only [Tensor3.setv_val]
    rw [if_pos (mem_node (hS i j hi).1), if_pos (mem_node (hS i j hi).2), h.np, lorentz_cell hs h hdt hp hE _ hi]
  · simp only [Tensor3.setv_val]
    rw [if_pos (mem_node (hS i j hi).1), if_pos (mem_node (hS i j hi).2), h.np, lorentz_cell hs h hdt hp hE _ hi]
  · simp only [Tensor.setv_val]
    rw [if_pos (mem_node (hS i j hi).1), if_pos (mem_node (hS i j hi).2), h.np, lorentz_cell hs h hdt hp hE _ hi, one_mul]
end

omit hs in
theorem mapUpdateJ_view {α : Type} (R : α → α → Prop) (S : ℤ → ℤ → Prop) {n m n' m' : ℤ} (u w : α → Tensor ℝ → M (α × Tensor ℝ))
    (h : ∀ P Q E F, R P Q → E.Dim n m → F.Dim n' m' → v.On S 1 E F → ∃ P' Q' E' F', u P E = .ok (P', E') ∧ w Q F = .ok (Q', F') ∧
      R P' Q' ∧ E'.Dim n m ∧ F'.Dim n' m' ∧ v.On S 1 E' F') :
    ∀ (l l' : List (String × α)), List.Forall₂ (fun p q => p.1 = q.1 ∧ R p.2 q.2) l l' → ∀ E F : Tensor ℝ, E.Dim n m → F.Dim n' m' →
      v.On S 1 E F → ∃ k k' E' F', mapUpdateJ u l E = .ok (k, E') ∧ mapUpdateJ w l' F = .ok (k', F') ∧
        List.Forall₂ (fun p q => p.1 = q.1 ∧ R p.2 q.2) k k' ∧ E'.Dim n m ∧ F'.Dim n' m' ∧ v.On S 1 E' F'
  | _, _, .nil, E, F, dE, dF, a => ⟨[], [], E, F, rfl, rfl, .nil, dE, dF, a⟩
  | (s, P) :: l, (s', Q) :: l', .cons hh ht, E, F, dE, dF, a => by
    obtain ⟨P', Q', E1, F1, h1, h2, h3, h4, h5, h6⟩ := h P Q E F hh.2 dE dF a
    obtain ⟨k, k', E2, F2, g1, g2, g3, g4, g5, g6⟩ := mapUpdateJ_view R S u w h l l' ht E1 F1 h4 h5 h6
    refine ⟨(s, P') :: k, (s', Q') :: k', E2, F2, ?_, ?_, .cons ⟨hh.1, h3⟩ g3, g4, g5, g6⟩
    · unfold mapUpdateJ; rw [h1]; simp only [Except.ok_bind]; rw [g1]; rfl
    · unfold mapUpdateJ; rw [h2]; simp only [Except.ok_bind]; rw [g2]; rfl

omit hs in
/-- Shapes of the entries of both lists. -/
theorem forall2_wf {α : Type} {R : α → α → Prop} {W W' : α → Prop} {l l' : List (String × α)}
    (h : List.Forall₂ (fun p q => p.1 = q.1 ∧ R p.2 q.2) l l') (hW : ∀ p ∈ l, W p.2) (hW' : ∀ p ∈ l', W' p.2) :
    List.Forall₂ (fun p q => p.1 = q.1 ∧ (R p.2 q.2 ∧ W p.2 ∧ W' q.2)) l l' := by
  induction h with
  | nil => exact .nil
  | cons hp _ ih => exact .cons ⟨hp.1, hp.2, hW _ (by simp), hW' _ (by simp)⟩ (ih (fun p h => hW p (by simp [h])) fun p h => hW' p (by simp [h]))

/-! ## incident wave -/

omit hs in
theorem Tf.pulse {w u : Tfsf ℝ} (h : v.Tf w u) (hw : w.Shape) (hu : u.Shape) {w' u' : Tfsf ℝ} (h1 : w.pulse = .ok w') (h2 : u.pulse = .ok u') :
    v.Tf w' u' := by
  obtain ⟨tp, fo, a1, a2, -⟩ := Tfsf.pulse_closed hw
  obtain ⟨tp', fo', b1, b2, -⟩ := Tfsf.pulse_closed hu
  rw [a2] at h1; rw [b2] at h2
  obtain rfl := Except.ok.inj h1
  obtain rfl := Except.ok.inj h2
  have et : u.t + u.dt = v.s * (w.t + w.dt) := by rw [h.t, h.dt]; ring
  have er : u.tp.resp (u.t + u.dt) = w.tp.resp (w.t + w.dt) := by rw [et]; exact h.signal _
  have eD : u.newD = w.newD := funext fun k => by simp only [Tfsf.newD, h.Nx, h.Dz, h.Hx]
  have eL : u.loopE = w.loopE := funext fun k => by simp only [Tfsf.loopE, h.Nx, h.ca, h.Iz, h.Ez, eD]
  have eI : u.newI = w.newI := funext fun k => by simp only [Tfsf.newI, h.Nx, h.cb, h.Iz, eL]
  have eE : u.newE = w.newE := funext fun k => by simp only [Tfsf.newE, h.Nx, h.right1, h.left1, er, eL]
  have eH : u.newH = w.newH := funext fun k => by simp only [Tfsf.newH, h.Nx, h.Hx, eE]
  exact {
    ia := h.ia, ib := h.ib, ja := h.ja, jb := h.jb, Nx := h.Nx, t := et, dt := h.dt
    Ez := by simp only; rw [eE, h.Ez]
    Dz := by simp only; rw [eD, h.Dz]
    Hx := by simp only; rw [eH, h.Hx]
    Iz := by simp only; rw [eI, h.Iz]
    ca := h.ca, cb := h.cb
    left0 := er, left1 := h.left0
    right0 := by simp only; rw [eE, h.Nx]
    right1 := h.right0
    signal := by
      simp only
      rw [response_resp a1, response_resp b1]
      exact h.signal }

omit hs in
theorem TfO.pulse {w u w' u' : Option (Tfsf ℝ)} (h : v.TfO w u) (hw : ∀ x, w = some x → x.Shape) (hu : ∀ x, u = some x → x.Shape)
    (h1 : optPulse w = .ok w') (h2 : optPulse u = .ok u') : v.TfO w' u' := by
  cases w with
  | none => cases u with
    | none => cases h1; cases h2; trivial
    | some u => exact h.elim
  | some w => cases u with
    | none => exact h.elim
    | some u =>
      simp only [optPulse, Except.bind_ok] at h1 h2
      obtain ⟨x, a, h1⟩ := h1
      obtain ⟨y, b, h2⟩ := h2
      cases h1; cases h2
      exact Tf.pulse h (hw w rfl) (hu u rfl) a b

omit hs in
theorem TfO.addEz {w u : Option (Tfsf ℝ)} (h : v.TfO w u) (i j : ℤ) : tfEz u (i + v.a) (j + v.b) = tfEz w i j := by
  cases w <;> cases u
  · rfl
  · exact h.elim
  · exact h.elim
  · rename_i w u
    have h : v.Tf w u := h
    simp only [tfEz, Tfsf.addEz, h.ia, h.ib, h.ja, h.jb, h.Hx, h.Nx, add_le_add_iff_right, add_left_inj]

omit hs in
theorem TfO.addHx {w u : Option (Tfsf ℝ)} (h : v.TfO w u) (i j : ℤ) : tfHx u (i + v.a) (j + v.b) = tfHx w i j := by
  cases w <;> cases u
  · rfl
  · exact h.elim
  · exact h.elim
  · rename_i w u
    have h : v.Tf w u := h
    have e : j + v.b = w.ja + v.b - 1 ↔ j = w.ja - 1 := by omega
    simp only [tfHx, Tfsf.addHx, h.ia, h.ib, h.ja, h.jb, h.Ez, h.Nx, add_le_add_iff_right, add_left_inj, e]

omit hs in
theorem TfO.addHy {w u : Option (Tfsf ℝ)} (h : v.TfO w u) (i j : ℤ) : tfHy u (i + v.a) (j + v.b) = tfHy w i j := by
  cases w <;> cases u
  · rfl
  · exact h.elim
  · exact h.elim
  · rename_i w u
    have h : v.Tf w u := h
    have e : i + v.a = w.ia + v.a - 1 ↔ i = w.ia - 1 := by omega
    have e2 : j + v.b - (w.ja + v.b) + 3 = j - w.ja + 3 := by omega
    simp only [tfHy, Tfsf.addHy, h.ia, h.ib, h.ja, h.jb, h.Ez, h.Nx, add_le_add_iff_right, add_left_inj, e, e2]

/-! ## sources -/

omit hs in
theorem totalContrib_view {g g' : Grid ℝ} {l l' : List (Source ℝ)} (h : List.Forall₂ (v.SameSource g g') l l') (t : ℝ) (C : Fields) (i j : ℤ) :
    totalContrib g' (v.s * t) l' C ⟨i + v.a, j + v.b⟩ = totalContrib g t l C ⟨i, j⟩ := by
  induction h with
  | nil => simp [totalContrib]
  | @cons k k' _ _ h1 _ ih =>
    simp only [totalContrib, List.map_cons, List.sum_cons] at ih ⊢
    rw [ih, h1.signal]
    congr 1
    unfold contrib
    by_cases hd : Drives g k C ⟨i, j⟩
    · rw [if_pos hd, if_pos ((h1.drives C i j).mpr hd)]
    · rw [if_neg hd, if_neg (fun x => hd ((h1.drives C i j).mp x))]

omit hs in
theorem sameSource_keep {g g' : Grid ℝ} {l l' : List (Source ℝ)} (h : List.Forall₂ (v.SameSource g g') l l') :
    ∀ {k k' : List (Source ℝ)}, List.Forall₂ SameSrc l k → List.Forall₂ SameSrc l' k' → List.Forall₂ (v.SameSource g g') k k' := by
  induction h with
  | nil => intro k k' h1 h2; cases h1; cases h2; exact .nil
  | cons h1 _ ih =>
    intro k k' h2 h3
    cases h2 with | cons a b =>
    cases h3 with | cons c d =>
    refine .cons ⟨fun C i j => ?_, ?_⟩ (ih b d)
    · have := h1.drives C i j
      unfold Drives at this ⊢
      rw [a.1, c.1]; exact this
    · rw [a.2.2, c.2.2]; exact h1.signal

/-! ## one step -/

omit hs in
theorem mem_upd {g : Grid ℝ} {i j : ℤ} : (i, j) ∈ rect 1 (g.Nx - 1) 1 (g.Ny - 1) ↔ Upd g i j := by
  rw [mem_rect]; simp only [Upd, and_assoc]

theorem Sees.E1 {SE SH SE' SH' : ℤ → ℤ → Prop} {c d : Core ℝ} (hc : c.Std) (hd : d.Std) (h : v.Sees SE SH c d)
    (k : v.Shrinks c.g d.g SE SH SE' SH') : v.On SE' 1 c.E1 d.E1 := by
  intro i j hi
  have e1 := c.pml.corrE_free hc.wf.pml.nx hc.wf.pml.ny hc.wf.pml.thk c.f.Hx c.f.Hy c.f.Cb (k.freeE i j hi).1
  have e2 := d.pml.corrE_free hd.wf.pml.nx hd.wf.pml.ny hd.wf.pml.thk d.f.Hx d.f.Hy d.f.Cb (k.freeE i j hi).2
  simp only [Core.E1, Tensor.setv_val, Tensor.upd_val]
  rw [e1, e2]
  have hE := h.same.Ez i j (k.keepE i j hi)
  by_cases hu : Upd c.g i j
  · rw [if_pos (mem_upd.mpr hu), if_pos (mem_upd.mpr ((k.updE i j hi).mp hu))]
    obtain ⟨n1, n2, n3⟩ := k.nearE i j hi hu
    have a1 := h.same.Hy i j n1
    have a2 := h.same.Hy (i - 1) j n2
    have a3 := h.same.Hx i (j - 1) n3
    have a4 := h.same.Hx i j n1
    rw [show i - 1 + v.a = i + v.a - 1 by ring] at a2
    rw [show j - 1 + v.b = j + v.b - 1 by ring] at a3
    simp only [ezVal]
    rw [a1, a2, a3, a4, hE, h.Ca i j (k.keepE i j hi), h.Cb i j (k.keepE i j hi), hc.sc.kedx, hc.sc.kedy, hd.sc.kedx, hd.sc.kedy, h.dx]
    have := hc.law.dx
    have : c.g.dx ≠ 0 := by linarith
    field_simp
  · rw [if_neg (fun x => hu (mem_upd.mp x)), if_neg (fun x => hu ((k.updE i j hi).mpr (mem_upd.mp x))), hE]; ring

omit hs in
theorem OnO.assign {S : ℤ → ℤ → Prop} {A B A' B' : Option (Tensor ℝ)} (h : v.OnO S 1 A B) (h' : v.OnO S 1 A' B') :
    v.OnO S 1 (assignIf A A') (assignIf B B') := by
  cases A <;> cases B
  · trivial
  · exact h.elim
  · exact h.elim
  · exact h'

/-- One step keeps the two programs together. -/
theorem Sees.update {SE SH SE' SH' : ℤ → ℤ → Prop} {c d : Core ℝ} (hc : c.Std) (hd : d.Std) (h : v.Sees SE SH c d)
    (k : v.Shrinks c.g d.g SE SH SE' SH') {l l' : List (Source ℝ)} (hl : List.Forall₂ (v.SameSource c.g d.g) l l') (hf : ∀ s ∈ l, Fits c.g s)
    (hf' : ∀ s ∈ l', Fits d.g s) :
    ∃ c' d' m m', c.update l = .ok (c', m) ∧ d.update l' = .ok (d', m') ∧ c'.Std ∧ d'.Std ∧ v.Sees SE' SH' c' d' ∧
      c'.g = c.g ∧ d'.g = d.g ∧ List.Forall₂ (v.SameSource c'.g d'.g) m m' ∧ (∀ s ∈ m, Fits c'.g s) ∧ (∀ s ∈ m', Fits d'.g s) := by
  obtain ⟨c', m, E2, E3, E4, f, hu, S⟩ := Core.update_step hc l hf
  obtain ⟨d', m', F2, F3, F4, f', hw, R⟩ := Core.update_step hd l' hf'
  have hdt : d.g.dt = v.s * c.g.dt := by rw [hd.law.dt, hc.law.dt, h.dx]; ring
  have ht : d.t + d.g.dt = v.s * (c.t + c.g.dt) := by rw [h.same.t, hdt]; ring
  have oE : v.On SE' 1 c.f.Ez d.f.Ez := h.same.Ez.mono k.keepE
  -- currents
  obtain ⟨k1, k1', G, G', q1, q2, q3, q4, q5, q6⟩ := mapUpdateJ_view (v := v) (fun P Q => v.Deb SE' P Q ∧ P.WF c.g.Nx c.g.Ny ∧ Q.WF d.g.Nx d.g.Ny) SE'
    (fun P Ez => P.updateJ c.g (some c.f.Ez) Ez) (fun P Ez => P.updateJ d.g (some d.f.Ez) Ez)
    (fun P Q E F hR dE dF a => debye_updateJ hs hdt k.nodeE hR.1 hR.2.1 hR.2.2 hc.wf.f.Ez hd.wf.f.Ez dE dF oE a) c.debye d.debye
    (forall2_wf (W := fun P : DebyePol ℝ => P.WF c.g.Nx c.g.Ny) (W' := fun P : DebyePol ℝ => P.WF d.g.Nx d.g.Ny) (h.debye.imp fun p q hp => ⟨hp.1, hp.2.mono k.keepE⟩) hc.wf.debye hd.wf.debye) c.E1 d.E1 hc.wf.f.Ez hd.wf.f.Ez
    (h.E1 hs hc hd k)
  obtain ⟨rfl, rfl⟩ := Prod.mk.inj (Except.ok.inj (q1.symm.trans S.hd))
  obtain ⟨rfl, rfl⟩ := Prod.mk.inj (Except.ok.inj (q2.symm.trans R.hd))
  obtain ⟨k2, k2', G2, G2', r1, r2, r3, r4, r5, r6⟩ := mapUpdateJ_view (v := v) (fun P Q => v.Dru SE' P Q ∧ P.WF c.g.Nx c.g.Ny ∧ Q.WF d.g.Nx d.g.Ny) SE'
    (fun P Ez => P.updateJ c.g (some c.f.Ez) Ez) (fun P Ez => P.updateJ d.g (some d.f.Ez) Ez)
    (fun P Q E F hR dE dF a => drude_updateJ hs hdt k.nodeE hR.1 hR.2.1 hR.2.2 hc.wf.f.Ez hd.wf.f.Ez dE dF oE a) c.drude d.drude
    (forall2_wf (W := fun P : DrudePol ℝ => P.WF c.g.Nx c.g.Ny) (W' := fun P : DrudePol ℝ => P.WF d.g.Nx d.g.Ny) (h.drude.imp fun p q hp => ⟨hp.1, hp.2.mono k.keepE⟩) hc.wf.drude hd.wf.drude) G G' q4 q5 q6
  obtain ⟨rfl, rfl⟩ := Prod.mk.inj (Except.ok.inj (r1.symm.trans S.hr))
  obtain ⟨rfl, rfl⟩ := Prod.mk.inj (Except.ok.inj (r2.symm.trans R.hr))
  have L : List.Forall₂ (fun p q => p.1 = q.1 ∧ v.Lor SE' p.2 q.2) c'.lorentz d'.lorentz ∧ v.On SE' 1 E4 F4 := by
    by_cases hn : c.lorentz = []
    · have hn' : d.lorentz = [] := by
        have := h.lorentz
        rw [hn] at this
        exact List.forall₂_nil_left_iff.mp this
      have a := S.hl
      have b := R.hl
      rw [hn] at a; rw [hn'] at b
      obtain ⟨a1, rfl⟩ := Prod.mk.inj (Except.ok.inj a)
      obtain ⟨b1, rfl⟩ := Prod.mk.inj (Except.ok.inj b)
      rw [← a1, ← b1]
      exact ⟨.nil, r6⟩
    · obtain ⟨pE, hpE⟩ := Option.isSome_iff_exists.mp (hc.wf.hasE (Or.inr (Or.inr hn)))
      have hP := h.prevE
      rw [hpE] at hP
      cases hpF : d.prevE with
      | none => rw [hpF] at hP; exact hP.elim
      | some pF =>
        rw [hpF] at hP
        have hP : v.On SE 1 pE pF := hP
        have a := S.hl
        have b := R.hl
        rw [hpE] at a; rw [hpF] at b
        obtain ⟨k3, k3', G3, G3', t1, t2, t3, t4, t5, t6⟩ := mapUpdateJ_view (v := v)
          (fun P Q => v.Lor SE' P Q ∧ P.WF c.g.Nx c.g.Ny ∧ Q.WF d.g.Nx d.g.Ny) SE'
          (fun P Ez => P.updateJ c.g (some pE) Ez) (fun P Ez => P.updateJ d.g (some pF) Ez)
          (fun P Q E F hR dE dF a => lorentz_updateJ hs hdt k.nodeE hR.1 hR.2.1 hR.2.2 (hc.wf.prevE pE hpE) (hd.wf.prevE pF hpF) dE dF
            (hP.mono k.keepE) a) c.lorentz d.lorentz
          (forall2_wf (W := fun P : LorentzPol ℝ => P.WF c.g.Nx c.g.Ny) (W' := fun P : LorentzPol ℝ => P.WF d.g.Nx d.g.Ny) (h.lorentz.imp fun p q hp => ⟨hp.1, hp.2.mono k.keepE⟩) hc.wf.lorentz hd.wf.lorentz) G2 G2' r4 r5 r6
        obtain ⟨rfl, rfl⟩ := Prod.mk.inj (Except.ok.inj (t1.symm.trans a))
        obtain ⟨rfl, rfl⟩ := Prod.mk.inj (Except.ok.inj (t2.symm.trans b))
        exact ⟨t3.imp fun p q hp => ⟨hp.1, hp.2.1⟩, t6⟩
  obtain ⟨L1, L2⟩ := L
  -- fields after the sources
  have gE : v.On SE' 1 f.Ez f'.Ez := fun i j hi => by
    rw [R.fE, S.fE, L2 i j hi, h.tfsf.addEz, ht, totalContrib_view hl]; ring
  have gX : ∀ i j, SH i j → f'.Hx.val (i + v.a) (j + v.b) = f.Hx.val i j := fun i j hi => by
    rw [R.fX, S.fX, h.same.Hx i j hi, ht, totalContrib_view hl]; ring
  have gY : ∀ i j, SH i j → f'.Hy.val (i + v.a) (j + v.b) = f.Hy.val i j := fun i j hi => by
    rw [R.fY, S.fY, h.same.Hy i j hi, ht, totalContrib_view hl]; ring
  have tf : v.TfO c'.tfsf d'.tfsf := h.tfsf.pulse (fun x hx => (hc.wf.tfsf x hx).1) (fun x hx => (hd.wf.tfsf x hx).1) S.tf R.tf
  obtain ⟨s1, s2, s3, s4⟩ := S.coef
  obtain ⟨t1, t2, t3, t4⟩ := R.coef
  obtain ⟨u1, u2, u3, u4⟩ := S.coef'
  obtain ⟨w1, w2, w3, w4⟩ := R.coef'
  have dx0 : c.g.dx ≠ 0 := by have := hc.law.dx; linarith
  have wP := hc.wf.pml
  have wP' := hd.wf.pml
  refine ⟨c', d', m, m', hu, hw, S.std, R.std, ?_, S.g, R.g, ?_, S.fits, R.fits⟩
  · exact {
      dx := by rw [S.g, R.g]; exact h.dx
      same := {
        tStep := by rw [R.tStep, S.tStep, h.same.tStep]
        t := by rw [R.t, S.t, ht]
        Ez := by rw [R.eE, S.eE]; exact gE
        Hx := fun i j hi => by
          have e1 := (c.pml.afterE c.f.Hx c.f.Hy).corrHx_free (g := c.g) wP.nx wP.ny wP.thk f.Ez f.Db (k.freeH i j hi).1
          have e2 := (d.pml.afterE d.f.Hx d.f.Hy).corrHx_free (g := d.g) wP'.nx wP'.ny wP'.thk f'.Ez f'.Db (k.freeH i j hi).2
          rw [R.eX, S.eX, e1, e2, tf.addHx]
          simp only [Tensor.upd_val]
          have hH := gX i j (k.keepH i j hi)
          by_cases hu : Upd c.g i j
          · rw [if_pos (mem_upd.mpr hu), if_pos (mem_upd.mpr ((k.updH i j hi).mp hu))]
            obtain ⟨n1, n2, n3⟩ := k.nearH i j hi hu
            have a1 := gE i j n1
            have a2 := gE i (j + 1) n3
            rw [show j + 1 + v.b = j + v.b + 1 by ring] at a2
            simp only [hxVal]
            rw [a1, a2, hH, t3, t4, s3, s4, h.Da i j (k.keepH i j hi), h.Db i j (k.keepH i j hi), hc.sc.khdy, hd.sc.khdy, h.dx]
            field_simp
          · rw [if_neg (fun x => hu (mem_upd.mp x)), if_neg (fun x => hu ((k.updH i j hi).mpr (mem_upd.mp x))), hH]; ring
        Hy := fun i j hi => by
          have e1 := (c.pml.afterE c.f.Hx c.f.Hy).corrHy_free (g := c.g) wP.nx wP.ny wP.thk f.Ez f.Db (k.freeH i j hi).1
          have e2 := (d.pml.afterE d.f.Hx d.f.Hy).corrHy_free (g := d.g) wP'.nx wP'.ny wP'.thk f'.Ez f'.Db (k.freeH i j hi).2
          rw [R.eY, S.eY, e1, e2, tf.addHy]
          simp only [Tensor.upd_val]
          have hH := gY i j (k.keepH i j hi)
          by_cases hu : Upd c.g i j
          · rw [if_pos (mem_upd.mpr hu), if_pos (mem_upd.mpr ((k.updH i j hi).mp hu))]
            obtain ⟨n1, n2, n3⟩ := k.nearH i j hi hu
            have a1 := gE i j n1
            have a2 := gE (i + 1) j n2
            rw [show i + 1 + v.a = i + v.a + 1 by ring] at a2
            simp only [hyVal]
            rw [a1, a2, hH, t3, t4, s3, s4, h.Da i j (k.keepH i j hi), h.Db i j (k.keepH i j hi), hc.sc.khdx, hd.sc.khdx, h.dx]
            field_simp
          · rw [if_neg (fun x => hu (mem_upd.mp x)), if_neg (fun x => hu ((k.updH i j hi).mpr (mem_upd.mp x))), hH]; ring }
      Ca := by rw [u1, w1]; exact h.Ca.mono k.keepE
      Cb := by rw [u2, w2]; exact h.Cb.mono k.keepE
      Da := by rw [u3, w3]; exact h.Da.mono k.keepH
      Db := by rw [u4, w4]; exact h.Db.mono k.keepH
      prevE := by rw [S.prevE, R.prevE]; exact (h.prevE.mono k.keepE).assign oE
      prev2E := by rw [S.prev2E, R.prev2E]; exact (h.prev2E.mono k.keepE).assign (h.prevE.mono k.keepE)
      debye := q3.imp fun p q hp => ⟨hp.1, hp.2.1⟩
      drude := r3.imp fun p q hp => ⟨hp.1, hp.2.1⟩
      lorentz := L1
      tfsf := tf }
  · rw [S.g, R.g]; exact sameSource_keep hl S.same R.same

/-- Any number of steps. -/
theorem Sees.run (SE SH : ℕ → ℤ → ℤ → Prop) (n : ℕ) : ∀ (r : ℕ) {c d : Core ℝ} {l l' : List (Source ℝ)}, c.Std → d.Std →
    (∀ r, v.Shrinks c.g d.g (SE r) (SH r) (SE (r + 1)) (SH (r + 1))) → v.Sees (SE r) (SH r) c d →
    List.Forall₂ (v.SameSource c.g d.g) l l' → (∀ s ∈ l, Fits c.g s) → (∀ s ∈ l', Fits d.g s) →
    ∃ c' d' m m', c.run n l = .ok (c', m) ∧ d.run n l' = .ok (d', m') ∧ v.Sees (SE (r + n)) (SH (r + n)) c' d' := by
  induction n with
  | zero => intro r c d l l' _ _ _ h _ _ _; exact ⟨c, d, l, l', rfl, rfl, h⟩
  | succ n ih =>
    intro r c d l l' hc hd hk h hl hf hf'
    obtain ⟨c1, d1, m, m', a1, a2, a3, a4, a5, a6, a7, a8, a9, a10⟩ := h.update hs hc hd (hk r) hl hf hf'
    obtain ⟨c2, d2, p, p', b1, b2, b3⟩ := ih (r + 1) a3 a4 (by rw [a6, a7]; exact hk) a5 a8 a9 a10
    refine ⟨c2, d2, p, p', ?_, ?_, ?_⟩
    · rw [Core.run, a1]; exact b1
    · rw [Core.run, a2]; exact b2
    · rw [show r + (n + 1) = r + 1 + n by ring]; exact b3

end Spec.View
end Qbox
