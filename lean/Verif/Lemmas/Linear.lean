import Verif.Lemmas.Node
import Verif.Spec.LinearSpec

/-! # Every stage of a step is linear -/

namespace Qbox
open Scalar Spec Props

set_option linter.unusedSectionVars false
set_option linter.unusedSimpArgs false

variable {a b : ℝ}

/-! ## polarizations -/

theorem debye_cell_lin (dt Cb : ℝ) (kap bet : ℤ → ℝ) (p1 p2 E1 E2 : ℝ) (J1 J2 : ℤ → ℝ) (n : ℕ) :
    (cellIter (debyeStep dt Cb kap bet (a * p1 + b * p2)) n (a * E1 + b * E2, fun N => a * J1 N + b * J2 N)).1
      = a * (cellIter (debyeStep dt Cb kap bet p1) n (E1, J1)).1 + b * (cellIter (debyeStep dt Cb kap bet p2) n (E2, J2)).1 ∧
    ∀ N, (cellIter (debyeStep dt Cb kap bet (a * p1 + b * p2)) n (a * E1 + b * E2, fun N => a * J1 N + b * J2 N)).2 N
      = a * (cellIter (debyeStep dt Cb kap bet p1) n (E1, J1)).2 N + b * (cellIter (debyeStep dt Cb kap bet p2) n (E2, J2)).2 N := by
  induction n with
  | zero => exact ⟨rfl, fun N => rfl⟩
  | succ n ih =>
    obtain ⟨h1, h2⟩ := ih
    simp only [cellIter_succ, debyeStep, h1, h2]
    refine ⟨by ring, fun N => ?_⟩
    split_ifs
    · ring
    · rfl

theorem drude_cell_lin (Cb : ℝ) (kap bet : ℤ → ℝ) (p1 p2 E1 E2 : ℝ) (J1 J2 : ℤ → ℝ) (n : ℕ) :
    (cellIter (drudeStep Cb kap bet (a * p1 + b * p2)) n (a * E1 + b * E2, fun N => a * J1 N + b * J2 N)).1
      = a * (cellIter (drudeStep Cb kap bet p1) n (E1, J1)).1 + b * (cellIter (drudeStep Cb kap bet p2) n (E2, J2)).1 ∧
    ∀ N, (cellIter (drudeStep Cb kap bet (a * p1 + b * p2)) n (a * E1 + b * E2, fun N => a * J1 N + b * J2 N)).2 N
      = a * (cellIter (drudeStep Cb kap bet p1) n (E1, J1)).2 N + b * (cellIter (drudeStep Cb kap bet p2) n (E2, J2)).2 N := by
  induction n with
  | zero => exact ⟨rfl, fun N => rfl⟩
  | succ n ih =>
    obtain ⟨h1, h2⟩ := ih
    simp only [cellIter_succ, drudeStep, h1, h2]
    refine ⟨by ring, fun N => ?_⟩
    split_ifs
    · ring
    · rfl

theorem lorentz_cell_lin (dt Cb CaP : ℝ) (alp bet del : ℤ → ℝ) (p1 p2 E1 E2 : ℝ) (J1 J2 J3 : ℤ → ℝ × ℝ)
    (hJ : ∀ N, (J3 N).1 = a * (J1 N).1 + b * (J2 N).1 ∧ (J3 N).2 = a * (J1 N).2 + b * (J2 N).2) (n : ℕ) :
    (cellIter (lorentzStep dt Cb CaP alp bet del (a * p1 + b * p2)) n (a * E1 + b * E2, J3)).1
      = a * (cellIter (lorentzStep dt Cb CaP alp bet del p1) n (E1, J1)).1
        + b * (cellIter (lorentzStep dt Cb CaP alp bet del p2) n (E2, J2)).1 ∧
    ∀ N, ((cellIter (lorentzStep dt Cb CaP alp bet del (a * p1 + b * p2)) n (a * E1 + b * E2, J3)).2 N).1
      = a * ((cellIter (lorentzStep dt Cb CaP alp bet del p1) n (E1, J1)).2 N).1
        + b * ((cellIter (lorentzStep dt Cb CaP alp bet del p2) n (E2, J2)).2 N).1 ∧
      ((cellIter (lorentzStep dt Cb CaP alp bet del (a * p1 + b * p2)) n (a * E1 + b * E2, J3)).2 N).2
      = a * ((cellIter (lorentzStep dt Cb CaP alp bet del p1) n (E1, J1)).2 N).2
        + b * ((cellIter (lorentzStep dt Cb CaP alp bet del p2) n (E2, J2)).2 N).2 := by
  induction n with
  | zero => exact ⟨rfl, fun N => hJ N⟩
  | succ n ih =>
    obtain ⟨h1, h2⟩ := ih
    simp only [cellIter_succ, lorentzStep, h1, (h2 _).1, (h2 _).2]
    refine ⟨by ring, fun N => ?_⟩
    split_ifs
    · exact ⟨by simp only []; ring, rfl⟩
    · exact h2 N

/-- One entry, three simulations. -/
theorem debye_upd_combo {g : Grid ℝ} {p1 p2 p3 E1 E2 E3 : Tensor ℝ} (hp1 : p1.Dim g.Nx g.Ny) (hp2 : p2.Dim g.Nx g.Ny)
    (hp3 : p3.Dim g.Nx g.Ny) (hp : TCombo a b p1 p2 p3) (d1 : E1.Dim g.Nx g.Ny) (d2 : E2.Dim g.Nx g.Ny)
    (d3 : E3.Dim g.Nx g.Ny) (hE : TCombo a b E1 E2 E3) {n1 n2 n3 : String} {P1 P2 P3 : DebyePol ℝ} (w1 : P1.WF g.Nx g.Ny)
    (w2 : P2.WF g.Nx g.Ny) (w3 : P3.WF g.Nx g.Ny) (hP : DebyeCombo a b (n1, P1) (n2, P2) (n3, P3)) :
    ∃ P1' E1' P2' E2' P3' E3', P1.updateJ g (some p1) E1 = .ok (P1', E1') ∧ P2.updateJ g (some p2) E2 = .ok (P2', E2') ∧
      P3.updateJ g (some p3) E3 = .ok (P3', E3') ∧ E1'.Dim g.Nx g.Ny ∧ E2'.Dim g.Nx g.Ny ∧ E3'.Dim g.Nx g.Ny ∧
      TCombo a b E1' E2' E3' ∧ DebyeCombo a b (n1, P1') (n2, P2') (n3, P3') := by
  obtain ⟨⟨k1, k2, k3⟩, ⟨k4, k5, k6⟩, hJ⟩ := hP
  simp only at k1 k2 k3 k4 k5 k6 hJ
  have m2 : P2.np = P1.np := by rw [w2.np, w1.np, k2]
  have m3 : P3.np = P1.np := by rw [w3.np, w1.np, k5]
  refine ⟨_, _, _, _, _, _, DebyePol.updateJ_closed w1 hp1 d1, DebyePol.updateJ_closed w2 hp2 d2,
    DebyePol.updateJ_closed w3 hp3 d3, d1, d2, d3, ?_, ⟨k1, k2, k3⟩, ⟨k4, k5, k6⟩, ?_⟩
  · intro x y
    simp only [Tensor.setv_val]
    split_ifs
    · have := (debye_cell_lin (a := a) (b := b) g.dt (P1.mat.Cb g.dt) (Arr.ofList (P1.mat.poles.map (·.kappa g.dt))).val (P1.beta.val x y)
        (p1.val x y) (p2.val x y) (E1.val x y) (E2.val x y) (P1.J.val x y) (P2.J.val x y) P1.np.toNat).1
      simp only [DebyePol.cell, m2, m3, k2, k5, k3, k6, hp x y, hE x y]
      rw [← this, show P3.J.val x y = fun N => a * P1.J.val x y N + b * P2.J.val x y N from funext fun N => hJ x y N]
    · exact hE x y
  · intro x y N
    simp only [Tensor3.setv_val]
    split_ifs
    · have := (debye_cell_lin (a := a) (b := b) g.dt (P1.mat.Cb g.dt) (Arr.ofList (P1.mat.poles.map (·.kappa g.dt))).val (P1.beta.val x y)
        (p1.val x y) (p2.val x y) (E1.val x y) (E2.val x y) (P1.J.val x y) (P2.J.val x y) P1.np.toNat).2 N
      simp only [DebyePol.cell, m2, m3, k2, k5, k3, k6, hp x y, hE x y]
      rw [← this, show P3.J.val x y = fun N => a * P1.J.val x y N + b * P2.J.val x y N from funext fun N => hJ x y N]
    · exact hJ x y N

theorem drude_upd_combo {g : Grid ℝ} {p1 p2 p3 E1 E2 E3 : Tensor ℝ} (hp1 : p1.Dim g.Nx g.Ny) (hp2 : p2.Dim g.Nx g.Ny)
    (hp3 : p3.Dim g.Nx g.Ny) (hp : TCombo a b p1 p2 p3) (d1 : E1.Dim g.Nx g.Ny) (d2 : E2.Dim g.Nx g.Ny)
    (d3 : E3.Dim g.Nx g.Ny) (hE : TCombo a b E1 E2 E3) {n1 n2 n3 : String} {P1 P2 P3 : DrudePol ℝ} (w1 : P1.WF g.Nx g.Ny)
    (w2 : P2.WF g.Nx g.Ny) (w3 : P3.WF g.Nx g.Ny) (hP : DrudeCombo a b (n1, P1) (n2, P2) (n3, P3)) :
    ∃ P1' E1' P2' E2' P3' E3', P1.updateJ g (some p1) E1 = .ok (P1', E1') ∧ P2.updateJ g (some p2) E2 = .ok (P2', E2') ∧
      P3.updateJ g (some p3) E3 = .ok (P3', E3') ∧ E1'.Dim g.Nx g.Ny ∧ E2'.Dim g.Nx g.Ny ∧ E3'.Dim g.Nx g.Ny ∧
      TCombo a b E1' E2' E3' ∧ DrudeCombo a b (n1, P1') (n2, P2') (n3, P3') := by
  obtain ⟨⟨k1, k2, k3⟩, ⟨k4, k5, k6⟩, hJ⟩ := hP
  simp only at k1 k2 k3 k4 k5 k6 hJ
  have m2 : P2.np = P1.np := by rw [w2.np, w1.np, k2]
  have m3 : P3.np = P1.np := by rw [w3.np, w1.np, k5]
  refine ⟨_, _, _, _, _, _, DrudePol.updateJ_closed w1 hp1 d1, DrudePol.updateJ_closed w2 hp2 d2,
    DrudePol.updateJ_closed w3 hp3 d3, d1, d2, d3, ?_, ⟨k1, k2, k3⟩, ⟨k4, k5, k6⟩, ?_⟩
  · intro x y
    simp only [Tensor.setv_val]
    split_ifs
    · have := (drude_cell_lin (a := a) (b := b) (P1.mat.Cb g.dt) (Arr.ofList (P1.mat.poles.map (·.kappa g.dt))).val (P1.beta.val x y)
        (p1.val x y) (p2.val x y) (E1.val x y) (E2.val x y) (P1.J.val x y) (P2.J.val x y) P1.np.toNat).1
      simp only [DrudePol.cell, m2, m3, k2, k5, k3, k6, hp x y, hE x y]
      rw [← this, show P3.J.val x y = fun N => a * P1.J.val x y N + b * P2.J.val x y N from funext fun N => hJ x y N]
    · exact hE x y
  · intro x y N
    simp only [Tensor3.setv_val]
    split_ifs
    · have := (drude_cell_lin (a := a) (b := b) (P1.mat.Cb g.dt) (Arr.ofList (P1.mat.poles.map (·.kappa g.dt))).val (P1.beta.val x y)
        (p1.val x y) (p2.val x y) (E1.val x y) (E2.val x y) (P1.J.val x y) (P2.J.val x y) P1.np.toNat).2 N
      simp only [DrudePol.cell, m2, m3, k2, k5, k3, k6, hp x y, hE x y]
      rw [← this, show P3.J.val x y = fun N => a * P1.J.val x y N + b * P2.J.val x y N from funext fun N => hJ x y N]
    · exact hJ x y N

theorem lorentz_upd_combo {g : Grid ℝ} {p1 p2 p3 E1 E2 E3 : Tensor ℝ} (hp1 : p1.Dim g.Nx g.Ny) (hp2 : p2.Dim g.Nx g.Ny)
    (hp3 : p3.Dim g.Nx g.Ny) (hp : TCombo a b p1 p2 p3) (d1 : E1.Dim g.Nx g.Ny) (d2 : E2.Dim g.Nx g.Ny)
    (d3 : E3.Dim g.Nx g.Ny) (hE : TCombo a b E1 E2 E3) {n1 n2 n3 : String} {P1 P2 P3 : LorentzPol ℝ} (w1 : P1.WF g.Nx g.Ny)
    (w2 : P2.WF g.Nx g.Ny) (w3 : P3.WF g.Nx g.Ny) (hP : LorentzCombo a b (n1, P1) (n2, P2) (n3, P3)) :
    ∃ P1' E1' P2' E2' P3' E3', P1.updateJ g (some p1) E1 = .ok (P1', E1') ∧ P2.updateJ g (some p2) E2 = .ok (P2', E2') ∧
      P3.updateJ g (some p3) E3 = .ok (P3', E3') ∧ E1'.Dim g.Nx g.Ny ∧ E2'.Dim g.Nx g.Ny ∧ E3'.Dim g.Nx g.Ny ∧
      TCombo a b E1' E2' E3' ∧ LorentzCombo a b (n1, P1') (n2, P2') (n3, P3') := by
  obtain ⟨⟨k1, k2, k3⟩, ⟨k4, k5, k6⟩, hJ, hJp⟩ := hP
  simp only at k1 k2 k3 k4 k5 k6 hJ hJp
  have m2 : P2.np = P1.np := by rw [w2.np, w1.np, k2]
  have m3 : P3.np = P1.np := by rw [w3.np, w1.np, k5]
  have key := fun x y => lorentz_cell_lin (a := a) (b := b) g.dt (P1.mat.Cb g.dt) (P1.mat.CaPrev g.dt)
    (Arr.ofList (P1.mat.poles.map (·.alpha g.dt))).val (Arr.ofList (P1.mat.poles.map (·.beta g.dt))).val (P1.delta.val x y)
        (p1.val x y) (p2.val x y) (E1.val x y) (E2.val x y) (fun N => (P1.J.val x y N, P1.prevJ.val x y N))
        (fun N => (P2.J.val x y N, P2.prevJ.val x y N)) (fun N => (P3.J.val x y N, P3.prevJ.val x y N))
        (fun N => ⟨hJ x y N, hJp x y N⟩) P1.np.toNat
  refine ⟨_, _, _, _, _, _, LorentzPol.updateJ_closed w1 hp1 d1, LorentzPol.updateJ_closed w2 hp2 d2,
    LorentzPol.updateJ_closed w3 hp3 d3, d1, d2, d3, ?_, ⟨k1, k2, k3⟩, ⟨k4, k5, k6⟩, ?_, ?_⟩
  · intro x y
    simp only [Tensor.setv_val]
    split_ifs
    · simp only [LorentzPol.cell, m2, m3, k2, k5, k3, k6, hp x y, hE x y]
      exact (key x y).1
    · exact hE x y
  · intro x y N
    simp only [Tensor3.setv_val]
    split_ifs
    · simp only [LorentzPol.cell, m2, m3, k2, k5, k3, k6, hp x y, hE x y]
      exact ((key x y).2 N).1
    · exact hJ x y N
  · intro x y N
    simp only [Tensor3.setv_val]
    split_ifs
    · simp only [LorentzPol.cell, m2, m3, k2, k5, k3, k6, hp x y, hE x y]
      exact ((key x y).2 N).2
    · exact hJp x y N

/-- Three maps. -/
theorem mapUpdateJ_combo {α : Type} {Nx Ny : ℤ} (W : α → Prop) (R : String × α → String × α → String × α → Prop)
    (u1 u2 u3 : α → Tensor ℝ → M (α × Tensor ℝ))
    (hu : ∀ n1 n2 n3 P1 P2 P3 E1 E2 E3, W P1 → W P2 → W P3 → R (n1, P1) (n2, P2) (n3, P3) → E1.Dim Nx Ny → E2.Dim Nx Ny →
      E3.Dim Nx Ny → TCombo a b E1 E2 E3 → ∃ P1' E1' P2' E2' P3' E3', u1 P1 E1 = .ok (P1', E1') ∧
      u2 P2 E2 = .ok (P2', E2') ∧ u3 P3 E3 = .ok (P3', E3') ∧ E1'.Dim Nx Ny ∧ E2'.Dim Nx Ny ∧ E3'.Dim Nx Ny ∧
      TCombo a b E1' E2' E3' ∧ R (n1, P1') (n2, P2') (n3, P3')) :
    ∀ {l1 l2 l3 : List (String × α)}, Forall3 R l1 l2 l3 → (∀ q ∈ l1, W q.2) → (∀ q ∈ l2, W q.2) → (∀ q ∈ l3, W q.2) →
    ∀ {E1 E2 E3 : Tensor ℝ}, E1.Dim Nx Ny → E2.Dim Nx Ny → E3.Dim Nx Ny → TCombo a b E1 E2 E3 →
    ∀ {l1' l2' l3' : List (String × α)} {E1' E2' E3' : Tensor ℝ}, mapUpdateJ u1 l1 E1 = .ok (l1', E1') →
      mapUpdateJ u2 l2 E2 = .ok (l2', E2') → mapUpdateJ u3 l3 E3 = .ok (l3', E3') →
      Forall3 R l1' l2' l3' ∧ TCombo a b E1' E2' E3' := by
  intro l1 l2 l3 hR
  induction hR with
  | nil =>
    intro _ _ _ E1 E2 E3 _ _ _ hE l1' l2' l3' E1' E2' E3' h1 h2 h3
    cases h1; cases h2; cases h3
    exact ⟨.nil, hE⟩
  | @cons x y z l m n hx hl ih =>
    intro W1 W2 W3 E1 E2 E3 d1 d2 d3 hE l1' l2' l3' E1' E2' E3' h1 h2 h3
    obtain ⟨n1, P1⟩ := x
    obtain ⟨n2, P2⟩ := y
    obtain ⟨n3, P3⟩ := z
    obtain ⟨Q1, F1, Q2, F2, Q3, F3, q1, q2, q3, e1, e2, e3, hF, hQ⟩ := hu n1 n2 n3 P1 P2 P3 E1 E2 E3 (W1 (n1, P1) (by simp))
      (W2 (n2, P2) (by simp)) (W3 (n3, P3) (by simp)) hx d1 d2 d3 hE
    unfold mapUpdateJ at h1 h2 h3
    rw [q1] at h1; rw [q2] at h2; rw [q3] at h3
    simp only [Except.ok_bind, Except.bind_ok, Except.pure_eq] at h1 h2 h3
    obtain ⟨⟨r1, G1⟩, s1, t1⟩ := h1
    obtain ⟨⟨r2, G2⟩, s2, t2⟩ := h2
    obtain ⟨⟨r3, G3⟩, s3, t3⟩ := h3
    cases t1; cases t2; cases t3
    obtain ⟨o1, o2⟩ := ih (fun q hq => W1 q (by simp [hq])) (fun q hq => W2 q (by simp [hq])) (fun q hq => W3 q (by simp [hq]))
      e1 e2 e3 hF s1 s2 s3
    exact ⟨.cons hQ o1, o2⟩

/-! ## main loops and layer -/

theorem corrE_combo {p1 p2 p3 : Pml ℝ} (hp : PmlCombo a b p1 p2 p3) {f1 f2 f3 : Flds ℝ} (hf : FldsCombo a b f1 f2 f3) (x y : ℤ) :
    p3.corrE f3.Hx f3.Hy f3.Cb x y = a * p1.corrE f1.Hx f1.Hy f1.Cb x y + b * p2.corrE f2.Hx f2.Hy f2.Cb x y := by
  obtain ⟨⟨s1, s2, s3, s4⟩, ⟨s5, s6, s7, s8⟩, h1, h2, h3, h4, h5, h6, h7, h8⟩ := hp
  obtain ⟨⟨-, c1, -, -⟩, ⟨-, c2, -, -⟩, e1, e2, e3⟩ := hf
  unfold Pml.corrE
  simp only [s1, s2, s3, s4, s5, s6, s7, s8, c1, c2]
  simp only [pEy1, pEy2, pEx1, pEx2, h1 _ _, h2 _ _, h5 _ _, h6 _ _, e2 _ _, e3 _ _]
  split_ifs <;> ring

theorem corrH_combo {p1 p2 p3 : Pml ℝ} (hp : PmlCombo a b p1 p2 p3) {f1 f2 f3 : Flds ℝ} (hf : FldsCombo a b f1 f2 f3) (x y : ℤ) :
    p3.corrHx f3.Ez f3.Db x y = a * p1.corrHx f1.Ez f1.Db x y + b * p2.corrHx f2.Ez f2.Db x y ∧
    p3.corrHy f3.Ez f3.Db x y = a * p1.corrHy f1.Ez f1.Db x y + b * p2.corrHy f2.Ez f2.Db x y := by
  obtain ⟨⟨s1, s2, s3, s4⟩, ⟨s5, s6, s7, s8⟩, h1, h2, h3, h4, h5, h6, h7, h8⟩ := hp
  obtain ⟨⟨-, -, -, c1⟩, ⟨-, -, -, c2⟩, e1, e2, e3⟩ := hf
  unfold Pml.corrHx Pml.corrHy
  simp only [s1, s2, s3, s4, s5, s6, s7, s8, c1, c2]
  simp only [pHy1, pHy2, pHx1, pHx2, h3 _ _, h4 _ _, h7 _ _, h8 _ _, e1 _ _]
  constructor <;> split_ifs <;> ring

theorem afterE_combo {p1 p2 p3 : Pml ℝ} (hp : PmlCombo a b p1 p2 p3) {f1 f2 f3 : Flds ℝ} (hf : FldsCombo a b f1 f2 f3) :
    PmlCombo a b (p1.afterE f1.Hx f1.Hy) (p2.afterE f2.Hx f2.Hy) (p3.afterE f3.Hx f3.Hy) := by
  obtain ⟨⟨s1, s2, s3, s4⟩, ⟨s5, s6, s7, s8⟩, h1, h2, h3, h4, h5, h6, h7, h8⟩ := hp
  obtain ⟨-, -, e1, e2, e3⟩ := hf
  refine ⟨⟨s1, s2, s3, s4⟩, ⟨s5, s6, s7, s8⟩, ?_, ?_, h3, h4, ?_, ?_, h7, h8⟩
  all_goals
    intro x y
    simp only [Pml.afterE, Tensor.upd_val, s1, s2, s3, s4, s5, s6, s7, s8]
    simp only [pEy1, pEy2, pEx1, pEx2, h1 _ _, h2 _ _, h5 _ _, h6 _ _, e2 _ _, e3 _ _]
    split_ifs <;> ring

theorem afterH_combo {p1 p2 p3 : Pml ℝ} (hp : PmlCombo a b p1 p2 p3) {f1 f2 f3 : Flds ℝ} (hf : FldsCombo a b f1 f2 f3) :
    PmlCombo a b (p1.afterH f1.Ez) (p2.afterH f2.Ez) (p3.afterH f3.Ez) := by
  obtain ⟨⟨s1, s2, s3, s4⟩, ⟨s5, s6, s7, s8⟩, h1, h2, h3, h4, h5, h6, h7, h8⟩ := hp
  obtain ⟨-, -, e1, e2, e3⟩ := hf
  refine ⟨⟨s1, s2, s3, s4⟩, ⟨s5, s6, s7, s8⟩, h1, h2, ?_, ?_, h5, h6, ?_, ?_⟩
  all_goals
    intro x y
    simp only [Pml.afterH, Tensor.upd_val, s1, s2, s3, s4, s5, s6, s7, s8]
    simp only [pHy1, pHy2, pHx1, pHx2, h3 _ _, h4 _ _, h7 _ _, h8 _ _, e1 _ _]
    split_ifs <;> ring

theorem E1_combo {c1 c2 c3 : Core ℝ} (h : Combo a b c1 c2 c3) : TCombo a b c1.E1 c2.E1 c3.E1 := by
  intro x y
  simp only [Core.E1, Tensor.setv_val, Tensor.upd_val]
  rw [corrE_combo h.pml h.f, h.g.1, h.g.2, h.f.Ez x y]
  obtain ⟨⟨k1, k2, -, -⟩, ⟨k3, k4, -, -⟩, e1, e2, e3⟩ := h.f
  simp only [ezVal, h.sc.1, h.sc.2, k1, k2, k3, k4, e1 _ _, e2 _ _, e3 _ _]
  split_ifs <;> ring

/-! ## sources and total-field region -/

theorem contrib_combo {g : Grid ℝ} {t : ℝ} {l1 l2 l3 : List (Source ℝ)} (h : Forall3 (SrcCombo a b) l1 l2 l3) (C : Fields)
    (p : V2 ℤ) : totalContrib g t l3 C p = a * totalContrib g t l1 C p + b * totalContrib g t l2 C p := by
  induction h with
  | nil => simp [totalContrib]
  | @cons x y z l m n hx hl ih =>
    obtain ⟨k1, k2, k3⟩ := hx
    simp only [totalContrib, List.map_cons, List.sum_cons] at ih ⊢
    rw [ih, k3 t]
    have e2 : Drives g y C p ↔ Drives g x C p := by unfold Drives; rw [k1]
    have e3 : Drives g z C p ↔ Drives g x C p := by unfold Drives; rw [k2]
    by_cases hd : Drives g x C p
    · simp only [contrib, e2.mpr hd, e3.mpr hd, hd, if_true]; ring
    · simp only [contrib, mt e2.mp hd, mt e3.mp hd, hd, if_false]; ring

theorem srcs_combo {l1 l2 l3 l1' l2' l3' : List (Source ℝ)} (h : Forall3 (SrcCombo a b) l1 l2 l3)
    (h1 : List.Forall₂ SameSrc l1 l1') (h2 : List.Forall₂ SameSrc l2 l2') (h3 : List.Forall₂ SameSrc l3 l3') :
    Forall3 (SrcCombo a b) l1' l2' l3' := by
  induction h generalizing l1' l2' l3' with
  | nil => cases h1; cases h2; cases h3; exact .nil
  | cons hx hl ih =>
    cases h1 with | cons a1 t1 =>
    cases h2 with | cons a2 t2 =>
    cases h3 with | cons a3 t3 =>
    refine .cons ?_ (ih t1 t2 t3)
    obtain ⟨k1, k2, k3⟩ := hx
    refine ⟨by rw [a2.1, a1.1]; exact k1, by rw [a3.1, a1.1]; exact k2, fun t => ?_⟩
    rw [a3.2.2, a1.2.2, a2.2.2]
    exact k3 t

theorem tfEz_combo {o1 o2 o3 : Option (Tfsf ℝ)} (h : Opt3 (TfsfCombo a b) o1 o2 o3) (x y : ℤ) :
    tfEz o3 x y = a * tfEz o1 x y + b * tfEz o2 x y := by
  cases h with
  | none => simp [tfEz]
  | some h =>
    obtain ⟨⟨s1, s2, s3, s4, s5, -, -, -, -⟩, ⟨r1, r2, r3, r4, r5, -, -, -, -⟩, -, -, -, hH, -, -, -, -, -⟩ := h
    simp only [tfEz, Tfsf.addEz, s1, s2, s3, s4, s5, r1, r2, r3, r4, r5, hH _]
    split_ifs <;> ring

theorem tfH_combo {o1 o2 o3 : Option (Tfsf ℝ)} (h : Opt3 (TfsfCombo a b) o1 o2 o3) (x y : ℤ) :
    tfHx o3 x y = a * tfHx o1 x y + b * tfHx o2 x y ∧ tfHy o3 x y = a * tfHy o1 x y + b * tfHy o2 x y := by
  cases h with
  | none => simp [tfHx, tfHy]
  | some h =>
    obtain ⟨⟨s1, s2, s3, s4, s5, -, -, -, -⟩, ⟨r1, r2, r3, r4, r5, -, -, -, -⟩, -, hE, -, hH, -, -, -, -, -⟩ := h
    simp only [tfHx, tfHy, Tfsf.addHx, Tfsf.addHy, s1, s2, s3, s4, s5, r1, r2, r3, r4, r5, hE _]
    constructor <;> split_ifs <;> ring

theorem pulse_combo {o1 o2 o3 o1' o2' o3' : Option (Tfsf ℝ)} (h : Opt3 (TfsfCombo a b) o1 o2 o3)
    (w1 : ∀ w, o1 = some w → w.Shape) (w2 : ∀ w, o2 = some w → w.Shape) (w3 : ∀ w, o3 = some w → w.Shape)
    (h1 : optPulse o1 = .ok o1') (h2 : optPulse o2 = .ok o2') (h3 : optPulse o3 = .ok o3') :
    Opt3 (TfsfCombo a b) o1' o2' o3' := by
  cases h with
  | none => cases h1; cases h2; cases h3; exact .none
  | @some x y z h =>
    obtain ⟨tp1, fo1, q1, p1, -⟩ := Tfsf.pulse_closed (w1 x rfl)
    obtain ⟨tp2, fo2, q2, p2, -⟩ := Tfsf.pulse_closed (w2 y rfl)
    obtain ⟨tp3, fo3, q3, p3, -⟩ := Tfsf.pulse_closed (w3 z rfl)
    simp only [optPulse, p1, p2, p3, Except.ok_bind, Except.pure_eq] at h1 h2 h3
    cases h1; cases h2; cases h3
    obtain ⟨⟨s1, s2, s3, s4, s5, s6, s7, s8, s9⟩, ⟨r1, r2, r3, r4, r5, r6, r7, r8, r9⟩, hsig, hE, hD, hH, hI, l0, l1, R0, R1⟩ := h
    have nD : ∀ k, z.newD k = a * x.newD k + b * y.newD k := by
      intro k; simp only [Tfsf.newD, s5, r5, hD _, hH _]; split_ifs <;> ring
    have nL : ∀ k, z.loopE k = a * x.loopE k + b * y.loopE k := by
      intro k; simp only [Tfsf.loopE, nD, s5, r5, s8, r8, hI _, hE _]; split_ifs <;> ring
    have nI : ∀ k, z.newI k = a * x.newI k + b * y.newI k := by
      intro k; simp only [Tfsf.newI, nL, s5, r5, s9, r9, hI _]; split_ifs <;> ring
    have nE : ∀ k, z.newE k = a * x.newE k + b * y.newE k := by
      intro k
      simp only [Tfsf.newE, nL, s5, r5, s6, r6, s7, r7, hsig, show z.right1 = _ from R1, show z.left1 = _ from l1]
      split_ifs <;> rfl
    have nH : ∀ k, z.newH k = a * x.newH k + b * y.newH k := by
      intro k; simp only [Tfsf.newH, nE, s5, r5, hH _]; split_ifs <;> ring
    refine .some ⟨⟨s1, s2, s3, s4, s5, s6, by simp only [s6, s7], s8, s9⟩, ⟨r1, r2, r3, r4, r5, r6, by simp only [r6, r7], r8, r9⟩,
      ?_, nE, nD, nH, nI, ?_, l0, ?_, R0⟩
    · intro t
      simp only [response_resp q1, response_resp q2, response_resp q3]
      exact hsig t
    · simp only [SCombo, s6, s7, r6, r7]; exact hsig _
    · simp only [SCombo, s5, r5]; exact nE _

theorem assignIf_combo {α : Type} {R : α → α → α → Prop} {o1 o2 o3 v1 v2 v3 : Option α} (h : Opt3 R o1 o2 o3) (hv : Opt3 R v1 v2 v3) :
    Opt3 R (assignIf o1 v1) (assignIf o2 v2) (assignIf o3 v3) := by
  cases h with
  | none => exact .none
  | some _ => exact hv

theorem Forall3_nil {α β γ : Type} {R : α → β → γ → Prop} {m : List β} {n : List γ} (h : Forall3 R [] m n) : m = [] ∧ n = [] := by
  cases h; exact ⟨rfl, rfl⟩

/-- One step. -/
theorem Core.Step.combo {c1 c2 c3 d1 d2 d3 : Core ℝ} {l1 l2 l3 m1 m2 m3 A1 A2 A3 B1 B2 B3 D1 D2 D3 f1 f2 f3}
    (s1 : c1.Std) (s2 : c2.Std) (s3 : c3.Std) (t1 : c1.Step l1 d1 m1 A1 B1 D1 f1) (t2 : c2.Step l2 d2 m2 A2 B2 D2 f2)
    (t3 : c3.Step l3 d3 m3 A3 B3 D3 f3) (h : Combo a b c1 c2 c3) (hs : Forall3 (SrcCombo a b) l1 l2 l3) :
    Combo a b d1 d2 d3 ∧ Forall3 (SrcCombo a b) m1 m2 m3 := by
  obtain ⟨g2, g3⟩ := h.g
  have nx2 : c2.g.Nx = c1.g.Nx := by rw [g2]
  refine ⟨?_, srcs_combo hs t1.same t2.same t3.same⟩
  have hd2 := t2.hd; have hd3 := t3.hd
  have hr2 := t2.hr; have hr3 := t3.hr
  have hl2 := t2.hl; have hl3 := t3.hl
  rw [g2] at hd2 hr2 hl2
  rw [g3] at hd3 hr3 hl3
  have z2 : c2.f.Ez.Dim c1.g.Nx c1.g.Ny := by rw [← g2]; exact s2.wf.f.Ez
  have z3 : c3.f.Ez.Dim c1.g.Nx c1.g.Ny := by rw [← g3]; exact s3.wf.f.Ez
  obtain ⟨kd, k2⟩ := mapUpdateJ_combo (a := a) (b := b) (Nx := c1.g.Nx) (Ny := c1.g.Ny) (fun P : DebyePol ℝ => P.WF c1.g.Nx c1.g.Ny) (DebyeCombo a b) _ _ _
    (fun n1 n2 n3 P1 P2 P3 E1 E2 E3 w1 w2 w3 hR e1 e2 e3 hE => debye_upd_combo s1.wf.f.Ez z2 z3 h.f.Ez e1 e2 e3 hE w1 w2 w3 hR)
    h.debye s1.wf.debye (by rw [← g2]; exact s2.wf.debye) (by rw [← g3]; exact s3.wf.debye)
    (show c1.E1.Dim _ _ from s1.wf.f.Ez) (show c2.E1.Dim _ _ from z2) (show c3.E1.Dim _ _ from z3) (E1_combo h) t1.hd hd2 hd3
  have y2 := t2.d2; have y3 := t3.d2
  rw [g2] at y2; rw [g3] at y3
  obtain ⟨kr, k3⟩ := mapUpdateJ_combo (a := a) (b := b) (Nx := c1.g.Nx) (Ny := c1.g.Ny) (fun P : DrudePol ℝ => P.WF c1.g.Nx c1.g.Ny) (DrudeCombo a b) _ _ _
    (fun n1 n2 n3 P1 P2 P3 E1 E2 E3 w1 w2 w3 hR e1 e2 e3 hE => drude_upd_combo s1.wf.f.Ez z2 z3 h.f.Ez e1 e2 e3 hE w1 w2 w3 hR)
    h.drude s1.wf.drude (by rw [← g2]; exact s2.wf.drude) (by rw [← g3]; exact s3.wf.drude)
    t1.d2 y2 y3 k2 t1.hr hr2 hr3
  have x2 := t2.d3; have x3 := t3.d3
  rw [g2] at x2; rw [g3] at x3
  have key : Forall3 (LorentzCombo a b) d1.lorentz d2.lorentz d3.lorentz ∧ TCombo a b D1 D2 D3 := by
    have hlor := h.lorentz
    have hpe := h.prevE
    have w1 := s1.wf.hasE; have w2 := s2.wf.prevE; have w3 := s3.wf.prevE; have w4 := s1.wf.prevE
    rw [g2] at w2; rw [g3] at w3
    have hl1 := t1.hl
    by_cases hn : c1.lorentz = []
    · rw [hn] at hlor hl1
      obtain ⟨hlor', hlor''⟩ := Forall3_nil hlor
      rw [hlor'] at hl2; rw [hlor''] at hl3
      obtain ⟨q1, q2⟩ := Prod.mk.inj (Except.ok.inj hl1)
      obtain ⟨q3, q4⟩ := Prod.mk.inj (Except.ok.inj hl2)
      obtain ⟨q5, q6⟩ := Prod.mk.inj (Except.ok.inj hl3)
      rw [← q1, ← q3, ← q5, ← q2, ← q4, ← q6]
      exact ⟨.nil, k3⟩
    · have hsome := w1 (Or.inr (Or.inr hn))
      generalize hq1 : c1.prevE = o1 at *
      generalize hq2 : c2.prevE = o2 at *
      generalize hq3 : c3.prevE = o3 at *
      cases hpe with
      | none => simp at hsome
      | @some e1 e2 e3 he =>
        exact mapUpdateJ_combo (a := a) (b := b) (Nx := c1.g.Nx) (Ny := c1.g.Ny) (fun P : LorentzPol ℝ => P.WF c1.g.Nx c1.g.Ny) (LorentzCombo a b) _ _ _
          (fun n1 n2 n3 P1 P2 P3 E1 E2 E3 v1 v2 v3 hR e1' e2' e3' hE =>
            lorentz_upd_combo (w4 e1 rfl) (w2 e2 rfl) (w3 e3 rfl) he e1' e2' e3' hE v1 v2 v3 hR)
          hlor s1.wf.lorentz (by rw [← g2]; exact s2.wf.lorentz) (by rw [← g3]; exact s3.wf.lorentz)
          t1.d3 x2 x3 k3 hl1 hl2 hl3
  obtain ⟨kl, k4⟩ := key
  have ff : FldsCombo a b f1 f2 f3 := by
    obtain ⟨c11, c12, c13, c14⟩ := t1.coef
    obtain ⟨c21, c22, c23, c24⟩ := t2.coef
    obtain ⟨c31, c32, c33, c34⟩ := t3.coef
    obtain ⟨⟨a1, a2, a3, a4⟩, ⟨b1, b2, b3, b4⟩, e1, e2, e3⟩ := h.f
    refine ⟨⟨by rw [c21, c11, a1], by rw [c22, c12, a2], by rw [c23, c13, a3], by rw [c24, c14, a4]⟩,
      ⟨by rw [c31, c11, b1], by rw [c32, c12, b2], by rw [c33, c13, b3], by rw [c34, c14, b4]⟩, ?_, ?_, ?_⟩
    · intro x y
      rw [t1.fE, t2.fE, t3.fE, k4 x y, tfEz_combo h.tfsf, g2, g3, h.t.1, h.t.2, contrib_combo hs]; ring
    · intro x y
      rw [t1.fX, t2.fX, t3.fX, e2 x y, g2, g3, h.t.1, h.t.2, contrib_combo hs]; ring
    · intro x y
      rw [t1.fY, t2.fY, t3.fY, e3 x y, g2, g3, h.t.1, h.t.2, contrib_combo hs]; ring
  have hp := afterE_combo h.pml h.f
  have htf := pulse_combo h.tfsf (fun w hw => (s1.wf.tfsf w hw).1) (fun w hw => (s2.wf.tfsf w hw).1)
    (fun w hw => (s3.wf.tfsf w hw).1) t1.tf t2.tf t3.tf
  refine ⟨⟨by rw [t2.g, t1.g, g2], by rw [t3.g, t1.g, g3]⟩, ⟨by rw [t2.t, t1.t, g2, h.t.1], by rw [t3.t, t1.t, g3, h.t.2]⟩,
    ⟨by rw [t2.sc, t1.sc, h.sc.1], by rw [t3.sc, t1.sc, h.sc.2]⟩, ?_, ?_, ?_, ?_, kd, kr, kl, htf⟩
  · obtain ⟨c11, c12, c13, c14⟩ := t1.coef'
    obtain ⟨c21, c22, c23, c24⟩ := t2.coef'
    obtain ⟨c31, c32, c33, c34⟩ := t3.coef'
    obtain ⟨⟨a1, a2, a3, a4⟩, ⟨b1, b2, b3, b4⟩, -, -, -⟩ := h.f
    refine ⟨⟨by rw [c21, c11, a1], by rw [c22, c12, a2], by rw [c23, c13, a3], by rw [c24, c14, a4]⟩,
      ⟨by rw [c31, c11, b1], by rw [c32, c12, b2], by rw [c33, c13, b3], by rw [c34, c14, b4]⟩, ?_, ?_, ?_⟩
    · rw [t1.eE, t2.eE, t3.eE]; exact ff.Ez
    · intro x y
      rw [t1.eX, t2.eX, t3.eX, (corrH_combo hp ff x y).1, (tfH_combo htf x y).1, g2, g3]
      obtain ⟨⟨-, -, u1, u2⟩, ⟨-, -, u3, u4⟩, v1, v2, -⟩ := ff
      simp only [Tensor.upd_val, hxVal, h.sc.1, h.sc.2, u1, u2, u3, u4, v1 _ _, v2 _ _]
      split_ifs <;> ring
    · intro x y
      rw [t1.eY, t2.eY, t3.eY, (corrH_combo hp ff x y).2, (tfH_combo htf x y).2, g2, g3]
      obtain ⟨⟨-, -, u1, u2⟩, ⟨-, -, u3, u4⟩, v1, -, v2⟩ := ff
      simp only [Tensor.upd_val, hyVal, h.sc.1, h.sc.2, u1, u2, u3, u4, v1 _ _, v2 _ _]
      split_ifs <;> ring
  · rw [t1.pml, t2.pml, t3.pml]; exact afterH_combo hp ff
  · rw [t1.prevE, t2.prevE, t3.prevE]; exact assignIf_combo h.prevE (.some h.f.Ez)
  · rw [t1.prev2E, t2.prev2E, t3.prev2E]; exact assignIf_combo h.prev2E h.prevE

end Qbox
