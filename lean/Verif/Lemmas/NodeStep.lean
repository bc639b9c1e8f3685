import Verif.Lemmas.Node

/-!
# The electric update at a node beyond the absorbing layer
-/

namespace Qbox
open Scalar Spec Props

set_option linter.unusedSectionVars false
set_option linter.unusedSimpArgs false

theorem Core.E1_node {c : Core ℝ} (h : c.Std) {i j : ℤ} (hb : Beyond c.g i j) :
    c.E1.val i j = c.f.Ca.val i j * c.f.Ez.val i j + c.f.Cb.val i j * curlH c.f c.g.dx i j := by
  obtain ⟨b1, b2, b3, b4⟩ := hb
  have hT := h.thick
  have hm : (i, j) ∈ rect 1 (c.g.Nx - 1) 1 (c.g.Ny - 1) := by rw [mem_rect]; simp only; omega
  obtain ⟨p1, p2, p3, -⟩ := h.wf.pml
  have hp : c.pml.corrE c.f.Hx c.f.Hy c.f.Cb i j = 0 :=
    Pml.corrE_interior _ _ _ _ (by omega) (by omega) (by omega) (by omega)
  simp only [Core.E1, Tensor.setv_val, Tensor.upd_val, hm, if_true, hp, ezVal, h.sc.kedx, h.sc.kedy, curlH]
  ring

theorem tfEz_undriven {c : Core ℝ} {srcs : List (Source ℝ)} {i j : ℤ} (h : Undriven c srcs i j) : tfEz c.tfsf i j = 0 := by
  unfold tfEz
  cases ht : c.tfsf with
  | none => rfl
  | some w =>
    have := h.tfsf w ht
    simp only [Tfsf.addEz]
    split_ifs with h1 h2 h3 h3
    · exact absurd ⟨h1, Or.inl h2⟩ this
    · exact absurd ⟨h1, Or.inl h2⟩ this
    · exact absurd ⟨h1, Or.inr h3⟩ this
    · ring
    · rfl

theorem totalContrib_zero {g : Grid ℝ} {t : ℝ} {srcs : List (Source ℝ)} {C : Fields} {p : V2 ℤ}
    (h : ∀ s ∈ srcs, ¬ Drives g s C p) : totalContrib g t srcs C p = 0 := by
  unfold totalContrib
  refine List.sum_eq_zero ?_
  intro x hx
  obtain ⟨s, hs, rfl⟩ := List.mem_map.mp hx
  simp [contrib, h s hs]

theorem forall2_mem {α β : Type} {R : α → β → Prop} : ∀ {l : List α} {l' : List β}, List.Forall₂ R l l' → ∀ b ∈ l', ∃ a ∈ l, R a b
  | _, _, .nil, b, hb => by simp at hb
  | _, _, .cons h t, b, hb => by
    rcases List.mem_cons.mp hb with rfl | hb
    · exact ⟨_, by simp, h⟩
    · obtain ⟨a, ha, hr⟩ := forall2_mem t b hb
      exact ⟨a, by simp [ha], hr⟩

theorem optPulse_region {o o' : Option (Tfsf ℝ)} (hw : ∀ w, o = some w → w.Shape) (h : optPulse o = .ok o') :
    ∀ w', o' = some w' → ∃ w, o = some w ∧ w'.ia = w.ia ∧ w'.ib = w.ib ∧ w'.ja = w.ja ∧ w'.jb = w.jb := by
  intro w' hw'
  cases o with
  | none => cases h; cases hw'
  | some w =>
    obtain ⟨tp', fo, -, h2, -⟩ := Tfsf.pulse_closed (hw w rfl)
    simp only [optPulse, h2, Except.ok_bind, Except.pure_eq] at h
    cases h
    cases hw'
    exact ⟨w, rfl, rfl, rfl, rfl, rfl⟩

theorem Core.Step.undriven {c c' : Core ℝ} {srcs srcs' E2 E3 E4 f} (hc : c.Std) (h : c.Step srcs c' srcs' E2 E3 E4 f) {i j : ℤ}
    (hu : Undriven c srcs i j) : Undriven c' srcs' i j where
  src := by
    intro s' hs'
    obtain ⟨s, hs, e, -⟩ := forall2_mem h.same s' hs'
    have := hu.src s hs
    unfold Drives at this ⊢
    rw [h.g, e]
    exact this
  tfsf := by
    intro w' hw'
    obtain ⟨w, hw, e1, e2, e3, e4⟩ := optPulse_region (fun w hw => (hc.wf.tfsf w hw).1) h.tf w' hw'
    rw [e1, e2, e3, e4]
    exact hu.tfsf w hw

theorem Core.Step.Ez_node {c c' : Core ℝ} {srcs srcs' E2 E3 E4 f} (h : c.Step srcs c' srcs' E2 E3 E4 f) {i j : ℤ}
    (hu : Undriven c srcs i j) : c'.f.Ez.val i j = E4.val i j := by
  rw [h.eE, h.fE, tfEz_undriven hu, totalContrib_zero hu.src]; ring

theorem Core.Step.medium {c c' : Core ℝ} {srcs srcs' E2 E3 E4 f} (h : c.Step srcs c' srcs' E2 E3 E4 f) {i j : ℤ} {k : MatKind ℝ}
    (hm : HasMedium c.f k c.g.dt i j) : HasMedium c'.f k c'.g.dt i j := by
  obtain ⟨e1, e2, e3, e4⟩ := h.coef'
  rw [h.g]
  exact ⟨by rw [e1]; exact hm.Ca, by rw [e2]; exact hm.Cb, by rw [e3]; exact hm.Da, by rw [e4]; exact hm.Db⟩

theorem Beyond_mem {g : Grid ℝ} (hT : g.T = 0 ∨ 2 ≤ g.T) {i j : ℤ} (hb : Beyond g i j) : 0 ≤ i ∧ i < g.Nx ∧ 0 ≤ j ∧ j < g.Ny := by
  obtain ⟨b1, b2, b3, b4⟩ := hb
  omega

/-- A quiet Debye list does nothing at the node and stays quiet. -/
theorem debye_quiet {g : Grid ℝ} {pE : Tensor ℝ} (hp : pE.Dim g.Nx g.Ny) {i j : ℤ} (i0 : 0 ≤ i) (i1 : i < g.Nx) (j0 : 0 ≤ j)
    (j1 : j < g.Ny) {l l' : List (String × DebyePol ℝ)} {E E' : Tensor ℝ} (hw : ∀ q ∈ l, q.2.WF g.Nx g.Ny)
    (hq : ∀ q ∈ l, DebyeQuiet q.2 i j) (hE : E.Dim g.Nx g.Ny)
    (h : mapUpdateJ (fun P Ez => P.updateJ g (some pE) Ez) l E = .ok (l', E')) :
    (∀ q ∈ l', q.2.WF g.Nx g.Ny ∧ DebyeQuiet q.2 i j) ∧ E'.Dim g.Nx g.Ny ∧ E'.val i j = E.val i j := by
  refine mapUpdateJ_node _ (fun P : DebyePol ℝ => P.WF g.Nx g.Ny ∧ DebyeQuiet P i j) (fun E => E.Dim g.Nx g.Ny) i j ?_ l E
    (fun q h => ⟨hw q h, hq q h⟩) hE l' E' h
  rintro P E ⟨w, q⟩ d P' E' hu
  obtain ⟨P2, E2, u, w2, d2, m2, n2, b2, v⟩ := DebyePol.updateJ_node w hp d
  rw [hu] at u
  obtain ⟨rfl, rfl⟩ := Prod.mk.inj (Except.ok.inj u)
  obtain ⟨v1, v2⟩ := v i j i0 i1 j0 j1
  have hz : ∀ n : ℕ, n ≤ P.np.toNat → ∑ M ∈ Finset.range n,
      (1 + (Arr.ofList (P.mat.poles.map (·.kappa g.dt))).val M) * P.J.val i j M = 0 := by
    intro n hn
    refine Finset.sum_eq_zero fun M hM => ?_
    rw [Finset.mem_range] at hM
    rw [(q M (by positivity) (by omega)).1, mul_zero]
  refine ⟨⟨w2, ?_⟩, d2, by rw [v1, hz _ le_rfl]; ring⟩
  intro N h0 h1
  rw [n2] at h1
  obtain ⟨k, rfl⟩ := Int.eq_ofNat_of_zero_le h0
  have := v2 k (by omega)
  rw [(q k h0 h1).1, (q k h0 h1).2] at this
  exact ⟨by rw [this]; ring, by rw [b2]; exact (q k h0 h1).2⟩

/-- A quiet Drude list does nothing at the node and stays quiet. -/
theorem drude_quiet {g : Grid ℝ} {pE : Tensor ℝ} (hp : pE.Dim g.Nx g.Ny) {i j : ℤ} (i0 : 0 ≤ i) (i1 : i < g.Nx) (j0 : 0 ≤ j)
    (j1 : j < g.Ny) {l l' : List (String × DrudePol ℝ)} {E E' : Tensor ℝ} (hw : ∀ q ∈ l, q.2.WF g.Nx g.Ny)
    (hq : ∀ q ∈ l, DrudeQuiet q.2 i j) (hE : E.Dim g.Nx g.Ny)
    (h : mapUpdateJ (fun P Ez => P.updateJ g (some pE) Ez) l E = .ok (l', E')) :
    (∀ q ∈ l', q.2.WF g.Nx g.Ny ∧ DrudeQuiet q.2 i j) ∧ E'.Dim g.Nx g.Ny ∧ E'.val i j = E.val i j := by
  refine mapUpdateJ_node _ (fun P : DrudePol ℝ => P.WF g.Nx g.Ny ∧ DrudeQuiet P i j) (fun E => E.Dim g.Nx g.Ny) i j ?_ l E
    (fun q h => ⟨hw q h, hq q h⟩) hE l' E' h
  rintro P E ⟨w, q⟩ d P' E' hu
  obtain ⟨P2, E2, u, w2, d2, m2, n2, b2, v⟩ := DrudePol.updateJ_node w hp d
  rw [hu] at u
  obtain ⟨rfl, rfl⟩ := Prod.mk.inj (Except.ok.inj u)
  obtain ⟨v1, v2⟩ := v i j i0 i1 j0 j1
  have hz : ∀ n : ℕ, n ≤ P.np.toNat → ∑ M ∈ Finset.range n,
      (1 + (Arr.ofList (P.mat.poles.map (·.kappa g.dt))).val M) * P.J.val i j M = 0 := by
    intro n hn
    refine Finset.sum_eq_zero fun M hM => ?_
    rw [Finset.mem_range] at hM
    rw [(q M (by positivity) (by omega)).1, mul_zero]
  refine ⟨⟨w2, ?_⟩, d2, by rw [v1, hz _ le_rfl]; ring⟩
  intro N h0 h1
  rw [n2] at h1
  obtain ⟨k, rfl⟩ := Int.eq_ofNat_of_zero_le h0
  have := v2 k (by omega)
  rw [(q k h0 h1).1, (q k h0 h1).2] at this
  exact ⟨by rw [this]; ring, by rw [b2]; exact (q k h0 h1).2⟩

/-- Split a map update at one entry. -/
theorem mapUpdateJ_split {α : Type} {upd : α → Tensor ℝ → M (α × Tensor ℝ)} {b a : List (String × α)} {n : String} {P : α}
    {E E' : Tensor ℝ} {l' : List (String × α)} (h : mapUpdateJ upd (b ++ (n, P) :: a) E = .ok (l', E')) :
    ∃ b' E1 P' E2 a', mapUpdateJ upd b E = .ok (b', E1) ∧ upd P E1 = .ok (P', E2) ∧ mapUpdateJ upd a E2 = .ok (a', E') ∧
      l' = b' ++ (n, P') :: a' := by
  rw [mapUpdateJ_append] at h
  simp only [Except.bind_ok, Except.pure_eq] at h
  obtain ⟨⟨b', E1⟩, h1, ⟨r, E3⟩, h2, h3⟩ := h
  unfold mapUpdateJ at h2
  simp only [Except.bind_ok, Except.pure_eq] at h2
  obtain ⟨⟨P', E2⟩, h4, ⟨a', E4⟩, h5, h6⟩ := h2
  cases h6
  cases h3
  exact ⟨b', E1, P', E2, a', h1, h4, h5, rfl⟩

theorem E1_dim {c : Core ℝ} (h : c.Std) : c.E1.Dim c.g.Nx c.g.Ny := h.wf.f.Ez

/-- The step at a node of a Debye medium. -/
theorem Core.Step.inDebye {c c' : Core ℝ} {srcs srcs' E2 E3 E4 f} (hc : c.Std) (h : c.Step srcs c' srcs' E2 E3 E4 f)
    {i j : ℤ} (hb : Beyond c.g i j) (hu : Undriven c srcs i j) {n : String} {P : DebyePol ℝ} {b a : List (String × DebyePol ℝ)}
    (hin : InDebye c n P b a i j) :
    ∃ P' b' a', InDebye c' n P' b' a' i j ∧ b'.length = b.length ∧ P'.mat = P.mat ∧
      c'.f.Ez.val i j = c.f.Ez.val i j + P.mat.Cb c.g.dt * curlH c.f c.g.dx i j - P.mat.Cb c.g.dt / 2 *
        ∑ M ∈ Finset.range P.mat.poles.length, (1 + (Arr.ofList (P.mat.poles.map (·.kappa c.g.dt))).val M) * P.J.val i j M ∧
      ∀ N : ℕ, N < P.mat.poles.length → P'.J.val i j N =
        (Arr.ofList (P.mat.poles.map (·.kappa c.g.dt))).val N * P.J.val i j N + P.beta.val i j N / c.g.dt *
          ((c.f.Ez.val i j + P.mat.Cb c.g.dt * curlH c.f c.g.dx i j - P.mat.Cb c.g.dt / 2 *
        ∑ M ∈ Finset.range (N + 1), (1 + (Arr.ofList (P.mat.poles.map (·.kappa c.g.dt))).val M) * P.J.val i j M)
          - c.f.Ez.val i j) := by
  obtain ⟨i0, i1, j0, j1⟩ := Beyond_mem hc.thick hb
  have hd := h.hd
  rw [hin.entry] at hd
  obtain ⟨b', E1', P', E2', a', k1, k2, k3, k4⟩ := mapUpdateJ_split hd
  have wd := hc.wf.debye
  rw [hin.entry] at wd
  obtain ⟨q1, d1, v1⟩ := debye_quiet hc.wf.f.Ez i0 i1 j0 j1 (fun q hq => wd q (by simp [hq]))
    (fun q hq => hin.others q (by simp [hq])) (E1_dim hc) k1
  obtain ⟨P2, E22, u, w2, d2, m2, n2, b2, v2⟩ := DebyePol.updateJ_node (wd (n, P) (by simp)) hc.wf.f.Ez d1
  rw [k2] at u
  obtain ⟨rfl, rfl⟩ := Prod.mk.inj (Except.ok.inj u)
  obtain ⟨q3, d3, v3⟩ := debye_quiet hc.wf.f.Ez i0 i1 j0 j1 (fun q hq => wd q (by simp [hq]))
    (fun q hq => hin.others q (by simp [hq])) d2 k3
  obtain ⟨q4, d4, v4⟩ := drude_quiet hc.wf.f.Ez i0 i1 j0 j1 hc.wf.drude hin.drude d3 h.hr
  have hl := h.hl
  rw [hin.lorentz] at hl
  have hE4 : E4 = E3 := (congrArg Prod.snd (Except.ok.inj hl)).symm
  have hll : c'.lorentz = [] := (congrArg Prod.fst (Except.ok.inj hl)).symm
  have hnp : P.np.toNat = P.mat.poles.length := by
    rw [(wd (n, P) (by simp)).np]; simp
  obtain ⟨v5, v6⟩ := v2 i j i0 i1 j0 j1
  rw [hnp] at v5 v6
  have e1 : c.E1.val i j = c.f.Ez.val i j + P.mat.Cb c.g.dt * curlH c.f c.g.dx i j := by
    rw [Core.E1_node hc hb, hin.medium.Ca, hin.medium.Cb]
    simp [MatKind.Ca, MatKind.Cb, Debye.Ca]
  rw [v1, e1] at v5 v6
  refine ⟨P', b', a', ⟨k4, ?_, fun q hq => (q4 q hq).2, hll, ?_, ?_⟩, ?_, m2, ?_, v6⟩
  · intro q hq
    rcases List.mem_append.mp hq with hq | hq
    · exact (q1 q hq).2
    · exact (q3 q hq).2
  · rw [m2]; exact h.medium hin.medium
  · rw [m2, b2, h.g]; exact hin.strength
  · simpa using congrArg List.length (mapUpdateJ_keys _ _ _ _ _ k1)
  · rw [h.Ez_node hu, hE4, v4, v3, v5]

/-- The step at a node of a Drude medium. -/
theorem Core.Step.inDrude {c c' : Core ℝ} {srcs srcs' E2 E3 E4 f} (hc : c.Std) (h : c.Step srcs c' srcs' E2 E3 E4 f)
    {i j : ℤ} (hb : Beyond c.g i j) (hu : Undriven c srcs i j) {n : String} {P : DrudePol ℝ} {b a : List (String × DrudePol ℝ)}
    (hin : InDrude c n P b a i j) :
    ∃ P' b' a', InDrude c' n P' b' a' i j ∧ b'.length = b.length ∧ P'.mat = P.mat ∧
      c'.f.Ez.val i j = P.mat.Ca c.g.dt * c.f.Ez.val i j + P.mat.Cb c.g.dt * curlH c.f c.g.dx i j - P.mat.Cb c.g.dt / 2 *
        ∑ M ∈ Finset.range P.mat.poles.length, (1 + (Arr.ofList (P.mat.poles.map (·.kappa c.g.dt))).val M) * P.J.val i j M ∧
      ∀ N : ℕ, N < P.mat.poles.length → P'.J.val i j N =
        (Arr.ofList (P.mat.poles.map (·.kappa c.g.dt))).val N * P.J.val i j N + P.beta.val i j N *
          ((P.mat.Ca c.g.dt * c.f.Ez.val i j + P.mat.Cb c.g.dt * curlH c.f c.g.dx i j - P.mat.Cb c.g.dt / 2 *
        ∑ M ∈ Finset.range (N + 1), (1 + (Arr.ofList (P.mat.poles.map (·.kappa c.g.dt))).val M) * P.J.val i j M)
          + c.f.Ez.val i j) := by
  obtain ⟨i0, i1, j0, j1⟩ := Beyond_mem hc.thick hb
  obtain ⟨q0, d0, v0⟩ := debye_quiet hc.wf.f.Ez i0 i1 j0 j1 hc.wf.debye hin.debye (E1_dim hc) h.hd
  have hd := h.hr
  rw [hin.entry] at hd
  obtain ⟨b', E1', P', E2', a', k1, k2, k3, k4⟩ := mapUpdateJ_split hd
  have wd := hc.wf.drude
  rw [hin.entry] at wd
  obtain ⟨q1, d1, v1⟩ := drude_quiet hc.wf.f.Ez i0 i1 j0 j1 (fun q hq => wd q (by simp [hq]))
    (fun q hq => hin.others q (by simp [hq])) d0 k1
  obtain ⟨P2, E22, u, w2, d2, m2, n2, b2, v2⟩ := DrudePol.updateJ_node (wd (n, P) (by simp)) hc.wf.f.Ez d1
  rw [k2] at u
  obtain ⟨rfl, rfl⟩ := Prod.mk.inj (Except.ok.inj u)
  obtain ⟨q3, d3, v3⟩ := drude_quiet hc.wf.f.Ez i0 i1 j0 j1 (fun q hq => wd q (by simp [hq]))
    (fun q hq => hin.others q (by simp [hq])) d2 k3
  have hl := h.hl
  rw [hin.lorentz] at hl
  have hE4 : E4 = E3 := (congrArg Prod.snd (Except.ok.inj hl)).symm
  have hll : c'.lorentz = [] := (congrArg Prod.fst (Except.ok.inj hl)).symm
  have hnp : P.np.toNat = P.mat.poles.length := by
    rw [(wd (n, P) (by simp)).np]; simp
  obtain ⟨v5, v6⟩ := v2 i j i0 i1 j0 j1
  rw [hnp] at v5 v6
  have e1 : c.E1.val i j = P.mat.Ca c.g.dt * c.f.Ez.val i j + P.mat.Cb c.g.dt * curlH c.f c.g.dx i j := by
    rw [Core.E1_node hc hb, hin.medium.Ca, hin.medium.Cb]
    simp [MatKind.Ca, MatKind.Cb]
  rw [v1, v0, e1] at v5 v6
  refine ⟨P', b', a', ⟨k4, ?_, fun q hq => (q0 q hq).2, hll, ?_, ?_⟩, ?_, m2, ?_, v6⟩
  · intro q hq
    rcases List.mem_append.mp hq with hq | hq
    · exact (q1 q hq).2
    · exact (q3 q hq).2
  · rw [m2]; exact h.medium hin.medium
  · rw [m2, b2, h.g]; exact hin.strength
  · simpa using congrArg List.length (mapUpdateJ_keys _ _ _ _ _ k1)
  · rw [h.Ez_node hu, hE4, v3, v5]

/-- The step at a node of a Lorentz medium; `pE` is the stored field of the step before. -/
theorem Core.Step.inLorentz {c c' : Core ℝ} {srcs srcs' E2 E3 E4 f} (hc : c.Std) (h : c.Step srcs c' srcs' E2 E3 E4 f)
    {i j : ℤ} (hb : Beyond c.g i j) (hu : Undriven c srcs i j) {n : String} {P : LorentzPol ℝ} {pE : Tensor ℝ}
    (hpE : c.prevE = some pE) (hin : InLorentz c n P i j) :
    ∃ P', InLorentz c' n P' i j ∧ P'.mat = P.mat ∧ c'.prevE = some c.f.Ez ∧
      c'.f.Ez.val i j = P.mat.Ca c.g.dt * c.f.Ez.val i j + P.mat.Cb c.g.dt * curlH c.f c.g.dx i j
        + P.mat.poles.length * (P.mat.CaPrev c.g.dt * pE.val i j) - P.mat.Cb c.g.dt / 2 *
        ∑ M ∈ Finset.range P.mat.poles.length, ((1 + (Arr.ofList (P.mat.poles.map (·.alpha c.g.dt))).val M) * P.J.val i j M
          + (Arr.ofList (P.mat.poles.map (·.beta c.g.dt))).val M * P.prevJ.val i j M) ∧
      ∀ N : ℕ, N < P.mat.poles.length → P'.prevJ.val i j N = P.J.val i j N ∧ P'.J.val i j N =
        (Arr.ofList (P.mat.poles.map (·.alpha c.g.dt))).val N * P.J.val i j N
        + (Arr.ofList (P.mat.poles.map (·.beta c.g.dt))).val N * P.prevJ.val i j N + P.delta.val i j N / (2 * c.g.dt) *
          ((P.mat.Ca c.g.dt * c.f.Ez.val i j + P.mat.Cb c.g.dt * curlH c.f c.g.dx i j
        + ((N + 1 : ℕ) : ℝ) * (P.mat.CaPrev c.g.dt * pE.val i j) - P.mat.Cb c.g.dt / 2 *
        ∑ M ∈ Finset.range (N + 1), ((1 + (Arr.ofList (P.mat.poles.map (·.alpha c.g.dt))).val M) * P.J.val i j M
          + (Arr.ofList (P.mat.poles.map (·.beta c.g.dt))).val M * P.prevJ.val i j M))
          - pE.val i j) := by
  obtain ⟨i0, i1, j0, j1⟩ := Beyond_mem hc.thick hb
  obtain ⟨q0, d0, v0⟩ := debye_quiet hc.wf.f.Ez i0 i1 j0 j1 hc.wf.debye hin.debye (E1_dim hc) h.hd
  obtain ⟨q1, d1, v1⟩ := drude_quiet hc.wf.f.Ez i0 i1 j0 j1 hc.wf.drude hin.drude d0 h.hr
  have hd := h.hl
  rw [hin.entry, hpE] at hd
  have wd := hc.wf.lorentz
  rw [hin.entry] at wd
  obtain ⟨P2, E22, u, w2, d2, m2, n2, b2, v2⟩ := LorentzPol.updateJ_node (P := P) (wd (n, P) (by simp)) (hc.wf.prevE pE hpE) d1
  unfold mapUpdateJ mapUpdateJ at hd
  rw [u] at hd
  simp only [Except.ok_bind, Except.pure_eq] at hd
  have k4 : c'.lorentz = [(n, P2)] := (congrArg Prod.fst (Except.ok.inj hd)).symm
  have hE4 : E4 = E22 := (congrArg Prod.snd (Except.ok.inj hd)).symm
  have hnp : P.np.toNat = P.mat.poles.length := by
    rw [(wd (n, P) (by simp)).np]; simp
  obtain ⟨v5, v6⟩ := v2 i j i0 i1 j0 j1
  rw [hnp] at v5 v6
  have e1 : c.E1.val i j = P.mat.Ca c.g.dt * c.f.Ez.val i j + P.mat.Cb c.g.dt * curlH c.f c.g.dx i j := by
    rw [Core.E1_node hc hb, hin.medium.Ca, hin.medium.Cb]
    simp [MatKind.Ca, MatKind.Cb]
  rw [v1, v0, e1] at v5 v6
  refine ⟨P2, ⟨k4, fun q hq => (q0 q hq).2, fun q hq => (q1 q hq).2, ?_, ?_⟩, m2, ?_, ?_, v6⟩
  · rw [m2]; exact h.medium hin.medium
  · rw [m2, b2, h.g]; exact hin.strength
  · rw [h.prevE, hpE]; rfl
  · rw [h.Ez_node hu, hE4, v5]

/-- The step at a node of a simple medium, without Lorentz materials. -/
theorem Core.Step.inSimple {c c' : Core ℝ} {srcs srcs' E2 E3 E4 f} (hc : c.Std) (h : c.Step srcs c' srcs' E2 E3 E4 f)
    {i j : ℤ} (hb : Beyond c.g i j) (hu : Undriven c srcs i j) (hl : c.lorentz = []) {m : Simple ℝ} (hin : InSimple c m i j) :
    InSimple c' m i j ∧ c'.lorentz = [] ∧
      c'.f.Ez.val i j = m.Ca c.g.dt * c.f.Ez.val i j + m.Cb c.g.dt * curlH c.f c.g.dx i j := by
  obtain ⟨i0, i1, j0, j1⟩ := Beyond_mem hc.thick hb
  obtain ⟨q0, d0, v0⟩ := debye_quiet hc.wf.f.Ez i0 i1 j0 j1 hc.wf.debye hin.debye (E1_dim hc) h.hd
  obtain ⟨q1, d1, v1⟩ := drude_quiet hc.wf.f.Ez i0 i1 j0 j1 hc.wf.drude hin.drude d0 h.hr
  have hd := h.hl
  rw [hl] at hd
  have hE4 : E4 = E3 := (congrArg Prod.snd (Except.ok.inj hd)).symm
  have hll : c'.lorentz = [] := (congrArg Prod.fst (Except.ok.inj hd)).symm
  refine ⟨⟨fun q hq => (q0 q hq).2, fun q hq => (q1 q hq).2, by rw [hll]; simp, h.medium hin.medium⟩, hll, ?_⟩
  rw [h.Ez_node hu, hE4, v1, v0, Core.E1_node hc hb, hin.medium.Ca, hin.medium.Cb]
  rfl

/-- The step at a node of a simple medium, in a simulation that has one Lorentz material somewhere else. -/
theorem Core.Step.outLorentz {c c' : Core ℝ} {srcs srcs' E2 E3 E4 f} (hc : c.Std) (h : c.Step srcs c' srcs' E2 E3 E4 f)
    {i j : ℤ} (hb : Beyond c.g i j) (hu : Undriven c srcs i j) {n : String} {P : LorentzPol ℝ} {pE : Tensor ℝ}
    (hpE : c.prevE = some pE) (hl : c.lorentz = [(n, P)]) {m : Simple ℝ} (hin : InSimple c m i j) :
    ∃ P', c'.lorentz = [(n, P')] ∧ P'.mat = P.mat ∧ InSimple c' m i j ∧ c'.prevE = some c.f.Ez ∧
      c'.f.Ez.val i j = m.Ca c.g.dt * c.f.Ez.val i j + m.Cb c.g.dt * curlH c.f c.g.dx i j
        + P.mat.poles.length * (P.mat.CaPrev c.g.dt * pE.val i j) := by
  obtain ⟨i0, i1, j0, j1⟩ := Beyond_mem hc.thick hb
  obtain ⟨q0, d0, v0⟩ := debye_quiet hc.wf.f.Ez i0 i1 j0 j1 hc.wf.debye hin.debye (E1_dim hc) h.hd
  obtain ⟨q1, d1, v1⟩ := drude_quiet hc.wf.f.Ez i0 i1 j0 j1 hc.wf.drude hin.drude d0 h.hr
  have hd := h.hl
  rw [hl, hpE] at hd
  have wd := hc.wf.lorentz
  rw [hl] at wd
  have hq := hin.lorentz
  rw [hl] at hq
  replace hq : LorentzQuiet P i j := hq (n, P) (by simp)
  obtain ⟨P2, E22, u, w2, d2, m2, n2, b2, v2⟩ := LorentzPol.updateJ_node (P := P) (wd (n, P) (by simp)) (hc.wf.prevE pE hpE) d1
  unfold mapUpdateJ mapUpdateJ at hd
  rw [u] at hd
  simp only [Except.ok_bind, Except.pure_eq] at hd
  have k4 : c'.lorentz = [(n, P2)] := (congrArg Prod.fst (Except.ok.inj hd)).symm
  have hE4 : E4 = E22 := (congrArg Prod.snd (Except.ok.inj hd)).symm
  have hnp : P.np.toNat = P.mat.poles.length := by
    rw [(wd (n, P) (by simp)).np]; simp
  obtain ⟨v5, v6⟩ := v2 i j i0 i1 j0 j1
  have hz : ∑ M ∈ Finset.range P.np.toNat, ((1 + (Arr.ofList (P.mat.poles.map (·.alpha c.g.dt))).val M) * P.J.val i j M
      + (Arr.ofList (P.mat.poles.map (·.beta c.g.dt))).val M * P.prevJ.val i j M) = 0 := by
    refine Finset.sum_eq_zero fun M hM => ?_
    rw [Finset.mem_range] at hM
    obtain ⟨a1, a2, -⟩ := hq M (by positivity) (by omega)
    rw [a1, a2]; ring
  rw [hz, v1, v0, Core.E1_node hc hb, hin.medium.Ca, hin.medium.Cb, hnp] at v5
  refine ⟨P2, k4, m2, ⟨fun q hq => (q0 q hq).2, fun q hq => (q1 q hq).2, ?_, h.medium hin.medium⟩, by rw [h.prevE, hpE]; rfl, ?_⟩
  · rw [k4]
    intro q hq'
    obtain rfl : q = (n, P2) := by simpa using hq'
    intro N h0 h1
    have h1' : N < P.np := by rw [← n2]; exact h1
    obtain ⟨k, rfl⟩ := Int.eq_ofNat_of_zero_le h0
    obtain ⟨a1, a2, a3⟩ := hq k h0 h1'
    obtain ⟨b1, b2'⟩ := v6 k (by omega)
    refine ⟨?_, by rw [b1, a1], by rw [b2]; exact a3⟩
    rw [b2', a1, a2, a3]; ring
  · rw [h.Ez_node hu, hE4, v5]
    simp only [MatKind.Ca, MatKind.Cb]; ring

end Qbox
