import Verif.Props.RenameProps
import Verif.Lemmas.Diverge
import Verif.Lemmas.RenameAny

/-!
# C61: names in another alphabetical order
-/

namespace Qbox
open Scalar Spec Props

/-- What the first `n` poles of a Lorentz medium add to the electric field at a node. -/
noncomputable def LorentzPol.gain (g : Grid ℝ) (P : LorentzPol ℝ) (pE : Tensor ℝ) (i j : ℤ) (n : ℕ) : ℝ :=
  n * (P.mat.CaPrev g.dt * pE.val i j) - P.mat.Cb g.dt / 2 *
    ∑ M ∈ Finset.range n, ((1 + (Arr.ofList (P.mat.poles.map (·.alpha g.dt))).val M) * P.J.val i j M
      + (Arr.ofList (P.mat.poles.map (·.beta g.dt))).val M * P.prevJ.val i j M)

/-- The currents of a Lorentz medium after its update at a node where the electric field was `E`. -/
def LorentzPol.Moved (g : Grid ℝ) (P P' : LorentzPol ℝ) (pE : Tensor ℝ) (E : ℝ) (i j : ℤ) : Prop :=
  P'.mat = P.mat ∧ P'.delta = P.delta ∧ ∀ N : ℕ, N < P.mat.poles.length → P'.prevJ.val i j N = P.J.val i j N ∧
    P'.J.val i j N = (Arr.ofList (P.mat.poles.map (·.alpha g.dt))).val N * P.J.val i j N
      + (Arr.ofList (P.mat.poles.map (·.beta g.dt))).val N * P.prevJ.val i j N
      + P.delta.val i j N / (2 * g.dt) * ((E + P.gain g pE i j (N + 1)) - pE.val i j)

theorem LorentzPol.updateJ_gain {g : Grid ℝ} {P : LorentzPol ℝ} (hP : P.WF g.Nx g.Ny) {pE Ez : Tensor ℝ} (hp : pE.Dim g.Nx g.Ny)
    (hE : Ez.Dim g.Nx g.Ny) : ∃ P' Ez', P.updateJ g (some pE) Ez = .ok (P', Ez') ∧ P'.WF g.Nx g.Ny ∧ Ez'.Dim g.Nx g.Ny ∧
      ∀ i j, 0 ≤ i → i < g.Nx → 0 ≤ j → j < g.Ny →
        Ez'.val i j = Ez.val i j + P.gain g pE i j P.mat.poles.length ∧ P.Moved g P' pE (Ez.val i j) i j := by
  obtain ⟨P', E', h1, h2, h3, h4, h5, h6, h7⟩ := LorentzPol.updateJ_node hP hp hE
  refine ⟨P', E', h1, h2, h3, fun i j i0 i1 j0 j1 => ?_⟩
  have hnp : P.np.toNat = P.mat.poles.length := by rw [hP.np]; simp
  obtain ⟨v1, v2⟩ := h7 i j i0 i1 j0 j1
  rw [hnp] at v1 v2
  refine ⟨?_, h4, h6, fun N hN => ⟨(v2 N hN).1, ?_⟩⟩
  · rw [v1]; unfold LorentzPol.gain; ring
  · rw [(v2 N hN).2]; unfold LorentzPol.gain; ring

/-- The step at a node of a Lorentz medium in a simulation with two of them. -/
theorem Core.Step.twoLorentz {c c' : Core ℝ} {srcs srcs' E2 E3 E4 f} (hc : c.Std) (h : c.Step srcs c' srcs' E2 E3 E4 f)
    {i j : ℤ} (hb : Beyond c.g i j) (hu : Undriven c srcs i j) (hd : c.debye = []) (hr : c.drude = []) {m n : String} {P Q : LorentzPol ℝ}
    {pE : Tensor ℝ} (hpE : c.prevE = some pE) (he : c.lorentz = [(m, P), (n, Q)]) {k : MatKind ℝ} (hm : HasMedium c.f k c.g.dt i j) :
    ∃ P' Q', c'.lorentz = [(m, P'), (n, Q')] ∧ c'.debye = [] ∧ c'.drude = [] ∧ c'.prevE = some c.f.Ez ∧ HasMedium c'.f k c'.g.dt i j ∧
      c'.f.Ez.val i j = k.Ca c.g.dt * c.f.Ez.val i j + k.Cb c.g.dt * curlH c.f c.g.dx i j + P.gain c.g pE i j P.mat.poles.length +
        Q.gain c.g pE i j Q.mat.poles.length ∧
      P.Moved c.g P' pE (k.Ca c.g.dt * c.f.Ez.val i j + k.Cb c.g.dt * curlH c.f c.g.dx i j) i j ∧
      Q.Moved c.g Q' pE (k.Ca c.g.dt * c.f.Ez.val i j + k.Cb c.g.dt * curlH c.f c.g.dx i j + P.gain c.g pE i j P.mat.poles.length) i j := by
  obtain ⟨i0, i1, j0, j1⟩ := Beyond_mem hc.thick hb
  have h1 := h.hd
  rw [hd] at h1
  have h2 := h.hr
  rw [hr] at h2
  have e2 : E2 = c.E1 := (congrArg Prod.snd (Except.ok.inj h1)).symm
  have e3 : E3 = E2 := (congrArg Prod.snd (Except.ok.inj h2)).symm
  have hl := h.hl
  rw [he, hpE] at hl
  have wd := hc.wf.lorentz
  rw [he] at wd
  obtain ⟨P', F1, u1, w1, d1, v1⟩ := LorentzPol.updateJ_gain (P := P) (wd (m, P) (by simp)) (hc.wf.prevE pE hpE) h.d3
  obtain ⟨Q', F2, u2, w2, d2, v2⟩ := LorentzPol.updateJ_gain (P := Q) (wd (n, Q) (by simp)) (hc.wf.prevE pE hpE) d1
  unfold mapUpdateJ mapUpdateJ mapUpdateJ at hl
  rw [u1] at hl
  simp only [Except.ok_bind] at hl
  rw [u2] at hl
  simp only [Except.ok_bind, Except.pure_eq] at hl
  have hE4 : E4 = F2 := (congrArg Prod.snd (Except.ok.inj hl)).symm
  obtain ⟨a1, a2⟩ := v1 i j i0 i1 j0 j1
  obtain ⟨b1, b2⟩ := v2 i j i0 i1 j0 j1
  have eE : E3.val i j = k.Ca c.g.dt * c.f.Ez.val i j + k.Cb c.g.dt * curlH c.f c.g.dx i j := by
    rw [e3, e2, Core.E1_node hc hb, hm.Ca, hm.Cb]
  rw [eE] at a1 a2
  rw [a1] at b1 b2
  refine ⟨P', Q', (congrArg Prod.fst (Except.ok.inj hl)).symm, (congrArg Prod.fst (Except.ok.inj h1)).symm, (congrArg Prod.fst (Except.ok.inj h2)).symm, ?_,
    h.medium hm, ?_, a2, b2⟩
  · rw [h.prevE, hpE]; rfl
  · rw [h.Ez_node hu, hE4, b1]

end Qbox

namespace Qbox.Props
open Qbox Scalar Spec

/-- **C61** for one-to-one renaming: if different names stay different and equal names equal, the names given to materials have no effect on the fields.
False, see `C61_order_false`. -/
def C61_one_to_one : Prop :=
  ∀ (R : String → String → Prop) (_ : OneToOne R) (c : Core ℝ) (_ : c.Std) (srcs : List (Source ℝ)) (_ : ∀ s ∈ srcs, Fits c.g s) (l l' : List (Object ℝ))
    (_ : ∀ x ∈ l, BoxSound x) (_ : ∀ x ∈ l, ClearOfUnguardedEdges c.g x) (_ : List.Forall₂ (Renamed R) l l') (n : ℕ)
    (c1 c2 d1 d2 : Core ℝ) (k1 k2 : List (Source ℝ)), addAll l c = .ok c1 → addAll l' c = .ok c2 → c1.run n srcs = .ok (d1, k1) →
      c2.run n srcs = .ok (d2, k2) → d1.f = d2.f

/-- State after two objects of Lorentz media with different names. -/
theorem twoLorentzMedia {c : Core ℝ} (hc : c.Std) (hd : c.debye = []) (hr : c.drude = []) (hl : c.lorentz = []) {o1 o2 : Object ℝ} (s1 : o1.Safe c.g)
    (s2 : o2.Safe c.g) (cov : o2.Covered c.g) {m1 m2 : Lorentz ℝ} (k1 : o1.mat.kind = .lorentz m1) (k2 : o2.mat.kind = .lorentz m2)
    (hn : o2.mat.name ≠ o1.mat.name) :
    ∃ c2 P Q, addAll [o1, o2] c = .ok c2 ∧ c2.Std ∧ c2.g = c.g ∧ c2.tfsf = c.tfsf ∧ P.mat = m1 ∧ Q.mat = m2 ∧ (∀ x y N, P.J.val x y N = 0) ∧
      (∀ x y N, P.prevJ.val x y N = 0) ∧ (∀ x y N, Q.J.val x y N = 0) ∧ (∀ x y N, Q.prevJ.val x y N = 0) ∧ c2.debye = [] ∧ c2.drude = [] ∧
      c2.prevE = some (c.prevE.getD c.f.Ez) ∧ c2.f = paintAll c.g [o1, o2] c.f ∧
      c2.lorentz = (if o2.mat.name < o1.mat.name then [(o2.mat.name, Q), (o1.mat.name, P)] else [(o1.mat.name, P), (o2.mat.name, Q)]) ∧
      (∀ i j N, o1.inside (c.g.toReal ⟨i, j⟩) = false → P.delta.val i j N = 0) ∧
      ∀ i j, 0 ≤ i → i < c.g.Nx → 0 ≤ j → j < c.g.Ny → o2.inside (c.g.toReal ⟨i, j⟩) = true →
        HasMedium c2.f (.lorentz m2) c2.g.dt i j ∧ ∀ N : ℕ, N < m2.poles.length → Q.delta.val i j N = (Arr.ofList (m2.poles.map (·.delta c.g.dt))).val N := by
  obtain ⟨ca, ia, sa, ga⟩ := hc.insertObject s1
  obtain ⟨cb, ib, sb, gb⟩ := sa.insertObject (by rw [ga]; exact s2)
  have f1 := insertObject_f hc.wf.f s1 ia
  have f2 := insertObject_f sa.wf.f (by rw [ga]; exact s2) ib
  have ex : ∃ P, P.mat = m1 ∧ ca.lorentz = [(o1.mat.name, P)] ∧ (∀ x y N, P.J.val x y N = 0) ∧ (∀ x y N, P.prevJ.val x y N = 0) ∧
      (∀ i j N, o1.inside (c.g.toReal ⟨i, j⟩) = false → P.delta.val i j N = 0) ∧ ca.debye = [] ∧ ca.drude = [] ∧
      ca.prevE = some (c.prevE.getD c.f.Ez) := by
    have h := ia
    unfold Core.insertObject at h
    rw [paintObject_closed hc.wf.f s1, k1, hl] at h
    simp only [Except.ok_bind, Except.bind_ok, addPol, mapFind, mapInsert] at h
    obtain ⟨l, ⟨P, hP, hl'⟩, h⟩ := h
    rw [LorentzPol.insert_closed (LorentzPol.make_wf c.g m1)] at hP
    cases hP
    cases hl'
    cases h
    refine ⟨_, rfl, rfl, fun _ _ _ => rfl, fun _ _ _ => rfl, fun i j N hi => Tensor3.paint_miss hi, hd, hr, by simp only [orInit]; cases c.prevE <;> rfl⟩
  obtain ⟨P, p0, p1, p2, p3, p4, p5, p6, p7⟩ := ex
  have h := ib
  unfold Core.insertObject at h
  rw [paintObject_closed sa.wf.f (by rw [ga]; exact s2), k2, p1, ga] at h
  simp only [Except.ok_bind, Except.bind_ok, addPol, mapFind, if_neg (Ne.symm hn)] at h
  obtain ⟨l, ⟨Q, hQ, hl'⟩, h⟩ := h
  rw [LorentzPol.insert_closed (LorentzPol.make_wf c.g m2)] at hQ
  have hQ := (Except.ok.inj hQ).symm
  have hl' := (Except.ok.inj hl').symm
  have h := (Except.ok.inj h).symm
  refine ⟨cb, P, Q, ?_, sb, gb.trans ga, ?_, p0, by rw [hQ]; rfl, p2, p3, by rw [hQ]; exact fun _ _ _ => rfl, by rw [hQ]; exact fun _ _ _ => rfl,
    by rw [h]; exact p5, by rw [h]; exact p6, ?_, ?_, ?_, p4, ?_⟩
  · unfold addAll
    rw [forList_cons, ia, Except.ok_bind, forList_cons, ib]; rfl
  · rw [(insertObject_parts ib).2.2.1, (insertObject_parts ia).2.2.1]
  · rw [h]; simp only [orInit, p7]
  · rw [f2.1, f1.1, ga]; rfl
  · rw [h]; simp only [hl', mapInsert]
  · intro i j i0 i1 j0 j1 hi
    constructor
    · rw [f2.1, gb, ga]
      have := Flds.paint_hit (f := ca.f) (k := o2.mat.kind) (dt := c.g.dt) (D := scan c.g o2)
        (q := fun x y => o2.inside (c.g.toReal ⟨x, y⟩)) (cov i j i0 i1 j0 j1 hi) hi
      rw [k2] at this ⊢
      exact this
    · intro N hN
      simp only [hQ]
      have hm : (i, j) ∈ rect 0 c.g.Nx 0 c.g.Ny := mem_rect.mpr ⟨⟨i0, i1⟩, j0, j1⟩
      exact (Tensor3.paint_hit (N := (N : ℤ)) hm hi (by positivity) (show (N : ℤ) < (m2.poles.length : ℤ) by exact_mod_cast hN)).trans rfl

/-- How strongly a change of the field acts back at the next update in a Lorentz medium. -/
noncomputable def lorentzWeight (m : Lorentz ℝ) (dt : ℝ) : ℝ :=
  m.Cb dt / 2 * ∑ M ∈ Finset.range m.poles.length,
    (1 + (Arr.ofList (m.poles.map (·.alpha dt))).val M) * ((Arr.ofList (m.poles.map (·.delta dt))).val M / (2 * dt))

theorem gain_still {g : Grid ℝ} {P : LorentzPol ℝ} {pE : Tensor ℝ} {i j : ℤ} {n : ℕ} (h1 : ∀ N : ℕ, N < n → P.J.val i j N = 0) (h2 : ∀ N : ℕ, N < n → P.prevJ.val i j N = 0) :
    P.gain g pE i j n = n * (P.mat.CaPrev g.dt * pE.val i j) := by
  unfold LorentzPol.gain
  rw [Finset.sum_eq_zero fun N hN => by rw [h1 N (Finset.mem_range.mp hN), h2 N (Finset.mem_range.mp hN)]; ring]
  ring

theorem gain_first {g : Grid ℝ} {P : LorentzPol ℝ} {pE : Tensor ℝ} {i j : ℤ} {n : ℕ} (h2 : ∀ N : ℕ, N < n → P.prevJ.val i j N = 0) :
    P.gain g pE i j n = n * (P.mat.CaPrev g.dt * pE.val i j) - P.mat.Cb g.dt / 2 *
      ∑ M ∈ Finset.range n, (1 + (Arr.ofList (P.mat.poles.map (·.alpha g.dt))).val M) * P.J.val i j M := by
  unfold LorentzPol.gain
  rw [Finset.sum_congr rfl fun N hN => by rw [h2 N (Finset.mem_range.mp hN), mul_zero, add_zero]]

/-- **C61, what the code does**: two objects of Lorentz media with different names. The media are updated in the alphabetical order of their names and each
adds a term at every node of the grid, so the second sees a field at its nodes that the first does not. After two updates the field at a node of the second
object depends on which name comes first. -/
theorem C61_order_effect (c : Core ℝ) (hc : c.Std) (hd : c.debye = []) (hr : c.drude = []) (hl : c.lorentz = [])
    (srcs : List (Source ℝ)) (hf : ∀ s ∈ srcs, Fits c.g s) (o1 o2 : Object ℝ) (n1 n2 n1' n2' : String) (lt : n1 < n2) (lt' : n2' < n1')
    (hsound : ∀ x ∈ [o1, o2], BoxSound x) (hclear : ∀ x ∈ [o1, o2], ClearOfUnguardedEdges c.g x)
    (m1 m2 : Lorentz ℝ) (k1 : o1.mat.kind = .lorentz m1) (k2 : o2.mat.kind = .lorentz m2)
    (i j : ℤ) (hb : Beyond c.g i j) (hu : Undriven c srcs i j) (hi : o2.inside (c.g.toReal ⟨i, j⟩) = true)
    (hi1 : o1.inside (c.g.toReal ⟨i, j⟩) = false) :
    ∃ c1 c2 a1 b1 a2 b2 l1 l1' l2 l2', addAll [{ o1 with mat := ⟨n1, o1.mat.kind⟩ }, { o2 with mat := ⟨n2, o2.mat.kind⟩ }] c = .ok c1 ∧
      addAll [{ o1 with mat := ⟨n1', o1.mat.kind⟩ }, { o2 with mat := ⟨n2', o2.mat.kind⟩ }] c = .ok c2 ∧
      c1.run 1 srcs = .ok (a1, l1) ∧ c2.run 1 srcs = .ok (b1, l1') ∧ c1.run 2 srcs = .ok (a2, l2) ∧ c2.run 2 srcs = .ok (b2, l2') ∧
      (a1.f = b1.f → b2.f.Ez.val i j - a2.f.Ez.val i j =
        lorentzWeight m2 c.g.dt * (m1.poles.length * m1.CaPrev c.g.dt * (c.prevE.getD c.f.Ez).val i j)) := by
  obtain ⟨i0, i1, j0, j1⟩ := Beyond_mem hc.thick hb
  have s1 : o1.Safe c.g := safe_of_clear hc.law (hclear o1 (by simp))
  have s2 : o2.Safe c.g := safe_of_clear hc.law (hclear o2 (by simp))
  have cov : o2.Covered c.g := covered_of_sound hc.law (hsound o2 (by simp))
  obtain ⟨A, P, Q, a1, a2, a3, a4, a5, a6, a7, a8, a9, a10, a11, a12, a13, a14, a15, a16, a17⟩ := twoLorentzMedia hc hd hr hl
    (o1 := { o1 with mat := ⟨n1, o1.mat.kind⟩ }) (o2 := { o2 with mat := ⟨n2, o2.mat.kind⟩ }) s1 s2 cov k1 k2 (ne_of_gt lt)
  obtain ⟨B, P', Q', b1, b2, b3, b4, b5, b6, b7, b8, b9, b10, b11, b12, b13, b14, b15, b16, b17⟩ := twoLorentzMedia hc hd hr hl
    (o1 := { o1 with mat := ⟨n1', o1.mat.kind⟩ }) (o2 := { o2 with mat := ⟨n2', o2.mat.kind⟩ }) s1 s2 cov k1 k2 (ne_of_lt lt')
  rw [if_neg (not_lt.mpr lt.le)] at a15
  rw [if_pos lt'] at b15
  obtain ⟨medA, dQ⟩ := a17 i j i0 i1 j0 j1 hi
  obtain ⟨medB, dQ'⟩ := b17 i j i0 i1 j0 j1 hi
  have dP := fun N => a16 i j N hi1
  have dP' := fun N => b16 i j N hi1
  have fAB : A.f = B.f := by rw [a14, b14]; rfl
  have gAB : A.g = B.g := by rw [a3, b3]
  have uA : Undriven A srcs i j := ⟨by rw [a3]; exact hu.src, by rw [a4]; exact hu.tfsf⟩
  have uB : Undriven B srcs i j := ⟨by rw [b3]; exact hu.src, by rw [b4]; exact hu.tfsf⟩
  obtain ⟨A1, kA, _, _, _, _, uA1, SA⟩ := Core.update_step a2 srcs (by rw [a3]; exact hf)
  obtain ⟨A2, kA2, _, _, _, _, uA2, SA2⟩ := Core.update_step SA.std kA SA.fits
  obtain ⟨B1, kB, _, _, _, _, uB1, SB⟩ := Core.update_step b2 srcs (by rw [b3]; exact hf)
  obtain ⟨B2, kB2, _, _, _, _, uB2, SB2⟩ := Core.update_step SB.std kB SB.fits
  have bA : Beyond A.g i j := by rw [a3]; exact hb
  have bB : Beyond B.g i j := by rw [b3]; exact hb
  obtain ⟨PA, QA, x1, x2, x3, x4, x5, x6, ⟨x7, x7', x8⟩, x9, x9', x10⟩ := SA.twoLorentz a2 bA uA a11 a12 a13 a15 medA
  obtain ⟨QB, PB, y1, y2, y3, y4, y5, y6, ⟨y7, y7', y8⟩, y9, y9', y10⟩ := SB.twoLorentz b2 bB uB b11 b12 b13 b15 medB
  obtain ⟨_, _, -, -, -, -, -, z1, -, -⟩ := SA2.twoLorentz SA.std (by rw [SA.g]; exact bA) (SA.undriven a2 uA) x2 x3 x4 x1 x5
  obtain ⟨_, _, -, -, -, -, -, z2, -, -⟩ := SB2.twoLorentz SB.std (by rw [SB.g]; exact bB) (SB.undriven b2 uB) y2 y3 y4 y1 y5
  refine ⟨A, B, A1, B1, A2, B2, kA, kB, kA2, kB2, a1, b1, ?_, ?_, ?_, ?_, fun ef => ?_⟩
  · unfold Core.run; rw [uA1]; rfl
  · unfold Core.run; rw [uB1]; rfl
  · unfold Core.run; rw [uA1]; simp only [Except.ok_bind]; unfold Core.run; rw [uA2]; rfl
  · unfold Core.run; rw [uB1]; simp only [Except.ok_bind]; unfold Core.run; rw [uB2]; rfl
  · have gA : A1.g = c.g := by rw [SA.g, a3]
    have gB : B1.g = c.g := by rw [SB.g, b3]
    rw [a3] at x8 x10
    rw [b3] at y8 y10
    -- the medium without poles at the node stays still
    have jPA : ∀ N : ℕ, N < m1.poles.length → PA.J.val i j N = 0 ∧ PA.prevJ.val i j N = 0 := by
      intro N hN
      obtain ⟨q1, q2⟩ := x8 N (by rw [a5]; exact hN)
      rw [q1, q2, a7, a8, dP]
      exact ⟨by ring, rfl⟩
    have jPB : ∀ N : ℕ, N < m1.poles.length → PB.J.val i j N = 0 ∧ PB.prevJ.val i j N = 0 := by
      intro N hN
      obtain ⟨q1, q2⟩ := y10 N (by rw [b5]; exact hN)
      rw [q1, q2, b7, b8, dP']
      exact ⟨by ring, rfl⟩
    have vQA : ∀ N : ℕ, N < m2.poles.length → QA.prevJ.val i j N = 0 := by
      intro N hN
      rw [(x10 N (by rw [a6]; exact hN)).1, a9]
    have vQB : ∀ N : ℕ, N < m2.poles.length → QB.prevJ.val i j N = 0 := by
      intro N hN
      rw [(y8 N (by rw [b6]; exact hN)).1, b9]
    -- the difference of the currents
    have dJ : ∀ N : ℕ, N < m2.poles.length → QA.J.val i j N - QB.J.val i j N = (Arr.ofList (m2.poles.map (·.delta c.g.dt))).val N / (2 * c.g.dt) *
        (m1.poles.length * m1.CaPrev c.g.dt * (c.prevE.getD c.f.Ez).val i j) := by
      intro N hN
      have q1 := (x10 N (by rw [a6]; exact hN)).2
      have q2 := (y8 N (by rw [b6]; exact hN)).2
      rw [a9, a10, dQ N hN] at q1
      rw [b9, b10, dQ' N hN] at q2
      rw [q1, q2, gain_still (P := Q) (fun _ _ => a9 _ _ _) (fun _ _ => a10 _ _ _), gain_still (P := Q') (fun _ _ => b9 _ _ _) (fun _ _ => b10 _ _ _),
        gain_still (P := P) (fun _ _ => a7 _ _ _) (fun _ _ => a8 _ _ _), a5, a6, b6, fAB]
      ring
    have mPA : PA.mat = m1 := x7.trans a5
    have mPB : PB.mat = m1 := y9.trans b5
    have mQA : QA.mat = m2 := x9.trans a6
    have mQB : QB.mat = m2 := y7.trans b6
    rw [gA, gain_still (P := PA) (by rw [mPA]; exact fun N h => (jPA N h).1) (by rw [mPA]; exact fun N h => (jPA N h).2),
      gain_first (P := QA) (by rw [mQA]; exact vQA), mPA, mQA] at z1
    rw [gB, gain_still (P := PB) (by rw [mPB]; exact fun N h => (jPB N h).1) (by rw [mPB]; exact fun N h => (jPB N h).2),
      gain_first (P := QB) (by rw [mQB]; exact vQB), mPB, mQB] at z2
    have sums : ∑ M ∈ Finset.range m2.poles.length, (1 + (Arr.ofList (m2.poles.map (·.alpha c.g.dt))).val M) * QA.J.val i j M -
        ∑ M ∈ Finset.range m2.poles.length, (1 + (Arr.ofList (m2.poles.map (·.alpha c.g.dt))).val M) * QB.J.val i j M =
        (∑ M ∈ Finset.range m2.poles.length, (1 + (Arr.ofList (m2.poles.map (·.alpha c.g.dt))).val M) *
          ((Arr.ofList (m2.poles.map (·.delta c.g.dt))).val M / (2 * c.g.dt))) *
        (m1.poles.length * m1.CaPrev c.g.dt * (c.prevE.getD c.f.Ez).val i j) := by
      rw [← Finset.sum_sub_distrib, Finset.sum_mul]
      exact Finset.sum_congr rfl fun N hN => by rw [← mul_sub, dJ N (Finset.mem_range.mp hN)]; ring
    rw [z1, z2, ef, fAB]
    unfold lorentzWeight
    rw [mul_assoc, ← sums]
    ring

/-- **C61 is false even for one-to-one renaming**: two discs of the same Lorentz medium that do not touch, called `a` and `b` or `b` and `a`. -/
theorem C61_order_false : ¬ C61_one_to_one := by
  intro H
  obtain ⟨c0, h1, h2, h3, h4⟩ := gEx_std
  obtain ⟨n1, n2, n3⟩ := Core.make_no_pol h1
  have hc := withEz_std h2 fun _ _ => 1
  have hg : (withEz c0 fun _ _ => 1).g = gEx := h3
  obtain ⟨c, hcc⟩ : ∃ c, c = withEz c0 fun _ _ => 1 := ⟨_, rfl⟩
  have hd : c.debye = [] := by rw [hcc]; exact n1
  have hr : c.drude = [] := by rw [hcc]; exact n2
  have hl : c.lorentz = [] := by rw [hcc]; exact n3
  have hp : (c.prevE.getD c.f.Ez).val 10 10 = 1 := by
    have : c0.prevE = none := by
      have h := h1
      unfold Core.make at h
      simp only [Except.bind_ok] at h
      obtain ⟨_, -, _, -, _, -, h⟩ := h
      cases h
      rfl
    rw [hcc]
    show (c0.prevE.getD _).val 10 10 = 1
    rw [this]; rfl
  have hu : Undriven c [] 10 10 := by
    refine ⟨by simp, fun w hw => ?_⟩
    have : c0.tfsf = some w := by rw [hcc] at hw; exact hw
    rw [h4.tfsf] at this; cases this
  rw [← hcc] at hc hg
  have sound : ∀ x ∈ [disc ⟨"a", .lorentz stiff⟩ 5 10, disc ⟨"b", .lorentz stiff⟩ 10 10], BoxSound x := by simp [disc_sound]
  have clear : ∀ x ∈ [disc ⟨"a", .lorentz stiff⟩ 5 10, disc ⟨"b", .lorentz stiff⟩ 10 10], ClearOfUnguardedEdges c.g x := by
    rw [hg]
    intro o ho
    simp only [List.mem_cons, List.not_mem_nil, or_false] at ho
    rcases ho with rfl | rfl <;> exact disc_clear _ (by norm_num) (by norm_num)
  have out : (disc ⟨"a", .lorentz stiff⟩ 5 10).inside (c.g.toReal ⟨10, 10⟩) = false := by
    rw [hg, Bool.eq_false_iff, ne_eq, disc_inside]
    simp only [Grid.toReal, gEx_dx, ofInt_real]
    norm_num
  obtain ⟨c1, c2, a1, b1, a2, b2, l1, l1', l2, l2', r1, r2, r3, r4, r5, r6, E⟩ := C61_order_effect c hc hd hr hl [] (by simp)
    (disc ⟨"a", .lorentz stiff⟩ 5 10) (disc ⟨"b", .lorentz stiff⟩ 10 10) "a" "b" "b" "a" (by decide) (by decide) sound clear _ _ rfl rfl 10 10
    (by rw [hg]; exact gEx_beyond (by norm_num) (by norm_num) (by norm_num) (by norm_num)) hu (by rw [hg]; exact disc_center _) out
  have one : OneToOne fun a a' => (a = "a" ∧ a' = "b") ∨ (a = "b" ∧ a' = "a") := by
    rintro a a' b b' (⟨rfl, rfl⟩ | ⟨rfl, rfl⟩) (⟨rfl, rfl⟩ | ⟨rfl, rfl⟩) <;> decide
  have ren : List.Forall₂ (Renamed fun a a' => (a = "a" ∧ a' = "b") ∨ (a = "b" ∧ a' = "a")) [disc ⟨"a", .lorentz stiff⟩ 5 10, disc ⟨"b", .lorentz stiff⟩ 10 10]
      [disc ⟨"b", .lorentz stiff⟩ 5 10, disc ⟨"a", .lorentz stiff⟩ 10 10] :=
    .cons ⟨rfl, Or.inr (Or.inl ⟨rfl, rfl⟩)⟩ (.cons ⟨rfl, Or.inr (Or.inr ⟨rfl, rfl⟩)⟩ .nil)
  have e1 := H _ one c hc [] (by simp) _ _ sound clear ren 1 c1 c2 a1 b1 l1 l1' r1 r2 r3 r4
  have e2 := H _ one c hc [] (by simp) _ _ sound clear ren 2 c1 c2 a2 b2 l2 l2' r1 r2 r5 r6
  have := E e1
  have dt : c.g.dt = 1 / 2 := by rw [hg]; exact gEx_dt
  rw [e2, sub_self, hp, dt, stiff_CaPrev] at this
  unfold lorentzWeight at this
  rw [stiff_Cb] at this
  norm_num [stiff, Arr.ofList, LorentzPole.alpha, LorentzPole.delta] at this

theorem TwinCore.addAll {R : String → String → Prop} (hR : OneToOne R) {L : List (Object ℝ)} : ∀ {l l' : List (Object ℝ)}, List.Forall₂ (Renamed R) l l' →
    ∀ {c c' : Core ℝ}, TwinCore R L c c' → (∀ o ∈ l, o ∈ L) → (∀ o ∈ l, o.Safe c.g) →
      ∃ d d', Props.addAll l c = .ok d ∧ Props.addAll l' c' = .ok d' ∧ d.g = c.g ∧ TwinCore R L d d'
  | _, _, .nil, c, c', h, _, _ => ⟨c, c', rfl, rfl, rfl, h⟩
  | o :: l, o' :: l', .cons hr hl, c, c', h, hm, hs => by
    obtain ⟨d, d', h1, h2, g, t⟩ := h.insertObject hR (hm o (by simp)) (hs o (by simp)) hr
    obtain ⟨e, e', h3, h4, g', t'⟩ := TwinCore.addAll hR hl t (fun x hx => hm x (by simp [hx])) (by rw [g]; exact fun x hx => hs x (by simp [hx]))
    refine ⟨e, e', ?_, ?_, by rw [g', g], t'⟩
    · unfold Props.addAll at h3 ⊢
      rw [forList_cons, h1]
      exact h3
    · unfold Props.addAll at h4 ⊢
      rw [forList_cons, h2]
      exact h4

/-- **C61 for names in any order**: if different names stay different and all Lorentz media have one name, then the fields do not depend on the names, after any
number of updates and with any sources. Debye media and Drude media may overlap: the poles at a node are filters in a row, which give the same output in
every order. What is missing: several Lorentz media; there it is false, see `C61_order_false`. -/
theorem C61_any_order_partial (R : String → String → Prop) (hR : OneToOne R) (c : Core ℝ) (hc : c.Std) (hd : c.debye = []) (hr : c.drude = [])
    (hl : c.lorentz = []) (srcs : List (Source ℝ)) (hf : ∀ s ∈ srcs, Fits c.g s) (l l' : List (Object ℝ))
    (hclear : ∀ x ∈ l, ClearOfUnguardedEdges c.g x) (hone : OneLorentz l) (hren : List.Forall₂ (Renamed R) l l') :
    ∃ c1 c2, addAll l c = .ok c1 ∧ addAll l' c = .ok c2 ∧ ∀ n, ∃ d1 d2 k, c1.run n srcs = .ok (d1, k) ∧ c2.run n srcs = .ok (d2, k) ∧ d2.f = d1.f := by
  have nil : ∀ {α : Type}, Twins R ([] : List (String × String × α)) [] [] := ⟨List.Perm.refl _, List.Perm.refl _, by simp, by simp⟩
  have h0 : TwinCore R l c c := by
    refine ⟨hc, hc, ⟨by rw [hd]; simp, by rw [hr]; simp⟩, rfl, ⟨[], ?_⟩, ⟨[], ?_⟩, ⟨[], ?_, by simp⟩⟩
    · rw [hd]; exact nil
    · rw [hr]; exact nil
    · rw [hl]; exact nil
  obtain ⟨c1, c2, h1, h2, g, t⟩ := TwinCore.addAll hR hren h0 (fun _ h => h) fun o ho => safe_of_clear hc.law (hclear o ho)
  refine ⟨c1, c2, h1, h2, fun n => ?_⟩
  obtain ⟨d, d', k, h3, h4, t'⟩ := (t.alike hone).run n srcs (by rw [g]; exact hf)
  exact ⟨d, d', k, h3, h4, by rw [t'.parts.same]⟩

/-- The hypotheses of `C61_any_order_partial`: two Debye discs that overlap, called `a` and `b` or `b` and `a`, on a Drude disc and a Lorentz disc. -/
example : OneToOne (fun a a' => (a = "a" ∧ a' = "b") ∨ (a = "b" ∧ a' = "a")) ∧
    OneLorentz [disc ⟨"a", .drude ⟨1, [⟨1, 1⟩]⟩⟩ 7 10, disc ⟨"a", .lorentz stiff⟩ 7 10, disc ⟨"a", .debye twoDebye⟩ 9 10, disc ⟨"b", .debye twoDebye⟩ 10 10] ∧
    (∀ x ∈ [disc ⟨"a", .drude ⟨1, [⟨1, 1⟩]⟩⟩ 7 10, disc ⟨"a", .lorentz stiff⟩ 7 10, disc ⟨"a", .debye twoDebye⟩ 9 10, disc ⟨"b", .debye twoDebye⟩ 10 10],
      ClearOfUnguardedEdges gEx x) ∧
    List.Forall₂ (Renamed fun a a' => (a = "a" ∧ a' = "b") ∨ (a = "b" ∧ a' = "a"))
      [disc ⟨"a", .drude ⟨1, [⟨1, 1⟩]⟩⟩ 7 10, disc ⟨"a", .lorentz stiff⟩ 7 10, disc ⟨"a", .debye twoDebye⟩ 9 10, disc ⟨"b", .debye twoDebye⟩ 10 10]
      [disc ⟨"b", .drude ⟨1, [⟨1, 1⟩]⟩⟩ 7 10, disc ⟨"b", .lorentz stiff⟩ 7 10, disc ⟨"b", .debye twoDebye⟩ 9 10, disc ⟨"a", .debye twoDebye⟩ 10 10] ∧
    (∃ p, (disc ⟨"a", .debye twoDebye⟩ 9 10).inside p = true ∧ (disc ⟨"b", .debye twoDebye⟩ 10 10).inside p = true) := by
  refine ⟨?_, ?_, ?_, .cons ⟨rfl, Or.inr (Or.inl ⟨rfl, rfl⟩)⟩ (.cons ⟨rfl, Or.inr (Or.inl ⟨rfl, rfl⟩)⟩
    (.cons ⟨rfl, Or.inr (Or.inl ⟨rfl, rfl⟩)⟩ (.cons ⟨rfl, Or.inr (Or.inr ⟨rfl, rfl⟩)⟩ .nil))), ⟨⟨19 / 2, 10⟩, ?_⟩⟩
  · rintro a a' b b' (⟨rfl, rfl⟩ | ⟨rfl, rfl⟩) (⟨rfl, rfl⟩ | ⟨rfl, rfl⟩) <;> decide
  · intro o ho o' ho' ⟨m, k⟩ ⟨m', k'⟩
    simp only [List.mem_cons, List.not_mem_nil, or_false] at ho ho'
    rcases ho with rfl | rfl | rfl | rfl <;> rcases ho' with rfl | rfl | rfl | rfl <;> first | (cases k; done) | (cases k'; done) | rfl
  · intro o ho
    simp only [List.mem_cons, List.not_mem_nil, or_false] at ho
    rcases ho with rfl | rfl | rfl | rfl <;> exact disc_clear _ (by norm_num) (by norm_num)
  · rw [disc_inside, disc_inside]
    norm_num

end Qbox.Props
