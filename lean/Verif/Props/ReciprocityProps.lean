import Verif.Spec.ReciprocitySpec
import Verif.Lemmas.RecipRun
import Verif.Props.CoverProps
import Verif.Props.RestartFalse

/-!
# C76: reciprocity

A point source and a point of observation can change places: the observed signal stays the same, whatever objects stand around.
-/

namespace Qbox.Props
open Qbox Scalar Spec PowerSeries

theorem nodeFilt_const (c : Core ℝ) (i j : ℤ) : constantCoeff (nodeFilt c i j) = 1 := by
  unfold nodeFilt
  simp only [map_mul]
  rw [listFilt_const (fun P => ?_) c.lorentz, listFilt_const (fun P => ?_) c.drude, listFilt_const (fun P => ?_) c.debye]
  · norm_num
  · exact chain_const (by simp) _ _ _
  · exact chain_const (by simp) _ _ _
  · exact chain_const (by simp) _ _ _

theorem nodeFilt_same {c : Core ℝ} {i j k l : ℤ} (h : SameMatter c i j k l) : nodeFilt c i j = nodeFilt c k l := by
  unfold nodeFilt
  rw [listFilt_congr c.lorentz (F := lorentzFilt c.g i j) (G := lorentzFilt c.g k l) fun q hq => ?_,
    listFilt_congr c.drude (F := drudeFilt c.g i j) (G := drudeFilt c.g k l) fun q hq => ?_,
    listFilt_congr c.debye (F := debyeFilt c.g i j) (G := debyeFilt c.g k l) fun q hq => ?_]
  · exact chain_congr _ _ _ fun n hn => by beta_reduce; rw [h.debye q hq n (by omega) (by omega)]
  · exact chain_congr _ _ _ fun n hn => by beta_reduce; rw [h.drude q hq n (by omega) (by omega)]
  · exact chain_congr _ _ _ fun n hn => by beta_reduce; rw [h.lorentz q hq n (by omega) (by omega)]

theorem nodeFilt_simple {c : Core ℝ} {m : Simple ℝ} {i j : ℤ} (h : InSimple c m i j) : nodeFilt c i j = 1 := by
  unfold nodeFilt
  rw [listFilt_quiet c.lorentz fun q hq => ?_, listFilt_quiet c.drude fun q hq => ?_, listFilt_quiet c.debye fun q hq => ?_]
  · norm_num
  · exact chain_quiet _ _ _ fun n hn => by simp [(h.debye q hq n (by omega) (by omega)).2]
  · exact chain_quiet _ _ _ fun n hn => by simp [(h.drude q hq n (by omega) (by omega)).2]
  · exact chain_quiet _ _ _ fun n hn => by simp [(h.lorentz q hq n (by omega) (by omega)).2.2]

theorem added_point {c : Core ℝ} {s : Source ℝ} {i j : ℤ} (h : EmitsAt c.g s i j) :
    (∀ x y n, added c [s] .Hx x y n = 0) ∧ (∀ x y n, added c [s] .Hy x y n = 0) ∧
      ∀ x y n, added c [s] .Ez x y n = if (x, y) = (i, j) then s.tp.resp (c.t + n * c.g.dt + c.g.dt) else 0 := by
  obtain ⟨p, h1, h2⟩ := h
  have e : ∀ C x y n, added c [s] C x y n = open Classical in if C = .Ez ∧ x = i ∧ y = j then s.tp.resp (c.t + n * c.g.dt + c.g.dt) else 0 := by
    intro C x y n
    classical
    simp only [added, totalContrib, List.map_cons, List.map_nil, List.sum_cons, List.sum_nil, add_zero, contrib]
    refine if_congr ?_ rfl rfl
    simp only [Drives, h1, h2, V2.mk.injEq]
  refine ⟨fun x y n => ?_, fun x y n => ?_, fun x y n => ?_⟩
  · rw [e, if_neg (by simp)]
  · rw [e, if_neg (by simp)]
  · rw [e]
    classical
    refine if_congr ?_ rfl rfl
    simp

/-- Reciprocity of two runs from silence, as power series in the step. -/
theorem reciprocal_series {c : Core ℝ} (hc : c.Std) (hz : Silent c) {sa sb : Source ℝ} {ia ja ib jb : ℤ} (ha : EmitsAt c.g sa ia ja)
    (hb : EmitsAt c.g sb ib jb) (hr : sb.tp.resp = sa.tp.resp) (na : Beyond c.g ia ja) (nb : Beyond c.g ib jb)
    {cs ds : ℕ → Core ℝ} {ls ms : ℕ → List (Source ℝ)} {E2 E3 E4 F2 F3 F4 : ℕ → Tensor ℝ} {fs hs : ℕ → Flds ℝ}
    (ta : Trace c [sa] cs ls E2 E3 E4 fs) (tb : Trace c [sb] ds ms F2 F3 F4 hs) :
    nodeFilt c ib jb * C (c.f.Cb.val ib jb / c.g.dx) * serE ds ia ja = nodeFilt c ia ja * C (c.f.Cb.val ia ja / c.g.dx) * serE cs ib jb := by
  obtain ⟨a1, a2, a3, a4⟩ := na
  obtain ⟨b1, b2, b3, b4⟩ := nb
  have T0 : 0 ≤ c.g.T := by rcases hc.thick with h | h <;> omega
  obtain ⟨M, hM⟩ := Int.eq_ofNat_of_zero_le (show 0 ≤ c.g.Nx - 2 by omega)
  obtain ⟨L, hL⟩ := Int.eq_ofNat_of_zero_le (show 0 ≤ c.g.Ny - 2 by omega)
  obtain ⟨k1, hk1⟩ := Int.eq_ofNat_of_zero_le (show 0 ≤ ia - 1 by omega)
  obtain ⟨l1, hl1⟩ := Int.eq_ofNat_of_zero_le (show 0 ≤ ja - 1 by omega)
  obtain ⟨k2, hk2⟩ := Int.eq_ofNat_of_zero_le (show 0 ≤ ib - 1 by omega)
  obtain ⟨l2, hl2⟩ := Int.eq_ofNat_of_zero_le (show 0 ≤ jb - 1 by omega)
  obtain rfl : ia = k1 + 1 := by omega
  obtain rfl : ja = l1 + 1 := by omega
  obtain rfl : ib = k2 + 1 := by omega
  obtain rfl : jb = l2 + 1 := by omega
  have hM' : c.g.Nx = M + 2 := by omega
  have hL' : c.g.Ny = L + 2 := by omega
  obtain ⟨x1, x2, x3⟩ := added_point ha
  obtain ⟨y1, y2, y3⟩ := added_point hb
  rw [hr] at y3
  have o1 := ta.obeys hz hM' hL' (by omega) (by omega) (by omega) (by omega) x1 x2 x3
  have o2 := tb.obeys hz hM' hL' (by omega) (by omega) (by omega) (by omega) y1 y2 y3
  exact Wave.reciprocal (waveOf_good hc hM' hL' (by omega) (by omega)) (by omega) (by omega) (by omega) (by omega) o1 o2
    (stretch_beyond ⟨a1, a2, a3, a4⟩).1 (stretch_beyond ⟨a1, a2, a3, a4⟩).2 (stretch_beyond ⟨b1, b2, b3, b4⟩).1 (stretch_beyond ⟨b1, b2, b3, b4⟩).2

/-- **C76.** Two runs of the same simulation from silence, one with a source of `Ez` at the node `a`, the other with a source of the same signal at the
node `b`. If there is the same matter at both nodes, then at all times the first run has at `b` the electric field that the second has at `a`. Objects of
any shape and medium, dispersive ones too, and the absorbing layer may be anywhere else. -/
theorem C76_reciprocity (c : Core ℝ) (hc : c.Std) (hz : Silent c) (sa sb : Source ℝ) (ia ja ib jb : ℤ) (ha : EmitsAt c.g sa ia ja)
    (hb : EmitsAt c.g sb ib jb) (fa : Fits c.g sa) (fb : Fits c.g sb) (hr : sb.tp.resp = sa.tp.resp) (na : Beyond c.g ia ja) (nb : Beyond c.g ib jb)
    (hm : SameMatter c ia ja ib jb) (h0 : c.f.Cb.val ia ja ≠ 0) (n : ℕ) :
    ∃ ca la cb lb, c.run n [sa] = .ok (ca, la) ∧ c.run n [sb] = .ok (cb, lb) ∧ ca.f.Ez.val ib jb = cb.f.Ez.val ia ja := by
  obtain ⟨cs, ls, E2, E3, E4, fs, ta⟩ := Core.trace hc [sa] (by simpa using fa)
  obtain ⟨ds, ms, F2, F3, F4, hs, tb⟩ := Core.trace hc [sb] (by simpa using fb)
  have e := reciprocal_series hc hz ha hb hr na nb ta tb
  rw [← nodeFilt_same hm, ← hm.Cb] at e
  have k : nodeFilt c ia ja * C (c.f.Cb.val ia ja / c.g.dx) ≠ 0 := series_ne (by
    simp only [map_mul, nodeFilt_const, constantCoeff_C, one_mul]
    exact div_ne_zero h0 hc.law.dx.ne')
  exact ⟨cs n, ls n, ds n, ms n, ta.run n, tb.run n, ser_inj (mul_left_cancel₀ k e).symm n⟩

theorem weight_Cb {m : Simple ℝ} {dt : ℝ} (hdt : 0 < dt) (he : 0 < m.eps) (hs : 0 ≤ m.conduc) : weight m dt * m.Cb dt = 1 := by
  have : 0 < 1 + m.conduc * dt / (2 * m.eps) := by positivity
  simp only [weight, Simple.Cb, ofInt_real]
  push_cast
  field_simp

/-- **C76** between different materials without dispersion: the fields are in the inverse ratio of the weights of the two materials. -/
theorem C76_weighted (c : Core ℝ) (hc : c.Std) (hz : Silent c) (sa sb : Source ℝ) (ia ja ib jb : ℤ) (ha : EmitsAt c.g sa ia ja)
    (hb : EmitsAt c.g sb ib jb) (fa : Fits c.g sa) (fb : Fits c.g sb) (hr : sb.tp.resp = sa.tp.resp) (na : Beyond c.g ia ja) (nb : Beyond c.g ib jb)
    (ma mb : Simple ℝ) (hma : InSimple c ma ia ja) (hmb : InSimple c mb ib jb) (pa : 0 < ma.eps ∧ 0 ≤ ma.conduc) (pb : 0 < mb.eps ∧ 0 ≤ mb.conduc)
    (n : ℕ) : ∃ ca la cb lb, c.run n [sa] = .ok (ca, la) ∧ c.run n [sb] = .ok (cb, lb) ∧
      weight mb c.g.dt * ca.f.Ez.val ib jb = weight ma c.g.dt * cb.f.Ez.val ia ja := by
  obtain ⟨cs, ls, E2, E3, E4, fs, ta⟩ := Core.trace hc [sa] (by simpa using fa)
  obtain ⟨ds, ms, F2, F3, F4, hs, tb⟩ := Core.trace hc [sb] (by simpa using fb)
  have e := reciprocal_series hc hz ha hb hr na nb ta tb
  have hdt : 0 < c.g.dt := by have := hc.law.dx; rw [hc.law.dt]; linarith
  have e1 : c.f.Cb.val ia ja = ma.Cb c.g.dt := hma.medium.Cb
  have e2 : c.f.Cb.val ib jb = mb.Cb c.g.dt := hmb.medium.Cb
  rw [nodeFilt_simple hma, nodeFilt_simple hmb, one_mul, one_mul, e1, e2] at e
  have e3 := congrArg (coeff n) e
  rw [coeff_C_mul, coeff_C_mul, serE, serE, ser_coeff, ser_coeff] at e3
  refine ⟨cs n, ls n, ds n, ms n, ta.run n, tb.run n, ?_⟩
  have wa := weight_Cb hdt pa.1 pa.2
  have wb := weight_Cb hdt pb.1 pb.2
  have dx := hc.law.dx.ne'
  have e4 : mb.Cb c.g.dt * (ds n).f.Ez.val ia ja = ma.Cb c.g.dt * (cs n).f.Ez.val ib jb := by
    field_simp at e3
    linarith
  linear_combination (-weight ma c.g.dt * weight mb c.g.dt) * e4 + weight ma c.g.dt * (ds n).f.Ez.val ia ja * wb
    - weight mb c.g.dt * (cs n).f.Ez.val ib jb * wa

/-- In a new simulation there is vacuum at every node. -/
theorem make_vacuum {g : Grid ℝ} {c : Core ℝ} (h : Core.make g = .ok c) {i j : ℤ} (i0 : 0 ≤ i) (i1 : i < g.Nx) (j0 : 0 ≤ j) (j1 : j < g.Ny) :
    InSimple c vacuum i j := by
  obtain ⟨n1, n2, n3⟩ := Core.make_no_pol h
  refine ⟨by rw [n1]; simp, by rw [n2]; simp, by rw [n3]; simp, ?_⟩
  unfold Core.make at h
  simp only [Except.bind_ok] at h
  obtain ⟨f, h1, _, -, _, -, h⟩ := h
  cases h
  rw [clearMaterials_closed (f := ⟨.const g.Nx g.Ny 0, .const g.Nx g.Ny 0, .const g.Nx g.Ny 0, .const g.Nx g.Ny 0,
    .const g.Nx g.Ny 0, .const g.Nx g.Ny 0, .const g.Nx g.Ny 0⟩) ⟨⟨rfl, rfl⟩, ⟨rfl, rfl⟩, ⟨rfl, rfl⟩, ⟨rfl, rfl⟩, ⟨rfl, rfl⟩,
    ⟨rfl, rfl⟩, ⟨rfl, rfl⟩⟩] at h1
  cases h1
  exact Flds.paint_hit (q := fun _ _ => true) (mem_rect.mpr ⟨⟨i0, i1⟩, j0, j1⟩) rfl

theorem paint3_same {b : Tensor3 ℝ} {vals : ℤ → ℝ} {q : ℤ → ℤ → Bool} {D : Finset (ℤ × ℤ)} {i j k l N : ℤ} (hm : (i, j) ∈ D) (hm' : (k, l) ∈ D)
    (hq : q i j = q k l) (h : b.val i j N = b.val k l N) : (b.paint vals q D).val i j N = (b.paint vals q D).val k l N := by
  unfold Tensor3.paint Tensor3.setv
  simp only [hm, hm', hq, h]

/-- An object that holds both nodes or none leaves the matter at the nodes the same. -/
theorem sameMatter_insert {c c' : Core ℝ} {i j k l : ℤ} (h : SameMatter c i j k l) (h0 : c.f.Cb.val i j ≠ 0) {o : Object ℝ} (hc : c.WF)
    (ho : o.Safe c.g) (hcov : o.Covered c.g) (a : InGrid c.g ⟨i, j⟩) (b : InGrid c.g ⟨k, l⟩)
    (hin : o.inside (c.g.toReal ⟨i, j⟩) = o.inside (c.g.toReal ⟨k, l⟩)) (hb : o.mat.kind.Cb c.g.dt ≠ 0) (hi : c.insertObject o = .ok c') :
    SameMatter c' i j k l ∧ c'.f.Cb.val i j ≠ 0 := by
  obtain ⟨a1, a2, a3, a4⟩ := a
  obtain ⟨b1, b2, b3, b4⟩ := b
  simp only at a1 a2 a3 a4 b1 b2 b3 b4
  have ma : (i, j) ∈ rect 0 c.g.Nx 0 c.g.Ny := mem_rect.mpr ⟨⟨a1, a2⟩, a3, a4⟩
  have mb : (k, l) ∈ rect 0 c.g.Nx 0 c.g.Ny := mem_rect.mpr ⟨⟨b1, b2⟩, b3, b4⟩
  obtain ⟨e1, e2⟩ := insertObject_f hc.f ho hi
  have hC : c'.f.Cb.val i j = c'.f.Cb.val k l ∧ c'.f.Cb.val i j ≠ 0 := by
    rw [e1]
    cases hv : o.inside (c.g.toReal ⟨i, j⟩) with
    | true =>
      have x := (Flds.paint_hit (f := c.f) (k := o.mat.kind) (dt := c.g.dt) (q := fun x y => o.inside (c.g.toReal ⟨x, y⟩))
        (hcov i j a1 a2 a3 a4 hv) hv).Cb
      have y := (Flds.paint_hit (f := c.f) (k := o.mat.kind) (dt := c.g.dt) (q := fun x y => o.inside (c.g.toReal ⟨x, y⟩))
        (hcov k l b1 b2 b3 b4 (hin ▸ hv)) (hin ▸ hv)).Cb
      rw [x, y]; exact ⟨rfl, hb⟩
    | false =>
      have x := (Flds.paint_miss (f := c.f) (k := o.mat.kind) (dt := c.g.dt) (D := scan c.g o)
        (q := fun x y => o.inside (c.g.toReal ⟨x, y⟩)) hv).2.1
      have y := (Flds.paint_miss (f := c.f) (k := o.mat.kind) (dt := c.g.dt) (D := scan c.g o)
        (q := fun x y => o.inside (c.g.toReal ⟨x, y⟩)) (hin ▸ hv)).2.1
      rw [x, y]; exact ⟨h.Cb, h0⟩
  refine ⟨?_, hC.2⟩
  unfold Core.insertObject at hi
  simp only [Except.bind_ok] at hi
  obtain ⟨f, -, hi⟩ := hi
  cases hk : o.mat.kind with
  | simple m => rw [hk] at hi; cases hi; exact ⟨hC.1, h.debye, h.drude, h.lorentz⟩
  | debye m =>
    rw [hk] at hi; simp only [Except.bind_ok] at hi
    obtain ⟨t, ht, hi⟩ := hi; cases hi
    refine ⟨hC.1, fun q hq => (addPol_all (fun P => P.WF c.g.Nx c.g.Ny ∧ ∀ N, 0 ≤ N → N < P.np → P.beta.val i j N = P.beta.val k l N) ht
      ⟨DebyePol.make_wf c.g m, fun _ _ _ => rfl⟩ ?_ (fun q hq => ⟨hc.debye q hq, h.debye q hq⟩) q hq).2, h.drude, h.lorentz⟩
    rintro p p' ⟨w, hp⟩ hp'
    have e := DebyePol.insert_closed w o
    obtain ⟨p2, e2, w2⟩ := DebyePol.insert_ok w o
    rw [hp'] at e e2
    cases e2
    refine ⟨w2, ?_⟩
    cases e
    intro N h0 h1
    exact paint3_same ma mb hin (hp N h0 h1)
  | drude m =>
    rw [hk] at hi; simp only [Except.bind_ok] at hi
    obtain ⟨t, ht, hi⟩ := hi; cases hi
    refine ⟨hC.1, h.debye, fun q hq => (addPol_all (fun P => P.WF c.g.Nx c.g.Ny ∧ ∀ N, 0 ≤ N → N < P.np → P.beta.val i j N = P.beta.val k l N) ht
      ⟨DrudePol.make_wf c.g m, fun _ _ _ => rfl⟩ ?_ (fun q hq => ⟨hc.drude q hq, h.drude q hq⟩) q hq).2, h.lorentz⟩
    rintro p p' ⟨w, hp⟩ hp'
    have e := DrudePol.insert_closed w o
    obtain ⟨p2, e2, w2⟩ := DrudePol.insert_ok w o
    rw [hp'] at e e2
    cases e2
    refine ⟨w2, ?_⟩
    cases e
    intro N h0 h1
    exact paint3_same ma mb hin (hp N h0 h1)
  | lorentz m =>
    rw [hk] at hi; simp only [Except.bind_ok] at hi
    obtain ⟨t, ht, hi⟩ := hi; cases hi
    refine ⟨hC.1, h.debye, h.drude, fun q hq => (addPol_all (fun P => P.WF c.g.Nx c.g.Ny ∧
      ∀ N, 0 ≤ N → N < P.np → P.delta.val i j N = P.delta.val k l N) ht
      ⟨LorentzPol.make_wf c.g m, fun _ _ _ => rfl⟩ ?_ (fun q hq => ⟨hc.lorentz q hq, h.lorentz q hq⟩) q hq).2⟩
    rintro p p' ⟨w, hp⟩ hp'
    have e := LorentzPol.insert_closed w o
    obtain ⟨p2, e2, w2⟩ := LorentzPol.insert_ok w o
    rw [hp'] at e e2
    cases e2
    refine ⟨w2, ?_⟩
    cases e
    intro N h0 h1
    exact paint3_same ma mb hin (hp N h0 h1)

theorem sameMatter_addAll {i j k l : ℤ} : ∀ (L : List (Object ℝ)) {c c' : Core ℝ}, c.WF → (∀ o ∈ L, o.Safe c.g) → (∀ o ∈ L, o.Covered c.g) →
    InGrid c.g ⟨i, j⟩ → InGrid c.g ⟨k, l⟩ → (∀ o ∈ L, o.inside (c.g.toReal ⟨i, j⟩) = o.inside (c.g.toReal ⟨k, l⟩)) →
    (∀ o ∈ L, o.mat.kind.Cb c.g.dt ≠ 0) → SameMatter c i j k l → c.f.Cb.val i j ≠ 0 → addAll L c = .ok c' →
    SameMatter c' i j k l ∧ c'.f.Cb.val i j ≠ 0
  | [], c, c', _, _, _, _, _, _, _, h, h0, he => by cases he; exact ⟨h, h0⟩
  | o :: L, c, c', hc, hs, hcov, a, b, hin, hb, h, h0, he => by
    unfold addAll at he
    rw [forList_cons] at he
    obtain ⟨c1, h1, h2⟩ := (Except.bind_ok ..).mp he
    obtain ⟨c1', k1, w1, g1, -⟩ := Core.insertObject_ok hc (hs o (by simp))
    rw [h1] at k1; cases k1
    obtain ⟨s1, s2⟩ := sameMatter_insert h h0 hc (hs o (by simp)) (hcov o (by simp)) a b (hin o (by simp)) (hb o (by simp)) h1
    rw [← g1] at a b
    exact sameMatter_addAll L w1 (by rw [g1]; exact fun x hx => hs x (by simp [hx])) (by rw [g1]; exact fun x hx => hcov x (by simp [hx])) a b
      (by rw [g1]; exact fun x hx => hin x (by simp [hx])) (by rw [g1]; exact fun x hx => hb x (by simp [hx])) s1 s2 h2

theorem emits_fits {g : Grid ℝ} (hT : g.T = 0 ∨ 2 ≤ g.T) {s : Source ℝ} {i j : ℤ} (h : EmitsAt g s i j) (b : Beyond g i j) : Fits g s := by
  obtain ⟨p, p1, p2⟩ := h
  have := b.l; have := b.r; have := b.b; have := b.t
  unfold Fits
  rw [p1]
  simp only [p2]
  refine ⟨by simp [Fields.IsComp], ?_⟩
  simp only [InGrid]
  rcases hT with h | h <;> omega

/-- **C76** for programs: a new simulation with any objects, and two nodes of the interior such that every object holds both or none. The field at the
second node of a source at the first is at all times the field at the first node of the same source at the second. -/
theorem C76_objects (g : Grid ℝ) (hw : g.Wide) (hl : Lawful g) (hT : g.T = 0 ∨ 2 ≤ g.T) (objs : List (Object ℝ)) (hsound : ∀ o ∈ objs, BoxSound o)
    (hs : ∀ o ∈ objs, ClearOfUnguardedEdges g o) (hk : ∀ o ∈ objs, o.mat.kind.Cb g.dt ≠ 0) (sa sb : Source ℝ) (ia ja ib jb : ℤ)
    (ha : EmitsAt g sa ia ja) (hb : EmitsAt g sb ib jb) (hr : sb.tp.resp = sa.tp.resp) (na : Beyond g ia ja) (nb : Beyond g ib jb)
    (hin : ∀ o ∈ objs, o.inside (g.toReal ⟨ia, ja⟩) = o.inside (g.toReal ⟨ib, jb⟩)) (n : ℕ) :
    ∃ c0 c ca la cb lb, Core.make g = .ok c0 ∧ addAll objs c0 = .ok c ∧ c.run n [sa] = .ok (ca, la) ∧ c.run n [sb] = .ok (cb, lb) ∧
      ca.f.Ez.val ib jb = cb.f.Ez.val ia ja := by
  obtain ⟨c0, h1, h2, rfl, h4⟩ := make_silent hw hl hT
  have sf : ∀ o ∈ objs, o.Safe c0.g := fun o ho => safe_of_clear hl (hs o ho)
  obtain ⟨c, k1, k2, k3, k4⟩ := Core.Std.insertAll objs h2 h4 sf
  have T0 : 0 ≤ c0.g.T := by rcases hT with h | h <;> omega
  have ga : InGrid c0.g ⟨ia, ja⟩ := by obtain ⟨x1, x2, x3, x4⟩ := na; simp only [InGrid]; omega
  have gb : InGrid c0.g ⟨ib, jb⟩ := by obtain ⟨x1, x2, x3, x4⟩ := nb; simp only [InGrid]; omega
  have va := make_vacuum h1 ga.1 ga.2.1 ga.2.2.1 ga.2.2.2
  have vb := make_vacuum h1 gb.1 gb.2.1 gb.2.2.1 gb.2.2.2
  have hdt : 0 < c0.g.dt := by have := hl.dx; rw [hl.dt]; linarith
  obtain ⟨n1, n2, n3⟩ := Core.make_no_pol h1
  have z : c0.f.Cb.val ia ja ≠ 0 := by
    have e : c0.f.Cb.val ia ja = (vacuum : Simple ℝ).Cb c0.g.dt := va.medium.Cb
    have := weight_Cb (m := vacuum) hdt (by norm_num [vacuum]) (by norm_num [vacuum])
    rw [e]
    intro h
    rw [h, mul_zero] at this
    norm_num at this
  obtain ⟨s1, s2⟩ := sameMatter_addAll objs h2.wf sf (fun o ho => covered_of_sound hl (hsound o ho)) ga gb hin hk
    ⟨va.medium.Cb.trans vb.medium.Cb.symm, by rw [n1]; simp, by rw [n2]; simp, by rw [n3]; simp⟩ z k1
  obtain ⟨ca, la, cb, lb, r⟩ := C76_reciprocity c k2 k4 sa sb ia ja ib jb (k3.symm ▸ ha) (k3.symm ▸ hb) (k3.symm ▸ emits_fits hT ha na)
    (k3.symm ▸ emits_fits hT hb nb) hr (k3.symm ▸ na) (k3.symm ▸ nb) s1 s2 n
  exact ⟨c0, c, ca, la, cb, lb, h1, k1, r⟩

/-- The hypotheses hold on the example grid for a disc of any medium with a coefficient of the curl between two nodes outside of it, and inside it. -/
theorem C76_case (m : Material ℝ) (hm : m.kind.Cb gEx.dt ≠ 0) (tp : TimeProfile ℝ) (n : ℕ) :
    (∃ c0 c ca la cb lb, Core.make gEx = .ok c0 ∧ addAll [disc m 10 10] c0 = .ok c ∧ c.run n [⟨"a", .point .Ez ⟨((5 : ℤ) : ℝ), ((6 : ℤ) : ℝ)⟩, tp⟩] = .ok (ca, la) ∧
      c.run n [⟨"b", .point .Ez ⟨((14 : ℤ) : ℝ), ((9 : ℤ) : ℝ)⟩, tp⟩] = .ok (cb, lb) ∧ ca.f.Ez.val 14 9 = cb.f.Ez.val 5 6) ∧
    ∃ c0 c ca la cb lb, Core.make gEx = .ok c0 ∧ addAll [disc m 10 10] c0 = .ok c ∧ c.run n [⟨"a", .point .Ez ⟨((10 : ℤ) : ℝ), ((10 : ℤ) : ℝ)⟩, tp⟩] = .ok (ca, la) ∧
      c.run n [⟨"b", .point .Ez ⟨((11 : ℤ) : ℝ), ((9 : ℤ) : ℝ)⟩, tp⟩] = .ok (cb, lb) ∧ ca.f.Ez.val 11 9 = cb.f.Ez.val 10 10 := by
  obtain ⟨c0, h1, h2, h3, h4⟩ := gEx_std
  have key : ∀ i j k l : ℤ, Beyond gEx i j → Beyond gEx k l → (disc m 10 10).inside (gEx.toReal ⟨i, j⟩) = (disc m 10 10).inside (gEx.toReal ⟨k, l⟩) →
      ∃ c0 c ca la cb lb, Core.make gEx = .ok c0 ∧ addAll [disc m 10 10] c0 = .ok c ∧ c.run n [⟨"a", .point .Ez ⟨(i : ℝ), (j : ℝ)⟩, tp⟩] = .ok (ca, la) ∧
        c.run n [⟨"b", .point .Ez ⟨(k : ℝ), (l : ℝ)⟩, tp⟩] = .ok (cb, lb) ∧ ca.f.Ez.val k l = cb.f.Ez.val i j := fun i j k l ba bb he =>
    C76_objects gEx (h3 ▸ h2.wide) gEx_lawful (h3 ▸ h2.thick) [disc m 10 10] (by simp [disc_sound])
      (by simpa using disc_clear m (x := 10) (y := 10) (by norm_num) (by norm_num)) (by simpa [disc] using hm)
      ⟨"a", .point .Ez ⟨(i : ℝ), (j : ℝ)⟩, tp⟩ ⟨"b", .point .Ez ⟨(k : ℝ), (l : ℝ)⟩, tp⟩ i j k l ⟨_, rfl, gEx_node i j⟩ ⟨_, rfl, gEx_node k l⟩ rfl ba bb
      (by simpa using he) n
  refine ⟨key 5 6 14 9 (gEx_beyond (by norm_num) (by norm_num) (by norm_num) (by norm_num)) (gEx_beyond (by norm_num) (by norm_num) (by norm_num) (by norm_num)) ?_,
    key 10 10 11 9 (gEx_beyond (by norm_num) (by norm_num) (by norm_num) (by norm_num)) (gEx_beyond (by norm_num) (by norm_num) (by norm_num) (by norm_num)) ?_⟩
  · rw [Bool.eq_iff_iff, disc_inside, disc_inside]; simp only [Grid.toReal, gEx_dx, ofInt_real]; norm_num
  · rw [Bool.eq_iff_iff, disc_inside, disc_inside]; simp only [Grid.toReal, gEx_dx, ofInt_real]; norm_num

end Qbox.Props
