import Verif.Lemmas.Currents
import Verif.Lemmas.WindowMake
import Verif.Props.LinearProps

/-!
# Simulations with and without objects, with and without an incident wave, before the first step
-/

namespace Qbox
open Scalar Spec Props

set_option linter.unusedSectionVars false
set_option linter.unusedSimpArgs false

/-- Set the incident wave, if there is one. -/
noncomputable def putWave (w : Option (Vol ℝ × TimeProfile ℝ)) (c : Core ℝ) : Core ℝ :=
  match w with
  | none => c
  | some w => c.setTfsf w.1 w.2

theorem putWave_std {c : Core ℝ} (hc : c.Std) {w : Option (Vol ℝ × TimeProfile ℝ)} (h : ∀ x, w = some x → TfsfFits c.g x.1) :
    (putWave w c).Std := by
  cases w with
  | none => exact hc
  | some w => exact View.Std_setTfsf hc (h w rfl)

theorem insertAll_parts : ∀ (objs : List (Object ℝ)) {c c' : Core ℝ}, forList objs c (fun o c => c.insertObject o) = .ok c' →
    c'.sc = c.sc ∧ c'.pml = c.pml ∧ c'.tfsf = c.tfsf ∧ c'.t = c.t
  | [], c, c', h => by cases h; exact ⟨rfl, rfl, rfl, rfl⟩
  | o :: l, c, c', h => by
    rw [forList_cons] at h
    obtain ⟨c1, h1, h2⟩ := (Except.bind_ok ..).mp h
    obtain ⟨a, b, d, e, -⟩ := insertObject_parts h1
    obtain ⟨a', b', d', e'⟩ := insertAll_parts l h2
    exact ⟨a'.trans a, b'.trans b, d'.trans d, e'.trans e⟩

theorem insertAll_noLorentz : ∀ (objs : List (Object ℝ)) {c c' : Core ℝ}, (∀ o ∈ objs, ∀ m, o.mat.kind ≠ .lorentz m) →
    forList objs c (fun o c => c.insertObject o) = .ok c' → c'.lorentz = c.lorentz
  | [], c, c', _, h => by cases h; rfl
  | o :: l, c, c', hp, h => by
    rw [forList_cons] at h
    obtain ⟨c1, h1, h2⟩ := (Except.bind_ok ..).mp h
    rw [insertAll_noLorentz l (fun o' h' => hp o' (by simp [h'])) h2]
    unfold Core.insertObject at h1
    obtain ⟨f, -, h3⟩ := (Except.bind_ok ..).mp h1
    cases hk : o.mat.kind with
    | simple m => rw [hk] at h3; cases h3; rfl
    | debye m =>
      rw [hk] at h3
      obtain ⟨d, e, h3⟩ := (Except.bind_ok ..).mp h3
      cases h3; rfl
    | drude m =>
      rw [hk] at h3
      obtain ⟨d, e, h3⟩ := (Except.bind_ok ..).mp h3
      cases h3; rfl
    | lorentz m => exact absurd hk (hp o (by simp) m)

/-- A new simulation and the same with objects. -/
structure Built (g : Grid ℝ) (objs : List (Object ℝ)) (c0 c1 : Core ℝ) : Prop where
  make : Core.make g = .ok c0
  std0 : c0.Std
  g0 : c0.g = g
  silent0 : Silent c0
  empty0 : Spec.Empty c0
  ins : forList objs c0 (fun o c => c.insertObject o) = .ok c1
  std1 : c1.Std
  twin : c1.Twin c0
  t : c1.t = 0
  tfsf : c1.tfsf = none
  medium : ∀ i j, 0 ≤ i → i < g.Nx → 0 ≤ j → j < g.Ny →
    (∀ o, TopAt objs (g.toReal ⟨i, j⟩) o → HasMedium c1.f o.mat.kind g.dt i j) ∧
    ((∀ o ∈ objs, o.inside (g.toReal ⟨i, j⟩) = false) → HasMedium c1.f (.simple vacuum) g.dt i j)
  still : ∀ i j, (∀ o ∈ objs, o.inside (g.toReal ⟨i, j⟩) = true → ∃ m, o.mat.kind = .simple m) → c1.Still i j
  lorentz : (∀ o ∈ objs, ∀ m, o.mat.kind ≠ .lorentz m) → c1.lorentz = []

theorem built {g : Grid ℝ} (hg : g.Wide) (hl : Lawful g) (hT : g.T = 0 ∨ 2 ≤ g.T) {objs : List (Object ℝ)}
    (hb : ∀ o ∈ objs, BoxSound o) (hs : ∀ o ∈ objs, ClearOfUnguardedEdges g o) : ∃ c0 c1, Built g objs c0 c1 := by
  obtain ⟨c0, hm, h0, rfl, hz, he⟩ := make_empty hg hl hT
  have safe : ∀ o ∈ objs, o.Safe c0.g := fun o ho => safe_of_clear hl (hs o ho)
  obtain ⟨c1, i1, s1, g1, z1⟩ := Core.Std.insertAll objs h0 hz safe
  obtain ⟨_, i1', -, k⟩ := C09_adding c0 hl h0.wf objs hb hs
  rw [i1] at i1'
  cases i1'
  obtain ⟨p1, p2, p3, p4⟩ := insertAll_parts objs i1
  obtain ⟨c0', hm', -, -, -, ht0, -⟩ := Core.make_std hg hl hT
  rw [hm] at hm'
  cases hm'
  have w0 := h0.wf.f
  have w1 := s1.wf.f
  rw [g1] at w1
  have na : NamesApart c0 := ⟨by rw [he.debye]; simp, by rw [he.drude]; simp⟩
  have na1 := na.insertAll objs i1
  refine ⟨c0, c1, ⟨hm, h0, rfl, hz, he, i1, s1, ⟨g1.symm, p4.symm, p1.symm, p2.symm, ?_, ?_, ?_⟩, by rw [p4, ht0], by rw [p3, hz.tfsf], ?_, ?_, ?_⟩⟩
  · exact Tensor.ext' (w0.Ez.1.trans w1.Ez.1.symm) (w0.Ez.2.trans w1.Ez.2.symm) fun x y => by rw [hz.Ez, z1.Ez]
  · exact Tensor.ext' (w0.Hx.1.trans w1.Hx.1.symm) (w0.Hx.2.trans w1.Hx.2.symm) fun x y => by rw [hz.Hx, z1.Hx]
  · exact Tensor.ext' (w0.Hy.1.trans w1.Hy.1.symm) (w0.Hy.2.trans w1.Hy.2.symm) fun x y => by rw [hz.Hy, z1.Hy]
  · intro i j i0 i1 j0 j1
    obtain ⟨k1, k2⟩ := k i j i0 i1 j0 j1
    refine ⟨k1, fun h => ?_⟩
    obtain ⟨a, b, d, e⟩ := k2 h
    obtain ⟨a', b', d', e'⟩ := he.medium i j i0 i1 j0 j1
    exact ⟨a.trans a', b.trans b', d.trans d', e.trans e'⟩
  · intro i j h
    have no : ∀ o ∈ objs, (∀ m, o.mat.kind ≠ .simple m) → o.inside (c0.g.toReal ⟨i, j⟩) = false := by
      intro o ho hm
      cases hi : o.inside (c0.g.toReal ⟨i, j⟩) with
      | false => rfl
      | true =>
        obtain ⟨m, e⟩ := h o ho hi
        exact absurd e (hm m)
    refine ⟨fun q hq => debye_entry_quiet h0.wf.f safe he.debye i1 na1.debye hq fun o ho hd => no o ho fun m e => ?_,
      fun q hq => drude_entry_quiet h0.wf.f safe he.drude i1 na1.drude hq fun o ho hd => no o ho fun m e => ?_⟩
    · obtain ⟨⟨m', e'⟩, -⟩ := hd
      rw [e] at e'; cases e'
    · obtain ⟨⟨m', e'⟩, -⟩ := hd
      rw [e] at e'; cases e'
  · intro h
    rw [insertAll_noLorentz objs h i1, he.lorentz]

section
variable {g : Grid ℝ} {objs : List (Object ℝ)} {c0 c1 : Core ℝ}

theorem Built.run (b : Built g objs c0 c1) (srcs : List (Source ℝ)) (w : Option (Vol ℝ × TimeProfile ℝ)) {n : ℕ} {c : Core ℝ} {l : List (Source ℝ)}
    (h : (putWave w c1).run n srcs = .ok (c, l)) : (⟨objs, srcs, w⟩ : Scene).run g n = .ok c := by
  unfold Scene.run
  rw [b.make]; simp only [Except.ok_bind]
  rw [b.ins]; simp only [Except.ok_bind]
  cases w with
  | none => rw [show (putWave none c1).run n srcs = c1.run n srcs from rfl] at h; simp only [h]; rfl
  | some w => rw [show (putWave (some w) c1).run n srcs = (c1.setTfsf w.1 w.2).run n srcs from rfl] at h; simp only [h]; rfl

theorem Built.run0 (b : Built g objs c0 c1) (srcs : List (Source ℝ)) (w : Option (Vol ℝ × TimeProfile ℝ)) {n : ℕ} {c : Core ℝ} {l : List (Source ℝ)}
    (h : (putWave w c0).run n srcs = .ok (c, l)) : (⟨[], srcs, w⟩ : Scene).run g n = .ok c := by
  unfold Scene.run
  rw [b.make]; simp only [Except.ok_bind]
  rw [show forList ([] : List (Object ℝ)) c0 (fun o c => c.insertObject o) = .ok c0 from rfl]; simp only [Except.ok_bind]
  cases w with
  | none => rw [show (putWave none c0).run n srcs = c0.run n srcs from rfl] at h; simp only [h]; rfl
  | some w => rw [show (putWave (some w) c0).run n srcs = (c0.setTfsf w.1 w.2).run n srcs from rfl] at h; simp only [h]; rfl

theorem Built.magnetic (b : Built g objs c0 c1) (i j : ℤ) (i0 : 0 ≤ i) (i1 : i < g.Nx) (j0 : 0 ≤ j) (j1 : j < g.Ny) :
    c0.f.Da.val i j = c1.f.Da.val i j ∧ c0.f.Db.val i j = c1.f.Db.val i j := by
  have e0 := b.empty0.medium i j i0 (by rw [b.g0]; exact i1) j0 (by rw [b.g0]; exact j1)
  have any : ∀ k : MatKind ℝ, k.Da g.dt = 1 ∧ k.Db g.dt = g.dt := by
    intro k; cases k <;> exact ⟨rfl, rfl⟩
  obtain ⟨m1, m2⟩ := b.medium i j i0 i1 j0 j1
  rw [e0.Da, e0.Db, b.g0, (any _).1, (any _).2]
  rcases C09_total objs (g.toReal ⟨i, j⟩) with hn | ⟨o, ho⟩
  · have := m2 hn
    rw [this.Da, this.Db, (any _).1, (any _).2]; exact ⟨rfl, rfl⟩
  · have := m1 o ho
    rw [this.Da, this.Db, (any _).1, (any _).2]; exact ⟨rfl, rfl⟩

theorem Built.off (b : Built g objs c0 c1) (i j : ℤ) (i0 : 0 ≤ i) (i1 : i < g.Nx) (j0 : 0 ≤ j) (j1 : j < g.Ny)
    (h : (⟨i, j⟩ : V2 ℤ) ∉ nodesIn g objs) : c1.Still i j ∧ c0.f.Ca.val i j = c1.f.Ca.val i j ∧ c0.f.Cb.val i j = c1.f.Cb.val i j := by
  have no : ∀ o ∈ objs, o.inside (g.toReal ⟨i, j⟩) = false := by
    intro o ho
    cases hi : o.inside (g.toReal ⟨i, j⟩) with
    | false => rfl
    | true => exact absurd (mem_nodesIn.mpr ⟨⟨i0, i1, j0, j1⟩, o, ho, hi⟩) h
  have e0 := b.empty0.medium i j i0 (by rw [b.g0]; exact i1) j0 (by rw [b.g0]; exact j1)
  have e1 := (b.medium i j i0 i1 j0 j1).2 no
  rw [b.g0] at e0
  exact ⟨b.still i j (fun o ho hi => by rw [no o ho] at hi; exact absurd hi (by simp)), by rw [e0.Ca, e1.Ca], by rw [e0.Cb, e1.Cb]⟩

end

/-! ## Sources and waves without a signal -/

/-- Two simulations without dispersive media whose sources and waves add the same. -/
theorem twin_bare {c d : Core ℝ} (T : c.Twin d) (bc : c.Bare) (bd : d.Bare) (hco : c.f.SameCoef d.f)
    {l m : List (Source ℝ)}
    {cs : ℕ → Core ℝ} {ls : ℕ → List (Source ℝ)} {E2 E3 E4 : ℕ → Tensor ℝ} {fs : ℕ → Flds ℝ} (R : Trace c l cs ls E2 E3 E4 fs)
    {ds : ℕ → Core ℝ} {ms : ℕ → List (Source ℝ)} {A B D : ℕ → Tensor ℝ} {gs : ℕ → Flds ℝ} (Q : Trace d m ds ms A B D gs)
    (hs : ∀ t C p, totalContrib c.g t m C p = totalContrib c.g t l C p)
    (hw : ∀ n x y, tfEz (ds n).tfsf x y = tfEz (cs n).tfsf x y ∧ tfHx (ds n).tfsf x y = tfHx (cs n).tfsf x y ∧
      tfHy (ds n).tfsf x y = tfHy (cs n).tfsf x y) : ∀ n, (cs n).Twin (ds n)
  | 0 => by rw [R.c0, Q.c0]; exact T
  | n + 1 => by
    have Tn := twin_bare T bc bd hco R Q hs hw n
    have S := R.step n
    have S' := Q.step n
    obtain ⟨a1, a2, a3, a4⟩ := R.coef n
    obtain ⟨b1, b2, b3, b4⟩ := Q.coef n
    obtain ⟨k1, k2, k3, k4⟩ := hco
    have src : ∀ C p, totalContrib (cs n).g ((cs n).t + (cs n).g.dt) (ms n) C p = totalContrib (cs n).g ((cs n).t + (cs n).g.dt) (ls n) C p :=
      fun C p => by rw [totalContrib_same (Q.same n), totalContrib_same (R.same n), R.g, hs]
    refine Tn.step (R.std n) S S' (fun i j _ _ _ _ => ⟨by rw [b3, a3, k3], by rw [b4, a4, k4]⟩) (fun x y => ?_) (fun x y => src _ _)
      (fun x y => src _ _) (fun x y => (hw (n + 1) x y).2.1) (fun x y => (hw (n + 1) x y).2.2)
    rw [S'.fE, S.fE, (S'.bare (Q.bare bd n)).2, (S.bare (R.bare bc n)).2, (hw n x y).1, Tn.t, Tn.g, src,
      Tn.E1 (R.std n) x y fun _ _ _ _ => ⟨by rw [b1, a1, k1], by rw [b2, a2, k2]⟩]

/-- A wave without a signal adds nothing. -/
theorem dark_wave {c : Core ℝ} (hc : c.Std) {vol : Vol ℝ} {tp : TimeProfile ℝ} (hv : TfsfFits c.g vol) (ht : ∀ t, tp.resp t = 0)
    {l : List (Source ℝ)} (hl : ∀ s ∈ l, Spec.Fits c.g s)
    {cs : ℕ → Core ℝ} {ls : ℕ → List (Source ℝ)} {E2 E3 E4 : ℕ → Tensor ℝ} {fs : ℕ → Flds ℝ} (R : Trace (c.setTfsf vol tp) l cs ls E2 E3 E4 fs)
    (n : ℕ) (x y : ℤ) : tfEz (cs n).tfsf x y = 0 ∧ tfHx (cs n).tfsf x y = 0 ∧ tfHy (cs n).tfsf x y = 0 := by
  have W : ∀ dt N, LineWave tp.resp dt N (fun _ _ => 0) (fun _ _ => 0) := fun dt N =>
    ⟨fun _ => rfl, fun _ => rfl, fun _ => (ht _).symm, fun _ _ _ _ => by simp, rfl, fun _ => rfl, fun _ _ _ _ => by simp⟩
  have hN : (Tfsf.make c.g tp vol c.g.dt).Nx = (c.g.toGrid vol.b).y - (c.g.toGrid vol.a).y + 5 := by
    show |(c.g.toGrid vol.a).y - (c.g.toGrid vol.b).y| + 5 = _
    have := hv.jab
    rw [abs_of_nonpos (by omega)]; omega
  have n5 := hv.jab
  obtain ⟨c', l', w, h1, h2, h3, h4⟩ := C33_line n 0 (c.setTfsf vol tp) l tp.resp _ _ _ (View.Std_setTfsf (w := (vol, tp)) hc hv) hl rfl (W _ _)
    (Tfsf.make_wave' c.g vol tp c.g.dt (W _ 0))
  rw [R.run n] at h1
  obtain ⟨rfl, rfl⟩ := Prod.mk.inj (Except.ok.inj h1)
  have en : w.Nx = (c.g.toGrid vol.b).y - (c.g.toGrid vol.a).y + 5 := by rw [h4.Nx, hN]
  have eja : w.ja = (c.g.toGrid vol.a).y := h4.ja
  have ejb : w.jb = (c.g.toGrid vol.b).y := h4.jb
  rw [h2]
  refine ⟨?_, ?_, ?_⟩
  · show w.addEz x y = 0
    unfold Tfsf.addEz
    rw [h3.Hx 2 (by omega) (by omega), h3.Hx (w.Nx - 2) (by omega) (by omega)]; simp
  · show w.addHx x y = 0
    unfold Tfsf.addHx
    rw [h3.Ez 3 (by omega) (by omega), h3.Ez (w.Nx - 2) (by omega) (by omega)]; simp
  · show w.addHy x y = 0
    unfold Tfsf.addHy
    split
    · rw [h3.Ez (y - w.ja + 3) (by omega) (by omega)]; simp
    · rfl

/-- The source at the same place with no signal. -/
noncomputable def mute (s : Source ℝ) : Source ℝ := { s with tp := ⟨fun _ => 0, none, []⟩ }

theorem mute_total (g : Grid ℝ) (t : ℝ) (l : List (Source ℝ)) (C : Fields) (p : V2 ℤ) : totalContrib g t (l.map mute) C p = 0 := by
  unfold totalContrib
  refine List.sum_eq_zero fun x hx => ?_
  obtain ⟨s, hs, rfl⟩ := List.mem_map.mp hx
  obtain ⟨s', -, rfl⟩ := List.mem_map.mp hs
  show contrib g (mute s') 0 C p = 0
  unfold contrib
  exact ite_self _

theorem mute_fits {g : Grid ℝ} {s : Source ℝ} (h : Spec.Fits g s) : Spec.Fits g (mute s) := h

/-- A wave and sources: the wave alone plus the sources alone. -/
theorem wave_plus {c : Core ℝ} (hc : c.Std) (hz : Silent c) (b : c.Bare) {vol : Vol ℝ} {tp : TimeProfile ℝ} (hv : TfsfFits c.g vol)
    {l : List (Source ℝ)} (hl : ∀ s ∈ l, Spec.Fits c.g s) (n : ℕ) :
    ∃ u v d k, (c.setTfsf vol tp).run n [] = .ok (u, []) ∧ c.run n l = .ok v ∧ (c.setTfsf vol tp).run n l = .ok (d, k) ∧
      ∀ i j, d.f.Ez.val i j = u.f.Ez.val i j + v.1.f.Ez.val i j ∧ d.f.Hx.val i j = u.f.Hx.val i j + v.1.f.Hx.val i j ∧
        d.f.Hy.val i j = u.f.Hy.val i j + v.1.f.Hy.val i j := by
  set dark : TimeProfile ℝ := ⟨fun _ => 0, none, []⟩ with hdark
  have s3 : (c.setTfsf vol tp).Std := View.Std_setTfsf (w := (vol, tp)) hc hv
  have s2 : (c.setTfsf vol dark).Std := View.Std_setTfsf (w := (vol, dark)) hc hv
  have hm : ∀ s ∈ l.map mute, Spec.Fits c.g s := by
    intro s hs
    obtain ⟨s', h', rfl⟩ := List.mem_map.mp hs
    exact hl s' h'
  have z : ∀ {x : Tensor ℝ}, TZero x → TCombo 1 1 x x x := fun h i j => by rw [h]; ring
  have sh : ∀ x : Pml ℝ, SameLayer x x := fun x => ⟨rfl, rfl, rfl, rfl⟩
  have combo : Combo 1 1 (c.setTfsf vol tp) (c.setTfsf vol dark) (c.setTfsf vol tp) := by
    refine ⟨⟨rfl, rfl⟩, ⟨rfl, rfl⟩, ⟨rfl, rfl⟩, ⟨⟨rfl, rfl, rfl, rfl⟩, ⟨rfl, rfl, rfl, rfl⟩, z hz.Ez, z hz.Hx, z hz.Hy⟩,
      ⟨sh _, sh _, z hz.Ezx1, z hz.Ezx2, z hz.Hyx1, z hz.Hyx2, z hz.Ezy1, z hz.Ezy2, z hz.Hxy1, z hz.Hxy2⟩,
      Opt3_same fun x hx => z (hz.prevE x hx), Opt3_same fun x hx => z (hz.prev2E x hx), ?_, ?_, ?_, ?_⟩
    · show Forall3 _ c.debye c.debye c.debye
      rw [b.debye]; exact .nil
    · show Forall3 _ c.drude c.drude c.drude
      rw [b.drude]; exact .nil
    · show Forall3 _ c.lorentz c.lorentz c.lorentz
      rw [b.lorentz]; exact .nil
    · refine .some ⟨⟨rfl, rfl, rfl, rfl, rfl, rfl, rfl, rfl, rfl⟩, ⟨rfl, rfl, rfl, rfl, rfl, rfl, rfl, rfl, rfl⟩, ?_, ?_, ?_, ?_, ?_, ?_, ?_, ?_, ?_⟩
      · intro t; show tp.resp t = 1 * tp.resp t + 1 * 0; ring
      all_goals first
        | (intro k; show (0 : ℝ) = 1 * 0 + 1 * 0; ring)
        | (show (0 : ℝ) = 1 * 0 + 1 * 0; ring)
  have src : ∀ l : List (Source ℝ), Forall3 (SrcCombo 1 1) (l.map mute) l l := by
    intro l
    induction l with
    | nil => exact .nil
    | cons s l ih => exact .cons ⟨rfl, rfl, fun t => by show s.tp.resp t = 1 * 0 + 1 * s.tp.resp t; ring⟩ ih
  obtain ⟨d1, m1, d2, m2, d3, m3, u1, u2, u3, f⟩ := C15_fields 1 1 n _ _ _ s3 s2 s3 (l.map mute) l l hm hl hl combo (src l)
  obtain ⟨as, la, A2, A3, A4, fa, RA⟩ := Core.trace s3 (l.map mute) hm
  obtain ⟨us, lu, U2, U3, U4, fu, RU⟩ := Core.trace s3 [] (by simp)
  obtain ⟨bs, lb, B2, B3, B4, fb, RB⟩ := Core.trace s2 l hl
  obtain ⟨vs, lv, V2, V3, V4, fv, RV⟩ := Core.trace hc l hl
  have tfEq : ∀ n, (as n).tfsf = (us n).tfsf := by
    intro n
    induction n with
    | zero => rw [RA.c0, RU.c0]
    | succ n ih =>
      have a1 := (RA.step n).tf
      have a2 := (RU.step n).tf
      rw [ih, a2] at a1
      exact (Except.ok.inj a1).symm
  have T1 := twin_bare (c := c.setTfsf vol tp) (d := c.setTfsf vol tp) ⟨rfl, rfl, rfl, rfl, rfl, rfl, rfl⟩ ⟨b.debye, b.drude, b.lorentz⟩
    ⟨b.debye, b.drude, b.lorentz⟩ ⟨rfl, rfl, rfl, rfl⟩ RA RU (fun t C p => by rw [mute_total]; rfl)
    (fun n x y => by rw [tfEq n]; exact ⟨rfl, rfl, rfl⟩) n
  have none_ : ∀ n, (vs n).tfsf = none := fun n => (RV.frame hz.tfsf n).tfsf
  have T2 := twin_bare (c := c.setTfsf vol dark) (d := c) ⟨rfl, rfl, rfl, rfl, rfl, rfl, rfl⟩ ⟨b.debye, b.drude, b.lorentz⟩
    ⟨b.debye, b.drude, b.lorentz⟩ ⟨rfl, rfl, rfl, rfl⟩ RB RV (fun t C p => rfl)
    (fun n x y => by
      rw [none_ n]
      obtain ⟨e1, e2, e3⟩ := dark_wave hc hv (tp := dark) (fun _ => rfl) hl RB n x y
      rw [e1, e2, e3]; exact ⟨rfl, rfl, rfl⟩) n
  rw [RA.run n] at u1
  rw [RB.run n] at u2
  obtain ⟨rfl, rfl⟩ := Prod.mk.inj (Except.ok.inj u1)
  obtain ⟨rfl, rfl⟩ := Prod.mk.inj (Except.ok.inj u2)
  have lu0 : lu n = [] := by
    have := RU.same n
    cases h : lu n with
    | nil => rfl
    | cons a t => rw [h] at this; cases this
  refine ⟨us n, (vs n, lv n), d3, m3, by rw [RU.run n, lu0], RV.run n, u3, fun i j => ?_⟩
  obtain ⟨e1, e2, e3⟩ := f i j
  rw [T1.Ez, T1.Hx, T1.Hy, T2.Ez, T2.Hx, T2.Hy, e1, e2, e3]
  refine ⟨by ring, by ring, by ring⟩

end Qbox
