import Verif.Spec.CurrentSpec
import Verif.Lemmas.RecipRun
import Verif.Props.DispersiveProps
import Verif.Props.TfsfProps

/-!
# Two simulations with the same fields
-/

namespace Qbox
open Scalar Spec Props

set_option linter.unusedSectionVars false
set_option linter.unusedSimpArgs false

/-- Same fields, same layer, same clock; the media, sources and total-field regions may differ. -/
structure Core.Twin (c d : Core ℝ) : Prop where
  g : d.g = c.g
  t : d.t = c.t
  sc : d.sc = c.sc
  pml : d.pml = c.pml
  Ez : d.f.Ez = c.f.Ez
  Hx : d.f.Hx = c.f.Hx
  Hy : d.f.Hy = c.f.Hy

theorem size_of {p : Pml ℝ} {Nx Ny T : ℤ} (hp : p.WF Nx Ny T) : p.Nx = Nx ∧ p.Ny = Ny ∧ p.par.T = T := by
  obtain ⟨a, b, e, -⟩ := hp
  exact ⟨a, b, e⟩

theorem Pml.corrHx_congr {p : Pml ℝ} {Nx Ny T : ℤ} (hp : p.Nx = Nx ∧ p.Ny = Ny ∧ p.par.T = T) (hy : T + 2 ≤ Ny) {Ez Db Db' : Tensor ℝ}
    (h : ∀ i j, 0 ≤ i → i < Nx → 0 ≤ j → j < Ny → Db'.val i j = Db.val i j) (x y : ℤ) : p.corrHx Ez Db' x y = p.corrHx Ez Db x y := by
  obtain ⟨rfl, rfl, rfl⟩ := hp
  unfold Pml.corrHx
  congr 1
  · congr 1
    split
    · rename_i k
      rw [mem_rect] at k; simp only at k
      rw [h x y (by omega) (by omega) (by omega) (by omega)]
    · rfl
  · split
    · rename_i k
      rw [mem_rect] at k; simp only at k
      rw [h x y (by omega) (by omega) (by omega) (by omega)]
    · rfl

theorem Pml.corrHy_congr {p : Pml ℝ} {Nx Ny T : ℤ} (hp : p.Nx = Nx ∧ p.Ny = Ny ∧ p.par.T = T) (hx : T + 2 ≤ Nx) {Ez Db Db' : Tensor ℝ}
    (h : ∀ i j, 0 ≤ i → i < Nx → 0 ≤ j → j < Ny → Db'.val i j = Db.val i j) (x y : ℤ) : p.corrHy Ez Db' x y = p.corrHy Ez Db x y := by
  obtain ⟨rfl, rfl, rfl⟩ := hp
  unfold Pml.corrHy
  congr 1
  · split
    · rename_i k
      rw [mem_rect] at k; simp only at k
      rw [h x y (by omega) (by omega) (by omega) (by omega)]
    · rfl
  · split
    · rename_i k
      rw [mem_rect] at k; simp only at k
      rw [h x y (by omega) (by omega) (by omega) (by omega)]
    · rfl

theorem Pml.corrE_congr {p : Pml ℝ} {Nx Ny T : ℤ} (hp : p.Nx = Nx ∧ p.Ny = Ny ∧ p.par.T = T) (hx : T + 2 ≤ Nx) (hy : T + 2 ≤ Ny) {Hx Hy Cb Cb' : Tensor ℝ} (x y : ℤ)
    (h : 0 ≤ x → x < Nx → 0 ≤ y → y < Ny → Cb'.val x y = Cb.val x y) : p.corrE Hx Hy Cb' x y = p.corrE Hx Hy Cb x y := by
  obtain ⟨rfl, rfl, rfl⟩ := hp
  unfold Pml.corrE
  congr 1
  · congr 1
    · congr 1
      · congr 1
        split
        · rename_i k
          rw [mem_rect] at k; simp only at k
          rw [h (by omega) (by omega) (by omega) (by omega)]
        · rfl
      · split
        · rename_i k
          rw [mem_rect] at k; simp only at k
          rw [h (by omega) (by omega) (by omega) (by omega)]
        · rfl
    · split
      · rename_i k
        rw [mem_rect] at k; simp only at k
        rw [h (by omega) (by omega) (by omega) (by omega)]
      · rfl
  · split
    · rename_i k
      rw [mem_rect] at k; simp only at k
      rw [h (by omega) (by omega) (by omega) (by omega)]
    · rfl

/-- The electric stages of twins agree where the coefficients do, and outside the grid. -/
theorem Core.Twin.E1 {c d : Core ℝ} (hc : c.Std) (T : c.Twin d) (x y : ℤ)
    (h : 0 ≤ x → x < c.g.Nx → 0 ≤ y → y < c.g.Ny → d.f.Ca.val x y = c.f.Ca.val x y ∧ d.f.Cb.val x y = c.f.Cb.val x y) :
    d.E1.val x y = c.E1.val x y := by
  unfold Core.E1
  simp only [Tensor.setv_val, T.pml, T.g, T.Hx, T.Hy]
  rw [Pml.corrE_congr (size_of hc.wf.pml) hc.wide.nx hc.wide.ny x y fun a b e f => (h a b e f).2]
  congr 1
  unfold Tensor.upd
  simp only [Tensor.setv_val, T.Ez]
  split
  · rename_i k
    rw [mem_rect] at k; simp only at k
    obtain ⟨e1, e2⟩ := h (by omega) (by omega) (by omega) (by omega)
    unfold ezVal
    rw [e1, e2, T.Ez, T.Hx, T.Hy, T.sc]
  · rfl

theorem Core.Twin.step {c d c' d' : Core ℝ} {l l' m m' : List (Source ℝ)} {A B D A' B' D' : Tensor ℝ} {f f' : Flds ℝ} (hc : c.Std)
    (T : c.Twin d) (S : c.Step l c' l' A B D f) (S' : d.Step m d' m' A' B' D' f')
    (hD : ∀ i j, 0 ≤ i → i < c.g.Nx → 0 ≤ j → j < c.g.Ny → d.f.Da.val i j = c.f.Da.val i j ∧ d.f.Db.val i j = c.f.Db.val i j)
    (hE : ∀ x y, f'.Ez.val x y = f.Ez.val x y)
    (hX : ∀ x y, totalContrib c.g (c.t + c.g.dt) m .Hx ⟨x, y⟩ = totalContrib c.g (c.t + c.g.dt) l .Hx ⟨x, y⟩)
    (hY : ∀ x y, totalContrib c.g (c.t + c.g.dt) m .Hy ⟨x, y⟩ = totalContrib c.g (c.t + c.g.dt) l .Hy ⟨x, y⟩)
    (tX : ∀ x y, tfHx d'.tfsf x y = tfHx c'.tfsf x y) (tY : ∀ x y, tfHy d'.tfsf x y = tfHy c'.tfsf x y) : c'.Twin d' := by
  have dm := S'.dims
  rw [T.g] at dm
  have eE : f'.Ez = f.Ez := Tensor.ext' (dm.Ez.1.trans S.dims.Ez.1.symm) (dm.Ez.2.trans S.dims.Ez.2.symm) hE
  have eX : f'.Hx = f.Hx := Tensor.ext' (dm.Hx.1.trans S.dims.Hx.1.symm) (dm.Hx.2.trans S.dims.Hx.2.symm) fun x y => by
    rw [S'.fX, S.fX, T.Hx, T.g, T.t, hX]
  have eY : f'.Hy = f.Hy := Tensor.ext' (dm.Hy.1.trans S.dims.Hy.1.symm) (dm.Hy.2.trans S.dims.Hy.2.symm) fun x y => by
    rw [S'.fY, S.fY, T.Hy, T.g, T.t, hY]
  obtain ⟨-, -, a3, a4⟩ := S.coef
  obtain ⟨-, -, b3, b4⟩ := S'.coef
  have hg : d'.g = c'.g := by rw [S'.g, S.g, T.g]
  have w := S.std.wf.f
  have w' := S'.std.wf.f
  rw [hg] at w'
  have hp : (c.pml.afterE c.f.Hx c.f.Hy).Nx = c.g.Nx ∧ (c.pml.afterE c.f.Hx c.f.Hy).Ny = c.g.Ny ∧ (c.pml.afterE c.f.Hx c.f.Hy).par.T = c.g.T := by
    have := size_of hc.wf.pml
    exact this
  have hDb : ∀ i j, 0 ≤ i → i < c.g.Nx → 0 ≤ j → j < c.g.Ny → f'.Db.val i j = f.Db.val i j := fun i j a b e k => by
    rw [b4, a4]; exact (hD i j a b e k).2
  refine ⟨hg, by rw [S'.t, S.t, T.t, T.g], by rw [S'.sc, S.sc, T.sc], by rw [S'.pml, S.pml, T.pml, T.Hx, T.Hy, eE], by rw [S'.eE, S.eE, eE],
    Tensor.ext' (w'.Hx.1.trans w.Hx.1.symm) (w'.Hx.2.trans w.Hx.2.symm) fun x y => ?_,
    Tensor.ext' (w'.Hy.1.trans w.Hy.1.symm) (w'.Hy.2.trans w.Hy.2.symm) fun x y => ?_⟩
  · rw [S'.eX, S.eX, tX, T.g, T.pml, T.Hx, T.Hy, T.sc, eX, eE, Pml.corrHx_congr hp hc.wide.ny hDb]
    congr 2
    unfold Tensor.upd
    simp only [Tensor.setv_val]
    split
    · rename_i k
      rw [mem_rect] at k; simp only at k
      unfold hxVal
      rw [hDb x y (by omega) (by omega) (by omega) (by omega), eE, eX, b3, a3, (hD x y (by omega) (by omega) (by omega) (by omega)).1]
    · rfl
  · rw [S'.eY, S.eY, tY, T.g, T.pml, T.Hx, T.Hy, T.sc, eY, eE, Pml.corrHy_congr hp hc.wide.nx hDb]
    congr 2
    unfold Tensor.upd
    simp only [Tensor.setv_val]
    split
    · rename_i k
      rw [mem_rect] at k; simp only at k
      unfold hyVal
      rw [hDb x y (by omega) (by omega) (by omega) (by omega), eE, eY, b3, a3, (hD x y (by omega) (by omega) (by omega) (by omega)).1]
    · rfl

/-! ## Currents of a list of nodes -/

theorem toGrid_toReal {g : Grid ℝ} (h : Lawful g) (p : V2 ℤ) : g.toGrid (g.toReal p) = p := by
  have := h.dx.ne'
  ext <;> simp [Grid.toGrid, Grid.toReal] <;> rw [mul_div_cancel_left₀ _ this, roundAway_int]

theorem currents_drives {g : Grid ℝ} (h : Lawful g) {J : ℤ → ℤ → ℝ → ℝ} {p q : V2 ℤ} {C : Fields} :
    Drives g (current g J p) C q ↔ C = .Ez ∧ q = p := by
  unfold Drives current
  simp only [toGrid_toReal h]

theorem currents_fit {g : Grid ℝ} (h : Lawful g) {J : ℤ → ℤ → ℝ → ℝ} {p : V2 ℤ} (hp : InGrid g p) : Spec.Fits g (current g J p) := by
  unfold Spec.Fits current
  simp only [toGrid_toReal h]
  exact ⟨Or.inl rfl, hp⟩

theorem currents_not {g : Grid ℝ} (h : Lawful g) {J : ℤ → ℤ → ℝ → ℝ} {t : ℝ} {C : Fields} {q : V2 ℤ} {l : List (V2 ℤ)} (hq : C = .Ez → q ∉ l) :
    totalContrib g t (l.map (current g J)) C q = 0 := by
  refine totalContrib_zero fun s hs => ?_
  obtain ⟨p, hp, rfl⟩ := List.mem_map.mp hs
  rw [currents_drives h]
  rintro ⟨rfl, rfl⟩
  exact hq rfl hp

theorem currents_at {g : Grid ℝ} (h : Lawful g) {J : ℤ → ℤ → ℝ → ℝ} {t : ℝ} {q : V2 ℤ} : ∀ {l : List (V2 ℤ)}, l.Nodup → q ∈ l →
    totalContrib g t (l.map (current g J)) .Ez q = J q.x q.y t
  | p :: l, hn, hq => by
    rw [List.nodup_cons] at hn
    have e : totalContrib g t ((p :: l).map (current g J)) .Ez q = contrib g (current g J p) (J p.x p.y t) .Ez q
        + totalContrib g t (l.map (current g J)) .Ez q := by
      unfold totalContrib; simp [current]
    rw [e]
    unfold contrib
    by_cases hp : q = p
    · subst hp
      rw [currents_not h fun _ => hn.1, if_pos ((currents_drives h).mpr ⟨rfl, rfl⟩), add_zero]
    · rw [if_neg (by rw [currents_drives h]; rintro ⟨-, k⟩; exact hp k), zero_add]
      exact currents_at h hn.2 ((List.mem_cons.mp hq).resolve_left hp)

theorem totalContrib_append (g : Grid ℝ) (t : ℝ) (l m : List (Source ℝ)) (C : Fields) (p : V2 ℤ) :
    totalContrib g t (l ++ m) C p = totalContrib g t l C p + totalContrib g t m C p := by
  unfold totalContrib
  rw [List.map_append, List.sum_append]

theorem mem_nodesIn {g : Grid ℝ} {objs : List (Object ℝ)} {p : V2 ℤ} :
    p ∈ nodesIn g objs ↔ InGrid g p ∧ ∃ o ∈ objs, o.inside (g.toReal p) = true := by
  unfold nodesIn InGrid
  simp only [List.mem_filter, List.mem_flatMap, List.mem_range, List.mem_map, List.any_eq_true]
  refine and_congr_left fun _ => ⟨?_, ?_⟩
  · rintro ⟨i, hi, j, hj, rfl⟩
    simp only; omega
  · rintro ⟨a, b, e, f⟩
    refine ⟨p.x.toNat, by omega, p.y.toNat, by omega, ?_⟩
    ext <;> simp <;> omega

theorem nodesIn_nodup (g : Grid ℝ) (objs : List (Object ℝ)) : (nodesIn g objs).Nodup := by
  unfold nodesIn
  refine List.Nodup.filter _ ?_
  rw [List.nodup_flatMap]
  refine ⟨fun i _ => List.Nodup.map (fun a b h => by simpa using congrArg V2.y h) List.nodup_range, ?_⟩
  refine List.Pairwise.imp ?_ (List.nodup_range (n := g.Nx.toNat))
  intro a b hab
  simp only [Function.onFun, List.disjoint_left, List.mem_map]
  rintro p ⟨j, -, rfl⟩ ⟨k, -, e⟩
  have := congrArg V2.x e
  simp only at this
  omega

/-! ## Outside the grid the dispersive media change nothing -/

theorem debye_outside {g : Grid ℝ} {pE : Tensor ℝ} (hp : pE.Dim g.Nx g.Ny) {i j : ℤ} (hin : ¬ ((0 ≤ i ∧ i < g.Nx) ∧ 0 ≤ j ∧ j < g.Ny))
    {l l' : List (String × DebyePol ℝ)} {E E' : Tensor ℝ} (hw : ∀ q ∈ l, q.2.WF g.Nx g.Ny) (hE : E.Dim g.Nx g.Ny)
    (h : mapUpdateJ (fun P Ez => P.updateJ g (some pE) Ez) l E = .ok (l', E')) : E'.val i j = E.val i j := by
  refine (mapUpdateJ_node _ (fun P : DebyePol ℝ => P.WF g.Nx g.Ny) (fun E => E.Dim g.Nx g.Ny) i j ?_ l E hw hE l' E' h).2.2
  intro P E w d P' E' hu
  have hcl := DebyePol.updateJ_closed w hp d
  obtain ⟨P2, E2, u, w2, d2⟩ := DebyePol.updateJ_ok w hp d
  rw [hu] at hcl u
  obtain ⟨rfl, rfl⟩ := Prod.mk.inj (Except.ok.inj u)
  obtain ⟨-, e2⟩ := Prod.mk.inj (Except.ok.inj hcl)
  refine ⟨w2, d2, ?_⟩
  rw [e2]
  simp only [Tensor.setv_val]
  rw [if_neg (by rw [mem_rect]; exact hin)]

theorem drude_outside {g : Grid ℝ} {pE : Tensor ℝ} (hp : pE.Dim g.Nx g.Ny) {i j : ℤ} (hin : ¬ ((0 ≤ i ∧ i < g.Nx) ∧ 0 ≤ j ∧ j < g.Ny))
    {l l' : List (String × DrudePol ℝ)} {E E' : Tensor ℝ} (hw : ∀ q ∈ l, q.2.WF g.Nx g.Ny) (hE : E.Dim g.Nx g.Ny)
    (h : mapUpdateJ (fun P Ez => P.updateJ g (some pE) Ez) l E = .ok (l', E')) : E'.val i j = E.val i j := by
  refine (mapUpdateJ_node _ (fun P : DrudePol ℝ => P.WF g.Nx g.Ny) (fun E => E.Dim g.Nx g.Ny) i j ?_ l E hw hE l' E' h).2.2
  intro P E w d P' E' hu
  have hcl := DrudePol.updateJ_closed w hp d
  obtain ⟨P2, E2, u, w2, d2⟩ := DrudePol.updateJ_ok w hp d
  rw [hu] at hcl u
  obtain ⟨rfl, rfl⟩ := Prod.mk.inj (Except.ok.inj u)
  obtain ⟨-, e2⟩ := Prod.mk.inj (Except.ok.inj hcl)
  refine ⟨w2, d2, ?_⟩
  rw [e2]
  simp only [Tensor.setv_val]
  rw [if_neg (by rw [mem_rect]; exact hin)]

/-- No dispersive medium at the node. -/
structure Core.Still (c : Core ℝ) (i j : ℤ) : Prop where
  debye : ∀ q ∈ c.debye, DebyeQuiet q.2 i j
  drude : ∀ q ∈ c.drude, DrudeQuiet q.2 i j

/-- Where there is no dispersive medium the electric stages end after the main loop and the layer. -/
theorem Core.Step.still {c c' : Core ℝ} {l l' E2 E3 E4 f} (hc : c.Std) (h : c.Step l c' l' E2 E3 E4 f) (hl : c.lorentz = []) {i j : ℤ}
    (i0 : 0 ≤ i) (i1 : i < c.g.Nx) (j0 : 0 ≤ j) (j1 : j < c.g.Ny) (q : c.Still i j) : c'.Still i j ∧ E4.val i j = c.E1.val i j := by
  obtain ⟨q0, d0, v0⟩ := debye_quiet hc.wf.f.Ez i0 i1 j0 j1 hc.wf.debye q.debye (E1_dim hc) h.hd
  obtain ⟨q1, d1, v1⟩ := drude_quiet hc.wf.f.Ez i0 i1 j0 j1 hc.wf.drude q.drude d0 h.hr
  have hd := h.hl
  rw [hl] at hd
  have hE4 : E4 = E3 := (congrArg Prod.snd (Except.ok.inj hd)).symm
  exact ⟨⟨fun q hq => (q0 q hq).2, fun q hq => (q1 q hq).2⟩, by rw [hE4, v1, v0]⟩

theorem Core.Step.outside {c c' : Core ℝ} {l l' E2 E3 E4 f} (hc : c.Std) (h : c.Step l c' l' E2 E3 E4 f) (hl : c.lorentz = []) {i j : ℤ}
    (hin : ¬ ((0 ≤ i ∧ i < c.g.Nx) ∧ 0 ≤ j ∧ j < c.g.Ny)) : E4.val i j = c.E1.val i j := by
  have hd := h.hl
  rw [hl] at hd
  have hE4 : E4 = E3 := (congrArg Prod.snd (Except.ok.inj hd)).symm
  rw [hE4, drude_outside hc.wf.f.Ez hin hc.wf.drude h.d2 h.hr, debye_outside hc.wf.f.Ez hin hc.wf.debye (E1_dim hc) h.hd]

theorem Core.Step.noLorentz {c c' : Core ℝ} {l l' E2 E3 E4 f} (h : c.Step l c' l' E2 E3 E4 f) (hl : c.lorentz = []) : c'.lorentz = [] := by
  have hd := h.hl
  rw [hl] at hd
  exact (congrArg Prod.fst (Except.ok.inj hd)).symm

/-- No dispersive medium at all. -/
structure Core.Bare (c : Core ℝ) : Prop where
  debye : c.debye = []
  drude : c.drude = []
  lorentz : c.lorentz = []

theorem Core.Step.bare {c c' : Core ℝ} {l l' E2 E3 E4 f} (h : c.Step l c' l' E2 E3 E4 f) (b : c.Bare) : c'.Bare ∧ E4 = c.E1 := by
  have h1 := h.hd
  have h2 := h.hr
  have h3 := h.hl
  rw [b.debye] at h1
  rw [b.drude] at h2
  rw [b.lorentz] at h3
  refine ⟨⟨(congrArg Prod.fst (Except.ok.inj h1)).symm, (congrArg Prod.fst (Except.ok.inj h2)).symm, (congrArg Prod.fst (Except.ok.inj h3)).symm⟩, ?_⟩
  exact (congrArg Prod.snd (Except.ok.inj h3)).symm.trans ((congrArg Prod.snd (Except.ok.inj h2)).symm.trans
    (congrArg Prod.snd (Except.ok.inj h1)).symm)

section
variable {c : Core ℝ} {srcs : List (Source ℝ)} {cs : ℕ → Core ℝ} {ls : ℕ → List (Source ℝ)} {E2 E3 E4 : ℕ → Tensor ℝ} {fs : ℕ → Flds ℝ}

theorem Trace.g (t : Trace c srcs cs ls E2 E3 E4 fs) : ∀ n, (cs n).g = c.g
  | 0 => by rw [t.c0]
  | n + 1 => (t.step n).g.trans (t.g n)

theorem Trace.coef (t : Trace c srcs cs ls E2 E3 E4 fs) : ∀ n, c.f.SameCoef (cs n).f
  | 0 => by rw [t.c0]; exact ⟨rfl, rfl, rfl, rfl⟩
  | n + 1 => by
    obtain ⟨a, b, e, f⟩ := t.coef n
    obtain ⟨a', b', e', f'⟩ := (t.step n).coef'
    exact ⟨a'.trans a, b'.trans b, e'.trans e, f'.trans f⟩

theorem Trace.clock (t : Trace c srcs cs ls E2 E3 E4 fs) : ∀ n, (cs n).t = c.t + n * c.g.dt
  | 0 => by rw [t.c0]; simp
  | n + 1 => by rw [(t.step n).t, t.clock n, t.g n]; push_cast; ring

theorem Trace.bare (t : Trace c srcs cs ls E2 E3 E4 fs) (h : c.Bare) : ∀ n, (cs n).Bare
  | 0 => by rw [t.c0]; exact h
  | n + 1 => ((t.step n).bare (t.bare h n)).1

theorem Trace.noLorentz (t : Trace c srcs cs ls E2 E3 E4 fs) (h : c.lorentz = []) : ∀ n, (cs n).lorentz = []
  | 0 => by rw [t.c0]; exact h
  | n + 1 => (t.step n).noLorentz (t.noLorentz h n)

theorem Trace.still (t : Trace c srcs cs ls E2 E3 E4 fs) (h : c.lorentz = []) {i j : ℤ} (i0 : 0 ≤ i) (i1 : i < c.g.Nx) (j0 : 0 ≤ j)
    (j1 : j < c.g.Ny) (q : c.Still i j) : ∀ n, (cs n).Still i j
  | 0 => by rw [t.c0]; exact q
  | n + 1 => ((t.step n).still (t.std n) (t.noLorentz h n) i0 (by rw [t.g]; exact i1) j0 (by rw [t.g]; exact j1) (t.still h i0 i1 j0 j1 q n)).1

end

/-! ## The simulation without the objects -/

/-- The fields of `c` in the media of `c0`. -/
def Core.inMediaOf (c0 c : Core ℝ) : Core ℝ :=
  { c with f := { c.f with Ca := c0.f.Ca, Cb := c0.f.Cb, Da := c0.f.Da, Db := c0.f.Db } }

theorem Core.Twin.inMedia {c0 c d : Core ℝ} (T : c.Twin d) (a : d.f.Ca = c0.f.Ca) (b : d.f.Cb = c0.f.Cb) : (c0.inMediaOf c).E1 = d.E1 := by
  refine Tensor.ext' ?_ ?_ fun x y => ?_
  · show c.f.Ez.nx = d.f.Ez.nx; rw [T.Ez]
  · show c.f.Ez.ny = d.f.Ez.ny; rw [T.Ez]
  · unfold Core.E1 Core.inMediaOf Tensor.upd ezVal
    simp only [Tensor.setv_val, T.pml, T.g, T.Hx, T.Hy, T.Ez, T.sc, a, b]

/-- The current at a node at the end of step `m`. -/
noncomputable def currentOf (c0 : Core ℝ) (cs : ℕ → Core ℝ) (ls : ℕ → List (Source ℝ)) (i j : ℤ) (t : ℝ) : ℝ :=
  let m := ⌊t / c0.g.dt⌋₊
  (cs m).f.Ez.val i j - ((c0.inMediaOf (cs (m - 1))).E1.val i j + tfEz (cs (m - 1)).tfsf i j
    + totalContrib c0.g t (ls (m - 1)) .Ez ⟨i, j⟩)

theorem floor_step {g : Grid ℝ} (h : Lawful g) (n : ℕ) : ⌊((n : ℝ) * g.dt + g.dt) / g.dt⌋₊ = n + 1 := by
  have hd : 0 < g.dt := by rw [h.dt]; have := h.dx; linarith
  have : ((n : ℝ) * g.dt + g.dt) / g.dt = ((n + 1 : ℕ) : ℝ) := by
    push_cast; field_simp
  rw [this, Nat.floor_natCast]

theorem currents_run {c c0 : Core ℝ} (hc : c.Std) (h0 : c0.Std) (T : c.Twin c0) (ht : c.t = 0) (htf : c0.tfsf = c.tfsf) (b : c0.Bare)
    (hl : c.lorentz = [])
    (hD : ∀ i j, 0 ≤ i → i < c.g.Nx → 0 ≤ j → j < c.g.Ny → c0.f.Da.val i j = c.f.Da.val i j ∧ c0.f.Db.val i j = c.f.Db.val i j)
    {nodes : List (V2 ℤ)} (hn : nodes.Nodup) (hin : ∀ p ∈ nodes, InGrid c.g p)
    (off : ∀ i j, 0 ≤ i → i < c.g.Nx → 0 ≤ j → j < c.g.Ny → (⟨i, j⟩ : V2 ℤ) ∉ nodes → c.Still i j ∧
      c0.f.Ca.val i j = c.f.Ca.val i j ∧ c0.f.Cb.val i j = c.f.Cb.val i j)
    {srcs : List (Source ℝ)}
    {cs : ℕ → Core ℝ} {ls : ℕ → List (Source ℝ)} {E2 E3 E4 : ℕ → Tensor ℝ} {fs : ℕ → Flds ℝ} (R : Trace c srcs cs ls E2 E3 E4 fs)
    {ds : ℕ → Core ℝ} {ms : ℕ → List (Source ℝ)} {A B D : ℕ → Tensor ℝ} {gs : ℕ → Flds ℝ}
    (Q : Trace c0 (srcs ++ nodes.map (current c.g (currentOf c0 cs ls))) ds ms A B D gs) :
    ∀ n, (cs n).Twin (ds n) ∧ (ds n).tfsf = (cs n).tfsf
  | 0 => by rw [R.c0, Q.c0]; exact ⟨T, htf⟩
  | n + 1 => by
    obtain ⟨Tn, tn⟩ := currents_run hc h0 T ht htf b hl hD hn hin off R Q n
    have S := R.step n
    have S' := Q.step n
    have gn : (cs n).g = c.g := R.g n
    have tc : (cs n).t + (cs n).g.dt = n * c.g.dt + c.g.dt := by rw [R.clock, gn, ht, zero_add]
    obtain ⟨ca, cb, cda, cdb⟩ := R.coef n
    obtain ⟨da, db, dda, ddb⟩ := Q.coef n
    have tf : (ds (n + 1)).tfsf = (cs (n + 1)).tfsf := by
      have a1 := S.tf
      have a2 := S'.tf
      rw [tn, a1] at a2
      exact (Except.ok.inj a2).symm
    have src : ∀ C p, totalContrib (cs n).g ((cs n).t + (cs n).g.dt) (ms n) C p = totalContrib (cs n).g ((cs n).t + (cs n).g.dt) (ls n) C p
        + totalContrib c.g (n * c.g.dt + c.g.dt) (nodes.map (current c.g (currentOf c0 cs ls))) C p := fun C p => by
      rw [totalContrib_same (Q.same n), totalContrib_append, totalContrib_same (R.same n), gn]
      congr 2
      rw [← tc, gn]
    have bn := S'.bare (Q.bare b n)
    have E1 : (c0.inMediaOf (cs n)).E1 = (ds n).E1 := Tn.inMedia da db
    refine ⟨Tn.step (R.std n) S S' (fun i j i0 i1 j0 j1 => ?_) (fun x y => ?_) (fun x y => ?_) (fun x y => ?_) (fun x y => by rw [tf])
      (fun x y => by rw [tf]), tf⟩
    · rw [gn] at i1 j1
      rw [dda, ddb, cda, cdb]
      exact hD i j i0 i1 j0 j1
    · by_cases hx : (⟨x, y⟩ : V2 ℤ) ∈ nodes
      · rw [S'.fE, bn.2, tn, Tn.t, Tn.g, src, currents_at hc.law hn hx]
        unfold currentOf
        have fl : ⌊((n : ℝ) * c.g.dt + c.g.dt) / c0.g.dt⌋₊ = n + 1 := by rw [T.g]; exact floor_step hc.law n
        simp only [fl, Nat.add_sub_cancel]
        rw [E1, S.eE, tc, T.g, gn]
        ring
      · have key : (E4 n).val x y = (ds n).E1.val x y := by
          by_cases hi : (0 ≤ x ∧ x < c.g.Nx) ∧ 0 ≤ y ∧ y < c.g.Ny
          · obtain ⟨⟨x0, x1⟩, y0, y1⟩ := hi
            obtain ⟨k1, k2, k3⟩ := off x y x0 x1 y0 y1 hx
            rw [(S.still (R.std n) (R.noLorentz hl n) x0 (by rw [gn]; exact x1) y0 (by rw [gn]; exact y1) (R.still hl x0 x1 y0 y1 k1 n)).2]
            exact (Tn.E1 (R.std n) x y fun _ _ _ _ => ⟨by rw [da, ca, k2], by rw [db, cb, k3]⟩).symm
          · rw [S.outside (R.std n) (R.noLorentz hl n) (by rw [gn]; exact hi)]
            refine (Tn.E1 (R.std n) x y fun a1 a2 a3 a4 => absurd ⟨⟨a1, ?_⟩, a3, ?_⟩ hi).symm
            · rw [gn] at a2; exact a2
            · rw [gn] at a4; exact a4
        rw [S'.fE, S.fE, bn.2, tn, Tn.t, Tn.g, src, currents_not hc.law fun _ => hx, key]
        ring
    · rw [src, currents_not hc.law (by simp), add_zero]
    · rw [src, currents_not hc.law (by simp), add_zero]

end Qbox
