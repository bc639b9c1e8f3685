import Verif.Lemmas.RecipFilter
import Verif.Lemmas.Layer

/-!
# The fields of a run from silence, as power series
-/

namespace Qbox
open PowerSeries Spec Props

set_option linter.unusedSectionVars false
set_option linter.unusedSimpArgs false

/-- All states of a run, with the intermediate values of every step. -/
structure Trace (c : Core ℝ) (srcs : List (Source ℝ)) (cs : ℕ → Core ℝ) (ls : ℕ → List (Source ℝ)) (E2 E3 E4 : ℕ → Tensor ℝ)
    (fs : ℕ → Flds ℝ) : Prop where
  c0 : cs 0 = c
  l0 : ls 0 = srcs
  std : ∀ n, (cs n).Std
  step : ∀ n, (cs n).Step (ls n) (cs (n + 1)) (ls (n + 1)) (E2 n) (E3 n) (E4 n) (fs n)
  run : ∀ n, c.run n srcs = .ok (cs n, ls n)

theorem Core.run_last : ∀ (n : ℕ) {c c' c'' : Core ℝ} {l l' l'' : List (Source ℝ)}, c.run n l = .ok (c', l') →
    c'.update l' = .ok (c'', l'') → c.run (n + 1) l = .ok (c'', l'')
  | 0, c, c', c'', l, l', l'', h, hu => by
    cases h
    unfold Core.run
    rw [hu]; rfl
  | n + 1, c, c', c'', l, l', l'', h, hu => by
    unfold Core.run at h ⊢
    obtain ⟨⟨d, m⟩, h1, h2⟩ := (Except.bind_ok ..).mp h
    rw [h1]
    exact Core.run_last n h2 hu

theorem Core.trace {c : Core ℝ} (hc : c.Std) (srcs : List (Source ℝ)) (hs : ∀ s ∈ srcs, Fits c.g s) :
    ∃ cs ls E2 E3 E4 fs, Trace c srcs cs ls E2 E3 E4 fs := by
  choose cs ls h using fun n => Core.run_std n hc srcs hs
  have st : ∀ n, ∃ E2 E3 E4 f, (cs n).Step (ls n) (cs (n + 1)) (ls (n + 1)) E2 E3 E4 f := by
    intro n
    obtain ⟨h1, h2, h3, h4⟩ := h n
    obtain ⟨c', l', E2, E3, E4, f, u, S⟩ := Core.update_step h2 (ls n) h4
    have := Core.run_last n h1 u
    rw [(h (n + 1)).1] at this
    obtain ⟨rfl, rfl⟩ := Prod.mk.inj (Except.ok.inj this)
    exact ⟨E2, E3, E4, f, S⟩
  choose E2 E3 E4 f S using st
  have e0 := (h 0).1
  unfold Core.run at e0
  obtain ⟨a, b⟩ := Prod.mk.inj (Except.ok.inj e0)
  exact ⟨cs, ls, E2, E3, E4, f, a.symm, b.symm, fun n => (h n).2.1, S, fun n => (h n).1⟩

section
variable {c : Core ℝ} {srcs : List (Source ℝ)} {cs : ℕ → Core ℝ} {ls : ℕ → List (Source ℝ)} {E2 E3 E4 : ℕ → Tensor ℝ} {fs : ℕ → Flds ℝ}

/-- What no step changes. -/
structure SameFrame (c d : Core ℝ) : Prop where
  g : d.g = c.g
  sc : d.sc = c.sc
  Nx : d.pml.Nx = c.pml.Nx
  Ny : d.pml.Ny = c.pml.Ny
  par : d.pml.par = c.pml.par
  co : d.pml.co = c.pml.co
  Ca : d.f.Ca = c.f.Ca
  Cb : d.f.Cb = c.f.Cb
  Da : d.f.Da = c.f.Da
  Db : d.f.Db = c.f.Db
  tfsf : d.tfsf = none

theorem Trace.frame (t : Trace c srcs cs ls E2 E3 E4 fs) (hz : c.tfsf = none) : ∀ n, SameFrame c (cs n)
  | 0 => by rw [t.c0]; exact ⟨rfl, rfl, rfl, rfl, rfl, rfl, rfl, rfl, rfl, rfl, hz⟩
  | n + 1 => by
    have F := t.frame hz n
    have S := t.step n
    obtain ⟨a, b, d, e⟩ := S.coef'
    have tf := S.tf
    rw [F.tfsf] at tf
    refine ⟨S.g.trans F.g, S.sc.trans F.sc, ?_, ?_, ?_, ?_, a.trans F.Ca, b.trans F.Cb, d.trans F.Da, e.trans F.Db, ?_⟩
    · rw [S.pml]; exact F.Nx
    · rw [S.pml]; exact F.Ny
    · rw [S.pml]; exact F.par
    · rw [S.pml]; exact F.co
    · exact (Except.ok.inj tf).symm

theorem Trace.time (t : Trace c srcs cs ls E2 E3 E4 fs) (hz : c.tfsf = none) : ∀ n, (cs n).t = c.t + n * c.g.dt
  | 0 => by rw [t.c0]; simp
  | n + 1 => by
    rw [(t.step n).t, t.time hz n, (t.frame hz n).g]; push_cast; ring

theorem sameSrc_trans {l m k : List (Source ℝ)} (a : List.Forall₂ SameSrc l m) (b : List.Forall₂ SameSrc m k) :
    List.Forall₂ SameSrc l k := by
  induction a generalizing k with
  | nil => cases b; exact .nil
  | cons h _ ih =>
    cases b with
    | cons h' r => exact .cons ⟨h'.1.trans h.1, h'.2.1.trans h.2.1, h'.2.2.trans h.2.2⟩ (ih r)

theorem Trace.same (t : Trace c srcs cs ls E2 E3 E4 fs) : ∀ n, List.Forall₂ SameSrc srcs (ls n)
  | 0 => by rw [t.l0]; exact List.forall₂_same.mpr fun s _ => ⟨rfl, rfl, rfl⟩
  | n + 1 => by
    exact sameSrc_trans (t.same n) (t.step n).same

/-- What the sources add at a node at the successive steps. -/
noncomputable def added (c : Core ℝ) (srcs : List (Source ℝ)) (C : Fields) (i j : ℤ) : ℕ → ℝ :=
  fun n => totalContrib c.g (c.t + n * c.g.dt + c.g.dt) srcs C ⟨i, j⟩

theorem totalContrib_same {g : Grid ℝ} {t : ℝ} {C : Fields} {p : V2 ℤ} {l m : List (Source ℝ)} (h : List.Forall₂ SameSrc l m) :
    totalContrib g t m C p = totalContrib g t l C p := by
  induction h with
  | nil => rfl
  | cons h _ ih =>
    unfold totalContrib at ih ⊢
    simp only [List.map_cons, List.sum_cons, ih]
    congr 1
    have e : ∀ x y : Source ℝ, y.kind = x.kind → (Drives g y C p ↔ Drives g x C p) := fun x y k => by unfold Drives; rw [k]
    simp only [Spec.contrib, h.2.2]
    classical exact if_congr (e _ _ h.1) rfl rfl

theorem Trace.contrib (t : Trace c srcs cs ls E2 E3 E4 fs) (hz : c.tfsf = none) (C : Fields) (i j : ℤ) (n : ℕ) :
    totalContrib (cs n).g ((cs n).t + (cs n).g.dt) (ls n) C ⟨i, j⟩ = added c srcs C i j n := by
  rw [totalContrib_same (t.same n), (t.frame hz n).g, t.time hz n]; rfl

/-! ## the dispersive media at a node -/

/-- All maps, one after the other: the filter of the field after the main loop and the layer. -/
noncomputable def nodeFilt (c : Core ℝ) (i j : ℤ) : PowerSeries ℝ :=
  (listFilt (lorentzFilt c.g i j) c.lorentz).1 * (listFilt (drudeFilt c.g i j) c.drude).1 * (listFilt (debyeFilt c.g i j) c.debye).1

/-- The filter of the previous field. -/
noncomputable def prevFilt (c : Core ℝ) (i j : ℤ) : PowerSeries ℝ :=
  (listFilt (lorentzFilt c.g i j) c.lorentz).1 * (listFilt (drudeFilt c.g i j) c.drude).1 * (listFilt (debyeFilt c.g i j) c.debye).2
    + (listFilt (lorentzFilt c.g i j) c.lorentz).1 * (listFilt (drudeFilt c.g i j) c.drude).2
    + (listFilt (lorentzFilt c.g i j) c.lorentz).2 * X

noncomputable def serE (cs : ℕ → Core ℝ) (i j : ℤ) : PowerSeries ℝ := ser fun n => (cs n).f.Ez.val i j
noncomputable def serHx (cs : ℕ → Core ℝ) (i j : ℤ) : PowerSeries ℝ := ser fun n => (cs n).f.Hx.val i j
noncomputable def serHy (cs : ℕ → Core ℝ) (i j : ℤ) : PowerSeries ℝ := ser fun n => (cs n).f.Hy.val i j

theorem Trace.Enode (t : Trace c srcs cs ls E2 E3 E4 fs) (hz : Silent c) {i j : ℤ} (i0 : 0 ≤ i) (i1 : i < c.g.Nx) (j0 : 0 ≤ j)
    (j1 : j < c.g.Ny) : serE cs i j = nodeFilt c i j * (X * at_ (fun n => (cs n).E1) i j) + prevFilt c i j * (X * serE cs i j)
      + X * ser (added c srcs .Ez i j) := by
  have F := t.frame hz.tfsf
  have hE : ∀ n, ((cs n).f.Ez).Dim c.g.Nx c.g.Ny := fun n => by rw [← (F n).g]; exact (t.std n).wf.f.Ez
  have e0 : at_ (fun n => (cs n).f.Ez) i j = serE cs i j := rfl
  -- Debye
  obtain ⟨d2, v2⟩ := list_filter (fun n (P : DebyePol ℝ) E => P.updateJ c.g (some (cs n).f.Ez) E)
    (fun P => P.WF c.g.Nx c.g.Ny ∧ T3Zero P.J) (debyeFilt c.g i j) (fun E => E.Dim c.g.Nx c.g.Ny) i j (X * serE cs i j)
    (fun P Ein Eout ok d u => debye_entry i0 i1 j0 j1 ok.1 ok.2 hE d u) c.debye (fun n => (cs n).debye) (fun n => (cs n).E1) E2
    (by simp only [t.c0]) (fun p hp => ⟨by have := (t.std 0).wf.debye p; rw [t.c0] at this; exact this hp, hz.debye p hp⟩)
    hE (fun n => by have := (t.step n).hd; rw [(F n).g] at this; exact this)
  -- Drude
  obtain ⟨d3, v3⟩ := list_filter (fun n (P : DrudePol ℝ) E => P.updateJ c.g (some (cs n).f.Ez) E)
    (fun P => P.WF c.g.Nx c.g.Ny ∧ T3Zero P.J) (drudeFilt c.g i j) (fun E => E.Dim c.g.Nx c.g.Ny) i j (X * serE cs i j)
    (fun P Ein Eout ok d u => drude_entry i0 i1 j0 j1 ok.1 ok.2 hE d u) c.drude (fun n => (cs n).drude) E2 E3
    (by simp only [t.c0]) (fun p hp => ⟨by have := (t.std 0).wf.drude p; rw [t.c0] at this; exact this hp, hz.drude p hp⟩)
    d2 (fun n => by have := (t.step n).hr; rw [(F n).g] at this; exact this)
  -- Lorentz
  have v4 : X * at_ E4 i j = (listFilt (lorentzFilt c.g i j) c.lorentz).1 * (X * at_ E3 i j)
      + (listFilt (lorentzFilt c.g i j) c.lorentz).2 * (X * (X * serE cs i j)) := by
    by_cases hn : c.lorentz = []
    · exact (list_filter (fun n (P : LorentzPol ℝ) E => P.updateJ c.g (cs n).prevE E) (fun _ => False) (lorentzFilt c.g i j)
        (fun E => E.Dim c.g.Nx c.g.Ny) i j (X * (X * serE cs i j)) (fun _ _ _ h => h.elim) c.lorentz (fun n => (cs n).lorentz) E3 E4
        (by simp only [t.c0]) (by rw [hn]; simp) d3 (fun n => by have := (t.step n).hl; rw [(F n).g] at this; exact this)).2
    · have some : ∀ n, ((cs n).prevE).isSome := by
        intro n
        induction n with
        | zero => rw [t.c0]; have := (t.std 0).wf.hasE; rw [t.c0] at this; exact this (Or.inr (Or.inr hn))
        | succ n ih => rw [(t.step n).prevE, assignIf_some ih]; rfl
      choose pE hpE using fun n => Option.isSome_iff_exists.mp (some n)
      have pd : ∀ n, (pE n).Dim c.g.Nx c.g.Ny := fun n => by rw [← (F n).g]; exact (t.std n).wf.prevE _ (hpE n)
      have sp : at_ pE i j = X * serE cs i j := by
        have z0 : (pE 0).val i j = 0 := hz.prevE (pE 0) (by rw [← t.c0]; exact hpE 0) i j
        have := ser_shift (a := fun n => (pE n).val i j) z0
        refine this.trans (congrArg (X * ·) (ser_congr fun n => ?_))
        have a := (t.step n).prevE
        rw [assignIf_some (some n), hpE (n + 1)] at a
        rw [Option.some.inj a]
      have := (list_filter (fun n (P : LorentzPol ℝ) E => P.updateJ c.g (cs n).prevE E)
        (fun P => P.WF c.g.Nx c.g.Ny ∧ T3Zero P.J ∧ T3Zero P.prevJ) (lorentzFilt c.g i j) (fun E => E.Dim c.g.Nx c.g.Ny) i j (X * at_ pE i j)
        (fun P Ein Eout ok d u => lorentz_entry i0 i1 j0 j1 ok.1 ok.2 pd d (fun n => by rw [← hpE n]; exact u n)) c.lorentz
        (fun n => (cs n).lorentz) E3 E4 (by simp only [t.c0])
        (fun p hp => ⟨by have := (t.std 0).wf.lorentz p; rw [t.c0] at this; exact this hp, hz.lorentz p hp⟩)
        d3 (fun n => by have := (t.step n).hl; rw [(F n).g] at this; exact this)).2
      rw [sp] at this
      exact this
  have v5 : serE cs i j = X * at_ E4 i j + X * ser (added c srcs .Ez i j) := by
    have z0 : (cs 0).f.Ez.val i j = 0 := by rw [t.c0]; exact hz.Ez i j
    rw [← mul_add, at_, ← ser_add]
    refine (ser_shift z0).trans (congrArg (X * ·) (ser_congr fun n => ?_))
    rw [(t.step n).eE, (t.step n).fE, (F n).tfsf, t.contrib hz.tfsf]
    simp [tfEz]
  rw [v4, v3, v2] at v5
  calc serE cs i j = _ := v5
    _ = _ := by unfold nodeFilt prevFilt; ring

/-! ## the absorbing layer -/

theorem psi_ser {ψ z d : ℕ → ℝ} {b k dx : ℝ} (h0 : ψ 0 = 0) (h1 : ∀ n, ψ (n + 1) = z n) (h2 : ∀ n, z n = b * ψ n + k * d n / dx) :
    ser z = (1 - C b * X)⁻¹ * C (k / dx) * ser d := by
  rw [mul_assoc]
  refine solve_one _ _ _ ?_
  have e : ser ψ = X * ser z := (ser_shift h0).trans (congrArg (X * ·) (ser_congr h1))
  rw [← e, ← ser_smul, ← ser_smul, ← ser_add]
  refine ser_congr fun n => ?_
  rw [h2 n]; ring

open Classical in
/-- One side of the layer, as a factor of a difference quotient. -/
noncomputable def side (p : Prop) (b k : ℝ) : PowerSeries ℝ := if p then (1 - C b * X)⁻¹ * C k else 0

/-- The stretching of the differences of `Hy` in the column `i` and of `Hx` in the row `j`. -/
noncomputable def stretchEx (c : Core ℝ) (i : ℤ) : PowerSeries ℝ :=
  1 + side (1 ≤ i ∧ i ≤ c.g.T) (c.pml.co.be_x.val i) (c.pml.co.ce_x.val i)
    + side (1 ≤ c.g.Nx - 1 - i ∧ c.g.Nx - 1 - i ≤ c.g.T) (c.pml.co.be_x.val (c.g.Nx - 1 - i)) (c.pml.co.ce_x.val (c.g.Nx - 1 - i))
noncomputable def stretchEy (c : Core ℝ) (j : ℤ) : PowerSeries ℝ :=
  1 + side (1 ≤ j ∧ j ≤ c.g.T) (c.pml.co.be_y.val j) (c.pml.co.ce_y.val j)
    + side (1 ≤ c.g.Ny - 1 - j ∧ c.g.Ny - 1 - j ≤ c.g.T) (c.pml.co.be_y.val (c.g.Ny - 1 - j)) (c.pml.co.ce_y.val (c.g.Ny - 1 - j))
/-- The stretching of the differences of `Ez`. -/
noncomputable def stretchHx (c : Core ℝ) (i : ℤ) : PowerSeries ℝ :=
  1 + side (1 ≤ i ∧ i < c.g.T) (c.pml.co.bh_x.val i) (c.pml.co.ch_x.val i)
    + side (1 ≤ c.g.Nx - 2 - i ∧ c.g.Nx - 2 - i < c.g.T) (c.pml.co.bh_x.val (c.g.Nx - 2 - i)) (c.pml.co.ch_x.val (c.g.Nx - 2 - i))
noncomputable def stretchHy (c : Core ℝ) (j : ℤ) : PowerSeries ℝ :=
  1 + side (1 ≤ j ∧ j < c.g.T) (c.pml.co.bh_y.val j) (c.pml.co.ch_y.val j)
    + side (1 ≤ c.g.Ny - 2 - j ∧ c.g.Ny - 2 - j < c.g.T) (c.pml.co.bh_y.val (c.g.Ny - 2 - j)) (c.pml.co.ch_y.val (c.g.Ny - 2 - j))

theorem side_ser {p : Prop} {ψ z d v : ℕ → ℝ} {b k dx : ℝ} (q : ℝ) (h0 : ψ 0 = 0) (h1 : p → ∀ n, ψ (n + 1) = z n)
    (h2 : ∀ n, z n = b * ψ n + k * d n / dx) (h3 : p → ∀ n, v n = q * z n) (h4 : ¬ p → ∀ n, v n = 0) :
    ser v = C (q / dx) * side p b k * ser d := by
  unfold side
  by_cases hp : p
  · rw [if_pos hp, ser_congr (h3 hp), ser_smul, psi_ser h0 (h1 hp) h2, div_eq_mul_inv q, div_eq_mul_inv k, map_mul, map_mul]; ring
  · rw [if_neg hp, ser_congr (h4 hp), ser_zero]; ring

theorem silentE (t : Trace c srcs cs ls E2 E3 E4 fs) (hz : Silent c) (i j : ℤ) : serE cs i j = X * ser fun n => (cs (n + 1)).f.Ez.val i j :=
  ser_shift (by rw [t.c0]; exact hz.Ez i j)

theorem silentHx (t : Trace c srcs cs ls E2 E3 E4 fs) (hz : Silent c) (i j : ℤ) : serHx cs i j = X * ser fun n => (cs (n + 1)).f.Hx.val i j :=
  ser_shift (by rw [t.c0]; exact hz.Hx i j)

theorem silentHy (t : Trace c srcs cs ls E2 E3 E4 fs) (hz : Silent c) (i j : ℤ) : serHy cs i j = X * ser fun n => (cs (n + 1)).f.Hy.val i j :=
  ser_shift (by rw [t.c0]; exact hz.Hy i j)

/-- The main loop and the layer at a node that is not on the frame. -/
theorem Trace.E1law (t : Trace c srcs cs ls E2 E3 E4 fs) (hz : Silent c) {i j : ℤ} (i0 : 1 ≤ i) (i1 : i < c.g.Nx - 1) (j0 : 1 ≤ j)
    (j1 : j < c.g.Ny - 1) : at_ (fun n => (cs n).E1) i j = C (c.f.Ca.val i j) * serE cs i j + C (c.f.Cb.val i j / c.g.dx) *
      (stretchEx c i * (serHy cs i j - serHy cs (i - 1) j) - stretchEy c j * (serHx cs i j - serHx cs i (j - 1))) := by
  have F := t.frame hz.tfsf
  have hc : c.Std := by have := t.std 0; rwa [t.c0] at this
  obtain ⟨w1, w2, w3, -⟩ := hc.wf.pml
  have pd : c.pml.par.dx = c.g.dx := by rw [hc.par]; rfl
  have dHx : serHx cs i j - serHx cs i (j - 1) = ser fun n => (cs n).f.Hx.val i j - (cs n).f.Hx.val i (j - 1) := by
    unfold serHx; rw [← ser_sub]
  have dHy : serHy cs i j - serHy cs (i - 1) j = ser fun n => (cs n).f.Hy.val i j - (cs n).f.Hy.val (i - 1) j := by
    unfold serHy; rw [← ser_sub]
  have hm : (i, j) ∈ rect 1 (c.g.Nx - 1) 1 (c.g.Ny - 1) := by rw [mem_rect]; simp only; omega
  have k1 : ((i, j) ∈ rect 1 (c.g.Nx - 1) 1 (c.g.T + 1)) ↔ (1 ≤ j ∧ j ≤ c.g.T) := by rw [mem_rect]; simp only; omega
  have k2 : ((i, c.g.Ny - 1 - j) ∈ rect 1 (c.g.Nx - 1) 1 (c.g.T + 1)) ↔ (1 ≤ c.g.Ny - 1 - j ∧ c.g.Ny - 1 - j ≤ c.g.T) := by
    rw [mem_rect]; simp only; omega
  have k3 : ((i, j) ∈ rect 1 (c.g.T + 1) 1 (c.g.Ny - 1)) ↔ (1 ≤ i ∧ i ≤ c.g.T) := by rw [mem_rect]; simp only; omega
  have k4 : ((c.g.Nx - 1 - i, j) ∈ rect 1 (c.g.T + 1) 1 (c.g.Ny - 1)) ↔ (1 ≤ c.g.Nx - 1 - i ∧ c.g.Nx - 1 - i ≤ c.g.T) := by
    rw [mem_rect]; simp only; omega
  set v1 : ℕ → ℝ := fun n => if (i, j) ∈ rect 1 (c.g.Nx - 1) 1 (c.g.T + 1) then
      c.f.Cb.val i j * pEy1 c.pml.co.be_y c.pml.co.ce_y c.g.dx (cs n).f.Hx (cs n).pml.psi.Ezy1 i j else 0 with hv1
  set v2 : ℕ → ℝ := fun n => if (i, c.g.Ny - 1 - j) ∈ rect 1 (c.g.Nx - 1) 1 (c.g.T + 1) then
      c.f.Cb.val i j * pEy2 c.pml.co.be_y c.pml.co.ce_y c.g.dx (c.g.Ny - 1) (cs n).f.Hx (cs n).pml.psi.Ezy2 i (c.g.Ny - 1 - j) else 0 with hv2
  set v3 : ℕ → ℝ := fun n => if (i, j) ∈ rect 1 (c.g.T + 1) 1 (c.g.Ny - 1) then
      c.f.Cb.val i j * pEx1 c.pml.co.be_x c.pml.co.ce_x c.g.dx (cs n).f.Hy (cs n).pml.psi.Ezx1 i j else 0 with hv3
  set v4 : ℕ → ℝ := fun n => if (c.g.Nx - 1 - i, j) ∈ rect 1 (c.g.T + 1) 1 (c.g.Ny - 1) then
      c.f.Cb.val i j * pEx2 c.pml.co.be_x c.pml.co.ce_x c.g.dx (c.g.Nx - 1) (cs n).f.Hy (cs n).pml.psi.Ezx2 (c.g.Nx - 1 - i) j else 0 with hv4
  have s1 : ser v1 = C (c.f.Cb.val i j / c.g.dx) * side (1 ≤ j ∧ j ≤ c.g.T) (c.pml.co.be_y.val j) (c.pml.co.ce_y.val j)
      * ser fun n => (cs n).f.Hx.val i j - (cs n).f.Hx.val i (j - 1) := by
    refine side_ser (ψ := fun n => (cs n).pml.psi.Ezy1.val i j)
      (z := fun n => pEy1 c.pml.co.be_y c.pml.co.ce_y c.g.dx (cs n).f.Hx (cs n).pml.psi.Ezy1 i j) _ ?_ ?_ ?_ ?_ ?_
    · simp only [t.c0]; exact hz.Ezy1 i j
    · intro hp n
      have a := k1.mpr hp
      simp only [(t.step n).pml, Pml.afterE, Pml.afterH, Tensor.upd_val, (F n).Nx, (F n).par, (F n).co, w1, w3, pd, a, if_true]
    · intro n; rfl
    · intro hp n; simp only [hv1, k1.mpr hp, if_true]
    · intro hp n; simp only [hv1, mt k1.mp hp, if_false]
  have s2 : ser v2 = C (c.f.Cb.val i j / c.g.dx) * side (1 ≤ c.g.Ny - 1 - j ∧ c.g.Ny - 1 - j ≤ c.g.T) (c.pml.co.be_y.val (c.g.Ny - 1 - j))
      (c.pml.co.ce_y.val (c.g.Ny - 1 - j)) * ser fun n => (cs n).f.Hx.val i j - (cs n).f.Hx.val i (j - 1) := by
    refine side_ser (ψ := fun n => (cs n).pml.psi.Ezy2.val i (c.g.Ny - 1 - j))
      (z := fun n => pEy2 c.pml.co.be_y c.pml.co.ce_y c.g.dx (c.g.Ny - 1) (cs n).f.Hx (cs n).pml.psi.Ezy2 i (c.g.Ny - 1 - j)) _ ?_ ?_ ?_ ?_ ?_
    · simp only [t.c0]; exact hz.Ezy2 i _
    · intro hp n
      have a := k2.mpr hp
      simp only [(t.step n).pml, Pml.afterE, Pml.afterH, Tensor.upd_val, (F n).Nx, (F n).Ny, (F n).par, (F n).co, w1, w2, w3, pd, a, if_true]
    · intro n
      simp only [pEy2, show c.g.Ny - 1 - (c.g.Ny - 1 - j) = j by omega]
    · intro hp n; simp only [hv2, k2.mpr hp, if_true]
    · intro hp n; simp only [hv2, mt k2.mp hp, if_false]
  have s3 : ser v3 = C (c.f.Cb.val i j / c.g.dx) * side (1 ≤ i ∧ i ≤ c.g.T) (c.pml.co.be_x.val i) (c.pml.co.ce_x.val i)
      * ser fun n => (cs n).f.Hy.val i j - (cs n).f.Hy.val (i - 1) j := by
    refine side_ser (ψ := fun n => (cs n).pml.psi.Ezx1.val i j)
      (z := fun n => pEx1 c.pml.co.be_x c.pml.co.ce_x c.g.dx (cs n).f.Hy (cs n).pml.psi.Ezx1 i j) _ ?_ ?_ ?_ ?_ ?_
    · simp only [t.c0]; exact hz.Ezx1 i j
    · intro hp n
      have a := k3.mpr hp
      simp only [(t.step n).pml, Pml.afterE, Pml.afterH, Tensor.upd_val, (F n).Ny, (F n).par, (F n).co, w2, w3, pd, a, if_true]
    · intro n; rfl
    · intro hp n; simp only [hv3, k3.mpr hp, if_true]
    · intro hp n; simp only [hv3, mt k3.mp hp, if_false]
  have s4 : ser v4 = C (c.f.Cb.val i j / c.g.dx) * side (1 ≤ c.g.Nx - 1 - i ∧ c.g.Nx - 1 - i ≤ c.g.T) (c.pml.co.be_x.val (c.g.Nx - 1 - i))
      (c.pml.co.ce_x.val (c.g.Nx - 1 - i)) * ser fun n => (cs n).f.Hy.val i j - (cs n).f.Hy.val (i - 1) j := by
    refine side_ser (ψ := fun n => (cs n).pml.psi.Ezx2.val (c.g.Nx - 1 - i) j)
      (z := fun n => pEx2 c.pml.co.be_x c.pml.co.ce_x c.g.dx (c.g.Nx - 1) (cs n).f.Hy (cs n).pml.psi.Ezx2 (c.g.Nx - 1 - i) j) _ ?_ ?_ ?_ ?_ ?_
    · simp only [t.c0]; exact hz.Ezx2 _ j
    · intro hp n
      have a := k4.mpr hp
      simp only [(t.step n).pml, Pml.afterE, Pml.afterH, Tensor.upd_val, (F n).Nx, (F n).Ny, (F n).par, (F n).co, w1, w2, w3, pd, a, if_true]
    · intro n
      simp only [pEx2, show c.g.Nx - 1 - (c.g.Nx - 1 - i) = i by omega]
    · intro hp n; simp only [hv4, k4.mpr hp, if_true]
    · intro hp n; simp only [hv4, mt k4.mp hp, if_false]
  have val : ∀ n, (cs n).E1.val i j = c.f.Ca.val i j * (cs n).f.Ez.val i j + c.f.Cb.val i j / c.g.dx *
      (((cs n).f.Hy.val i j - (cs n).f.Hy.val (i - 1) j) - ((cs n).f.Hx.val i j - (cs n).f.Hx.val i (j - 1)))
      + ((v3 n + v4 n) - (v1 n + v2 n)) := by
    intro n
    simp only [Core.E1, Tensor.setv_val, Tensor.upd_val, (F n).g, (F n).sc, hm, if_true, ezVal, hc.sc.kedx, hc.sc.kedy, Pml.corrE, (F n).Nx,
      (F n).Ny, (F n).par, (F n).co, (F n).Ca, (F n).Cb, w1, w2, w3, pd, hv1, hv2, hv3, hv4]
    ring
  unfold at_
  rw [ser_congr val, ser_add, ser_add, ser_smul, ser_smul, ser_sub (fun n => v3 n + v4 n), ser_add v3, ser_add v1, s1, s2, s3, s4,
    ser_sub (fun n => (cs n).f.Hy.val i j - (cs n).f.Hy.val (i - 1) j), ← dHx, ← dHy]
  unfold stretchEx stretchEy serE
  ring

/-- The frame is not touched by the main loop and the layer. -/
theorem Trace.E1frame (t : Trace c srcs cs ls E2 E3 E4 fs) (hz : Silent c) {i j : ℤ} (h : i = 0 ∨ i = c.g.Nx - 1 ∨ j = 0 ∨ j = c.g.Ny - 1) :
    at_ (fun n => (cs n).E1) i j = serE cs i j := by
  have F := t.frame hz.tfsf
  have hc : c.Std := by have := t.std 0; rwa [t.c0] at this
  obtain ⟨w1, w2, w3, -⟩ := hc.wf.pml
  have n1 := hc.wide.nx
  have n2 := hc.wide.ny
  refine ser_congr fun n => ?_
  have hm : ¬ (i, j) ∈ rect 1 (c.g.Nx - 1) 1 (c.g.Ny - 1) := by rw [mem_rect]; simp only; omega
  have k1 : ¬ ((i, j) ∈ rect 1 (c.g.Nx - 1) 1 (c.g.T + 1)) := by rw [mem_rect]; simp only; omega
  have k2 : ¬ ((i, c.g.Ny - 1 - j) ∈ rect 1 (c.g.Nx - 1) 1 (c.g.T + 1)) := by rw [mem_rect]; simp only; omega
  have k3 : ¬ ((i, j) ∈ rect 1 (c.g.T + 1) 1 (c.g.Ny - 1)) := by rw [mem_rect]; simp only; omega
  have k4 : ¬ ((c.g.Nx - 1 - i, j) ∈ rect 1 (c.g.T + 1) 1 (c.g.Ny - 1)) := by rw [mem_rect]; simp only; omega
  simp only [Core.E1, Tensor.setv_val, Tensor.upd_val, (F n).g, hm, if_false, Pml.corrE, (F n).Nx, (F n).Ny, (F n).par, w1, w2, w3, k1, k2, k3, k4]
  ring

theorem Trace.HyLaw (t : Trace c srcs cs ls E2 E3 E4 fs) (hz : Silent c) (hs : ∀ i j n, added c srcs .Hy i j n = 0) {i j : ℤ}
    (i0 : 1 ≤ i) (i1 : i < c.g.Nx - 1) (j0 : 1 ≤ j) (j1 : j < c.g.Ny - 1) :
    (1 - C (c.f.Da.val i j) * X) * serHy cs i j = C (c.f.Db.val i j / c.g.dx) * stretchHx c i * (serE cs (i + 1) j - serE cs i j) := by
  have F := t.frame hz.tfsf
  have hc : c.Std := by have := t.std 0; rwa [t.c0] at this
  obtain ⟨w1, w2, w3, -⟩ := hc.wf.pml
  have pd : c.pml.par.dx = c.g.dx := by rw [hc.par]; rfl
  have hm : (i, j) ∈ rect 1 (c.g.Nx - 1) 1 (c.g.Ny - 1) := by rw [mem_rect]; simp only; omega
  have k3 : ((i, j) ∈ rect 1 (c.g.T - 1 + 1) 1 (c.g.Ny - 1)) ↔ (1 ≤ i ∧ i < c.g.T) := by rw [mem_rect]; simp only; omega
  have k4 : ((c.g.Nx - 1 - i - 1, j) ∈ rect 1 (c.g.T - 1 + 1) 1 (c.g.Ny - 1)) ↔ (1 ≤ c.g.Nx - 2 - i ∧ c.g.Nx - 2 - i < c.g.T) := by
    rw [mem_rect]; simp only; omega
  have idx : c.g.Nx - 1 - i - 1 = c.g.Nx - 2 - i := by omega
  set v3 : ℕ → ℝ := fun n => if (i, j) ∈ rect 1 (c.g.T - 1 + 1) 1 (c.g.Ny - 1) then
      c.f.Db.val i j * pHx1 c.pml.co.bh_x c.pml.co.ch_x c.g.dx (cs (n + 1)).f.Ez (cs n).pml.psi.Hyx1 i j else 0 with hv3
  set v4 : ℕ → ℝ := fun n => if (c.g.Nx - 1 - i - 1, j) ∈ rect 1 (c.g.T - 1 + 1) 1 (c.g.Ny - 1) then
      c.f.Db.val i j * pHx2 c.pml.co.bh_x c.pml.co.ch_x c.g.dx (c.g.Nx - 1) (cs (n + 1)).f.Ez (cs n).pml.psi.Hyx2 (c.g.Nx - 1 - i - 1) j else 0 with hv4
  have s3 : ser v3 = C (c.f.Db.val i j / c.g.dx) * side (1 ≤ i ∧ i < c.g.T) (c.pml.co.bh_x.val i) (c.pml.co.ch_x.val i)
      * ser fun n => (cs (n + 1)).f.Ez.val (i + 1) j - (cs (n + 1)).f.Ez.val i j := by
    refine side_ser (ψ := fun n => (cs n).pml.psi.Hyx1.val i j)
      (z := fun n => pHx1 c.pml.co.bh_x c.pml.co.ch_x c.g.dx (cs (n + 1)).f.Ez (cs n).pml.psi.Hyx1 i j) _ ?_ ?_ ?_ ?_ ?_
    · simp only [t.c0]; exact hz.Hyx1 i j
    · intro hp n
      have a := k3.mpr hp
      simp only [(t.step n).pml, (t.step n).eE, Pml.afterE, Pml.afterH, Tensor.upd_val, (F n).Ny, (F n).par, (F n).co, w2, w3, pd, a, if_true]
    · intro n; rfl
    · intro hp n; simp only [hv3, k3.mpr hp, if_true]
    · intro hp n; simp only [hv3, mt k3.mp hp, if_false]
  have s4 : ser v4 = C (c.f.Db.val i j / c.g.dx) * side (1 ≤ c.g.Nx - 2 - i ∧ c.g.Nx - 2 - i < c.g.T) (c.pml.co.bh_x.val (c.g.Nx - 2 - i))
      (c.pml.co.ch_x.val (c.g.Nx - 2 - i)) * ser fun n => (cs (n + 1)).f.Ez.val (i + 1) j - (cs (n + 1)).f.Ez.val i j := by
    refine side_ser (ψ := fun n => (cs n).pml.psi.Hyx2.val (c.g.Nx - 1 - i - 1) j)
      (z := fun n => pHx2 c.pml.co.bh_x c.pml.co.ch_x c.g.dx (c.g.Nx - 1) (cs (n + 1)).f.Ez (cs n).pml.psi.Hyx2 (c.g.Nx - 1 - i - 1) j) _ ?_ ?_ ?_ ?_ ?_
    · simp only [t.c0]; exact hz.Hyx2 _ j
    · intro hp n
      have a := k4.mpr hp
      simp only [(t.step n).pml, (t.step n).eE, Pml.afterE, Pml.afterH, Tensor.upd_val, (F n).Nx, (F n).Ny, (F n).par, (F n).co, w1, w2, w3, pd, a, if_true]
    · intro n
      simp only [pHx2, idx, show c.g.Nx - 1 - (c.g.Nx - 2 - i) = i + 1 by omega, show i + 1 - 1 = i by omega]
    · intro hp n; simp only [hv4, k4.mpr hp, if_true]
    · intro hp n; simp only [hv4, mt k4.mp hp, if_false]
  have val : ∀ n, (cs (n + 1)).f.Hy.val i j = c.f.Da.val i j * (cs n).f.Hy.val i j + c.f.Db.val i j / c.g.dx *
      ((cs (n + 1)).f.Ez.val (i + 1) j - (cs (n + 1)).f.Ez.val i j) + (v3 n + v4 n) := by
    intro n
    have a : ∀ x y, (fs n).Hy.val x y = (cs n).f.Hy.val x y := fun x y => by
      rw [(t.step n).fY, t.contrib hz.tfsf, hs]; ring
    obtain ⟨-, -, q3, q4⟩ := (t.step n).coef
    rw [(t.step n).eY, (F (n + 1)).tfsf]
    simp only [Tensor.upd_val, (F n).g, (F n).sc, hm, if_true, hyVal, hc.sc.khdx, Pml.corrHy, Pml.afterE, (F n).Nx,
      (F n).Ny, (F n).par, (F n).co, q3, q4, (F n).Da, (F n).Db, w1, w2, w3, pd, hv3, hv4, a, tfHy, ← (t.step n).eE]
    ring
  have hE : serE cs (i + 1) j - serE cs i j = X * ser fun n => (cs (n + 1)).f.Ez.val (i + 1) j - (cs (n + 1)).f.Ez.val i j := by
    rw [silentE t hz, silentE t hz, ser_sub]; ring
  have hH := silentHy t hz i j
  rw [ser_congr val, ser_add, ser_add, ser_smul, ser_smul, ser_add, s3, s4, show (ser fun n => (cs n).f.Hy.val i j) = serHy cs i j from rfl] at hH
  rw [hE]
  unfold stretchHx
  linear_combination hH

theorem Trace.HxLaw (t : Trace c srcs cs ls E2 E3 E4 fs) (hz : Silent c) (hs : ∀ i j n, added c srcs .Hx i j n = 0) {i j : ℤ}
    (i0 : 1 ≤ i) (i1 : i < c.g.Nx - 1) (j0 : 1 ≤ j) (j1 : j < c.g.Ny - 1) :
    (1 - C (c.f.Da.val i j) * X) * serHx cs i j = -(C (c.f.Db.val i j / c.g.dx) * stretchHy c j) * (serE cs i (j + 1) - serE cs i j) := by
  have F := t.frame hz.tfsf
  have hc : c.Std := by have := t.std 0; rwa [t.c0] at this
  obtain ⟨w1, w2, w3, -⟩ := hc.wf.pml
  have pd : c.pml.par.dx = c.g.dx := by rw [hc.par]; rfl
  have hm : (i, j) ∈ rect 1 (c.g.Nx - 1) 1 (c.g.Ny - 1) := by rw [mem_rect]; simp only; omega
  have k3 : ((i, j) ∈ rect 1 (c.g.Nx - 1) 1 (c.g.T - 1 + 1)) ↔ (1 ≤ j ∧ j < c.g.T) := by rw [mem_rect]; simp only; omega
  have k4 : ((i, c.g.Ny - 1 - j - 1) ∈ rect 1 (c.g.Nx - 1) 1 (c.g.T - 1 + 1)) ↔ (1 ≤ c.g.Ny - 2 - j ∧ c.g.Ny - 2 - j < c.g.T) := by
    rw [mem_rect]; simp only; omega
  have idx : c.g.Ny - 1 - j - 1 = c.g.Ny - 2 - j := by omega
  set v3 : ℕ → ℝ := fun n => if (i, j) ∈ rect 1 (c.g.Nx - 1) 1 (c.g.T - 1 + 1) then
      c.f.Db.val i j * pHy1 c.pml.co.bh_y c.pml.co.ch_y c.g.dx (cs (n + 1)).f.Ez (cs n).pml.psi.Hxy1 i j else 0 with hv3
  set v4 : ℕ → ℝ := fun n => if (i, c.g.Ny - 1 - j - 1) ∈ rect 1 (c.g.Nx - 1) 1 (c.g.T - 1 + 1) then
      c.f.Db.val i j * pHy2 c.pml.co.bh_y c.pml.co.ch_y c.g.dx (c.g.Ny - 1) (cs (n + 1)).f.Ez (cs n).pml.psi.Hxy2 i (c.g.Ny - 1 - j - 1) else 0 with hv4
  have s3 : ser v3 = C (c.f.Db.val i j / c.g.dx) * side (1 ≤ j ∧ j < c.g.T) (c.pml.co.bh_y.val j) (c.pml.co.ch_y.val j)
      * ser fun n => (cs (n + 1)).f.Ez.val i (j + 1) - (cs (n + 1)).f.Ez.val i j := by
    refine side_ser (ψ := fun n => (cs n).pml.psi.Hxy1.val i j)
      (z := fun n => pHy1 c.pml.co.bh_y c.pml.co.ch_y c.g.dx (cs (n + 1)).f.Ez (cs n).pml.psi.Hxy1 i j) _ ?_ ?_ ?_ ?_ ?_
    · simp only [t.c0]; exact hz.Hxy1 i j
    · intro hp n
      have a := k3.mpr hp
      simp only [(t.step n).pml, (t.step n).eE, Pml.afterE, Pml.afterH, Tensor.upd_val, (F n).Nx, (F n).par, (F n).co, w1, w3, pd, a, if_true]
    · intro n; rfl
    · intro hp n; simp only [hv3, k3.mpr hp, if_true]
    · intro hp n; simp only [hv3, mt k3.mp hp, if_false]
  have s4 : ser v4 = C (c.f.Db.val i j / c.g.dx) * side (1 ≤ c.g.Ny - 2 - j ∧ c.g.Ny - 2 - j < c.g.T) (c.pml.co.bh_y.val (c.g.Ny - 2 - j))
      (c.pml.co.ch_y.val (c.g.Ny - 2 - j)) * ser fun n => (cs (n + 1)).f.Ez.val i (j + 1) - (cs (n + 1)).f.Ez.val i j := by
    refine side_ser (ψ := fun n => (cs n).pml.psi.Hxy2.val i (c.g.Ny - 1 - j - 1))
      (z := fun n => pHy2 c.pml.co.bh_y c.pml.co.ch_y c.g.dx (c.g.Ny - 1) (cs (n + 1)).f.Ez (cs n).pml.psi.Hxy2 i (c.g.Ny - 1 - j - 1)) _ ?_ ?_ ?_ ?_ ?_
    · simp only [t.c0]; exact hz.Hxy2 i _
    · intro hp n
      have a := k4.mpr hp
      simp only [(t.step n).pml, (t.step n).eE, Pml.afterE, Pml.afterH, Tensor.upd_val, (F n).Nx, (F n).Ny, (F n).par, (F n).co, w1, w2, w3, pd, a, if_true]
    · intro n
      simp only [pHy2, idx, show c.g.Ny - 1 - (c.g.Ny - 2 - j) = j + 1 by omega, show j + 1 - 1 = j by omega]
    · intro hp n; simp only [hv4, k4.mpr hp, if_true]
    · intro hp n; simp only [hv4, mt k4.mp hp, if_false]
  have val : ∀ n, (cs (n + 1)).f.Hx.val i j = c.f.Da.val i j * (cs n).f.Hx.val i j - c.f.Db.val i j / c.g.dx *
      ((cs (n + 1)).f.Ez.val i (j + 1) - (cs (n + 1)).f.Ez.val i j) - (v3 n + v4 n) := by
    intro n
    have a : ∀ x y, (fs n).Hx.val x y = (cs n).f.Hx.val x y := fun x y => by
      rw [(t.step n).fX, t.contrib hz.tfsf, hs]; ring
    obtain ⟨-, -, q3, q4⟩ := (t.step n).coef
    rw [(t.step n).eX, (F (n + 1)).tfsf]
    simp only [Tensor.upd_val, (F n).g, (F n).sc, hm, if_true, hxVal, hc.sc.khdy, Pml.corrHx, Pml.afterE, (F n).Nx,
      (F n).Ny, (F n).par, (F n).co, q3, q4, (F n).Da, (F n).Db, w1, w2, w3, pd, hv3, hv4, a, tfHx, ← (t.step n).eE]
    ring
  have hE : serE cs i (j + 1) - serE cs i j = X * ser fun n => (cs (n + 1)).f.Ez.val i (j + 1) - (cs (n + 1)).f.Ez.val i j := by
    rw [silentE t hz, silentE t hz, ser_sub]; ring
  have hH := silentHx t hz i j
  rw [ser_congr val, ser_sub, ser_sub, ser_smul, ser_smul, ser_add, s3, s4, show (ser fun n => (cs n).f.Hx.val i j) = serHx cs i j from rfl] at hH
  rw [hE]
  unfold stretchHy
  linear_combination hH

/-- The leftmost column of `Hy` and the lowest row of `Hx` are never written. -/
theorem Trace.Hy0 (t : Trace c srcs cs ls E2 E3 E4 fs) (hz : Silent c) (hs : ∀ i j n, added c srcs .Hy i j n = 0) (j : ℤ) :
    serHy cs 0 j = 0 := by
  have F := t.frame hz.tfsf
  have hc : c.Std := by have := t.std 0; rwa [t.c0] at this
  obtain ⟨w1, w2, w3, -⟩ := hc.wf.pml
  have n1 := hc.wide.nx
  have z : ∀ n, (cs n).f.Hy.val 0 j = 0 := by
    intro n
    induction n with
    | zero => rw [t.c0]; exact hz.Hy 0 j
    | succ n ih =>
      have hm : ¬ ((0 : ℤ), j) ∈ rect 1 (c.g.Nx - 1) 1 (c.g.Ny - 1) := by rw [mem_rect]; simp only; omega
      have k3 : ¬ (((0 : ℤ), j) ∈ rect 1 (c.g.T - 1 + 1) 1 (c.g.Ny - 1)) := by rw [mem_rect]; simp only; omega
      have k4 : ¬ ((c.g.Nx - 1 - (0 : ℤ) - 1, j) ∈ rect 1 (c.g.T - 1 + 1) 1 (c.g.Ny - 1)) := by rw [mem_rect]; simp only; omega
      have a : ∀ x y, (fs n).Hy.val x y = (cs n).f.Hy.val x y := fun x y => by
        rw [(t.step n).fY, t.contrib hz.tfsf, hs]; ring
      rw [(t.step n).eY, (F (n + 1)).tfsf]
      simp only [Tensor.upd_val, (F n).g, hm, if_false, a, ih, Pml.corrHy, Pml.afterE, (F n).Nx, (F n).Ny, (F n).par, w1, w2, w3, k3, k4,
        tfHy]
      ring
  exact (ser_congr z).trans ser_zero

theorem Trace.Hx0 (t : Trace c srcs cs ls E2 E3 E4 fs) (hz : Silent c) (hs : ∀ i j n, added c srcs .Hx i j n = 0) (i : ℤ) :
    serHx cs i 0 = 0 := by
  have F := t.frame hz.tfsf
  have hc : c.Std := by have := t.std 0; rwa [t.c0] at this
  obtain ⟨w1, w2, w3, -⟩ := hc.wf.pml
  have n1 := hc.wide.ny
  have z : ∀ n, (cs n).f.Hx.val i 0 = 0 := by
    intro n
    induction n with
    | zero => rw [t.c0]; exact hz.Hx i 0
    | succ n ih =>
      have hm : ¬ (i, (0 : ℤ)) ∈ rect 1 (c.g.Nx - 1) 1 (c.g.Ny - 1) := by rw [mem_rect]; simp only; omega
      have k3 : ¬ ((i, (0 : ℤ)) ∈ rect 1 (c.g.Nx - 1) 1 (c.g.T - 1 + 1)) := by rw [mem_rect]; simp only; omega
      have k4 : ¬ ((i, c.g.Ny - 1 - (0 : ℤ) - 1) ∈ rect 1 (c.g.Nx - 1) 1 (c.g.T - 1 + 1)) := by rw [mem_rect]; simp only; omega
      have a : ∀ x y, (fs n).Hx.val x y = (cs n).f.Hx.val x y := fun x y => by
        rw [(t.step n).fX, t.contrib hz.tfsf, hs]; ring
      rw [(t.step n).eX, (F (n + 1)).tfsf]
      simp only [Tensor.upd_val, (F n).g, hm, if_false, a, ih, Pml.corrHx, Pml.afterE, (F n).Nx, (F n).Ny, (F n).par, w1, w2, w3, k3, k4,
        tfHx]
      ring
  exact (ser_congr z).trans ser_zero

/-- The coefficients of the update equations of a simulation. -/
noncomputable def waveOf (c : Core ℝ) : Wave where
  ax := stretchEx c
  ay := stretchEy c
  N i j := 1 - prevFilt c i j * X - nodeFilt c i j * C (c.f.Ca.val i j) * X
  K i j := nodeFilt c i j * C (c.f.Cb.val i j / c.g.dx)
  Dx i j := if j = 0 then 1 else 1 - C (c.f.Da.val i j) * X
  Dy i j := if i = 0 then 1 else 1 - C (c.f.Da.val i j) * X
  Wx i j := if j = 0 then 0 else -(C (c.f.Db.val i j / c.g.dx) * stretchHy c j)
  Wy i j := if i = 0 then 0 else C (c.f.Db.val i j / c.g.dx) * stretchHx c i

/-- A run from silence with sources that act on `Ez` at one node only obeys the equations of the simulation. -/
theorem Trace.obeys (t : Trace c srcs cs ls E2 E3 E4 fs) (hz : Silent c) {M L : ℕ} (hM : c.g.Nx = M + 2) (hL : c.g.Ny = L + 2)
    {a b : ℤ} (a0 : 1 ≤ a) (a1 : a < c.g.Nx - 1) (b0 : 1 ≤ b) (b1 : b < c.g.Ny - 1) {s : ℕ → ℝ}
    (hx : ∀ i j n, added c srcs .Hx i j n = 0) (hy : ∀ i j n, added c srcs .Hy i j n = 0)
    (he : ∀ i j n, added c srcs .Ez i j n = if (i, j) = (a, b) then s n else 0) :
    (waveOf c).Obeys M L (X * ser s) (a, b) (serE cs) (serHx cs) (serHy cs) := by
  have src : ∀ i j, X * ser (added c srcs .Ez i j) = if (i, j) = (a, b) then X * ser s else 0 := by
    intro i j
    by_cases h : (i, j) = (a, b)
    · simp only [h, if_true]
      exact congrArg (X * ·) (ser_congr fun n => by rw [he, if_pos h])
    · simp only [h, if_false]
      rw [ser_congr (b := fun _ => 0) (fun n => by rw [he, if_neg h]), ser_zero, mul_zero]
  have fr : ∀ i j : ℤ, 0 ≤ i → i < c.g.Nx → 0 ≤ j → j < c.g.Ny → (i = 0 ∨ i = c.g.Nx - 1 ∨ j = 0 ∨ j = c.g.Ny - 1) → serE cs i j = 0 := by
    intro i j i0 i1 j0 j1 h
    have e := t.Enode hz i0 i1 j0 j1
    rw [t.E1frame hz h, src, if_neg (by rw [Prod.mk.injEq]; omega)] at e
    have hc : constantCoeff (1 - nodeFilt c i j * X - prevFilt c i j * X) ≠ 0 := by simp
    have m : (1 - nodeFilt c i j * X - prevFilt c i j * X) * serE cs i j = 0 := by linear_combination e
    exact (mul_eq_zero.mp m).resolve_left (series_ne hc)
  refine ⟨?_, ?_, ?_, ?_, ?_, ?_, ?_⟩
  · intro l hl; exact fr 0 l (by omega) (by omega) (by omega) (by omega) (Or.inl rfl)
  · intro l hl; exact fr (M + 1) l (by omega) (by omega) (by omega) (by omega) (Or.inr (Or.inl (by omega)))
  · intro k hk; exact fr k 0 (by omega) (by omega) (by omega) (by omega) (Or.inr (Or.inr (Or.inl rfl)))
  · intro k hk; exact fr k (L + 1) (by omega) (by omega) (by omega) (by omega) (Or.inr (Or.inr (Or.inr (by omega))))
  · intro k l hk hl
    have e := t.Enode hz (i := k + 1) (j := l + 1) (by omega) (by omega) (by omega) (by omega)
    rw [t.E1law hz (by omega) (by omega) (by omega) (by omega), src] at e
    rw [show (k : ℤ) + 1 - 1 = k by omega, show (l : ℤ) + 1 - 1 = l by omega] at e
    simp only [waveOf]
    linear_combination e
  · intro k l hk hl
    simp only [waveOf]
    by_cases h : (k : ℤ) = 0
    · simp only [h, if_true, t.Hy0 hz hy]; ring
    · simp only [h, if_false]
      exact t.HyLaw hz hy (by omega) (by omega) (by omega) (by omega)
  · intro k l hk hl
    simp only [waveOf]
    by_cases h : (l : ℤ) = 0
    · simp only [h, if_true, t.Hx0 hz hx]; ring
    · simp only [h, if_false]
      exact t.HxLaw hz hx (by omega) (by omega) (by omega) (by omega)

end

theorem side_const {p : Prop} {b k : ℝ} : constantCoeff (side p b k) = open Classical in if p then k else 0 := by
  unfold side
  split_ifs <;> simp

/-- The stretching can be undone where the two opposite sides of the layer do not overlap. -/
theorem waveOf_good {c : Core ℝ} (hc : c.Std) {M L : ℕ} (hM : c.g.Nx = M + 2) (hL : c.g.Ny = L + 2) (ox : 2 * c.g.T < c.g.Nx - 1)
    (oy : 2 * c.g.T < c.g.Ny - 1) : (waveOf c).Good M L := by
  have par := hc.par
  have T : c.pml.par.T = c.g.T := by rw [par]; rfl
  have pos : ∀ i : ℤ, 1 ≤ i → i ≤ c.g.T → -1 < c.pml.co.ce_x.val i ∧ -1 < c.pml.co.ce_y.val i := by
    intro i h1 h2
    have t2 : 2 ≤ c.g.T := by rcases hc.thick with h | h <;> omega
    rw [hc.co.ce_x i (by omega) (by omega), hc.co.ce_y i (by omega) (by omega), par]
    have := (cF_bounds hc.law.dx (by have := hc.law.dx; rw [hc.law.dt]; linarith) t2 (t := (i : ℝ)) (by exact_mod_cast h1) (by exact_mod_cast h2)).1
    exact ⟨this, this⟩
  refine ⟨?_, ?_, ?_, ?_, ?_⟩
  · intro k hk
    simp only [waveOf, stretchEx, map_add, map_one, side_const]
    by_cases h1 : 1 ≤ (k : ℤ) + 1 ∧ (k : ℤ) + 1 ≤ c.g.T
    · have h2 : ¬ (1 ≤ c.g.Nx - 1 - ((k : ℤ) + 1) ∧ c.g.Nx - 1 - ((k : ℤ) + 1) ≤ c.g.T) := by omega
      simp only [h1, h2, if_true, if_false, and_self]
      have := (pos _ h1.1 h1.2).1
      intro h; linarith
    · simp only [h1, if_false]
      split_ifs with h2
      · have := (pos _ h2.1 h2.2).1
        intro h; linarith
      · norm_num
  · intro k hk
    simp only [waveOf, stretchEy, map_add, map_one, side_const]
    by_cases h1 : 1 ≤ (k : ℤ) + 1 ∧ (k : ℤ) + 1 ≤ c.g.T
    · have h2 : ¬ (1 ≤ c.g.Ny - 1 - ((k : ℤ) + 1) ∧ c.g.Ny - 1 - ((k : ℤ) + 1) ≤ c.g.T) := by omega
      simp only [h1, h2, if_true, if_false, and_self]
      have := (pos _ h1.1 h1.2).2
      intro h; linarith
    · simp only [h1, if_false]
      split_ifs with h2
      · have := (pos _ h2.1 h2.2).2
        intro h; linarith
      · norm_num
  · intro k l _ _; simp [waveOf]
  · intro k l _ _
    simp only [waveOf]
    split_ifs <;> simp
  · intro k l _ _
    simp only [waveOf]
    split_ifs <;> simp

theorem side_false {p : Prop} {b k : ℝ} (h : ¬ p) : side p b k = 0 := by unfold side; rw [if_neg h]

/-- Beyond the layer nothing is stretched. -/
theorem stretch_beyond {c : Core ℝ} {i j : ℤ} (h : Beyond c.g i j) : stretchEx c i = 1 ∧ stretchEy c j = 1 := by
  obtain ⟨h1, h2, h3, h4⟩ := h
  unfold stretchEx stretchEy
  rw [side_false (by omega), side_false (by omega), side_false (by omega), side_false (by omega)]
  simp

end Qbox
