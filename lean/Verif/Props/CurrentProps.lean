import Verif.Lemmas.CurrentsMake
import Verif.Props.RestartFalse
import Verif.Props.WindowProps

/-!
# C83: objects are currents at their own nodes, and outside the total-field region there is only the scattered field
-/

namespace Qbox.Props
open Scalar Spec

set_option linter.unusedSectionVars false
set_option linter.unusedSimpArgs false

theorem Pml.corrE_factor (p : Pml ℝ) (Hx Hy Cb one : Tensor ℝ) (x y : ℤ) (h : one.val x y = 1) :
    p.corrE Hx Hy Cb x y = Cb.val x y * p.corrE Hx Hy one x y := by
  unfold Pml.corrE
  rw [h]
  split_ifs <;> ring

/-- At an updated node the electric stage is `Ca` times the old value plus `Cb` times something that does not depend on the media. -/
theorem E1_split {c c0 : Core ℝ} {i j : ℤ} (hu : Upd c.g i j) : ∃ X : ℝ,
    c.E1.val i j = c.f.Ca.val i j * c.f.Ez.val i j + c.f.Cb.val i j * X ∧
    (c0.inMediaOf c).E1.val i j = c0.f.Ca.val i j * c.f.Ez.val i j + c0.f.Cb.val i j * X := by
  have hin : (i, j) ∈ rect 1 (c.g.Nx - 1) 1 (c.g.Ny - 1) := by rw [mem_rect]; exact ⟨⟨hu.1, hu.2.1⟩, hu.2.2⟩
  set one : Tensor ℝ := .const c.g.Nx c.g.Ny 1 with h1
  refine ⟨((c.f.Hy.val i j - c.f.Hy.val (i - 1) j) / c.sc.kedx.val i + (c.f.Hx.val i (j - 1) - c.f.Hx.val i j) / c.sc.kedy.val j)
    + c.pml.corrE c.f.Hx c.f.Hy one i j, ?_, ?_⟩
  · unfold Core.E1 Tensor.upd ezVal
    simp only [Tensor.setv_val, if_pos hin]
    rw [Pml.corrE_factor c.pml _ _ c.f.Cb one i j rfl]
    ring
  · unfold Core.E1 Tensor.upd ezVal Core.inMediaOf
    simp only [Tensor.setv_val, if_pos hin]
    rw [Pml.corrE_factor c.pml _ _ c0.f.Cb one i j rfl]
    ring

theorem Trace.undriven {c : Core ℝ} {srcs : List (Source ℝ)} {cs : ℕ → Core ℝ} {ls : ℕ → List (Source ℝ)} {E2 E3 E4 : ℕ → Tensor ℝ}
    {fs : ℕ → Flds ℝ} (t : Trace c srcs cs ls E2 E3 E4 fs) {i j : ℤ} (h : Undriven c srcs i j) : ∀ n, Undriven (cs n) (ls n) i j
  | 0 => by rw [t.c0, t.l0]; exact h
  | n + 1 => (t.step n).undriven (t.std n) (Trace.undriven t h n)

/-- Neither a source nor the boundary of the total-field region acts on `Ez` at the node. -/
structure OffSources (g : Grid ℝ) (S : Scene) (i j : ℤ) : Prop where
  src : ∀ s ∈ S.srcs, ¬ Drives g s .Ez ⟨i, j⟩
  wave : ∀ w, S.wave = some w → ¬ (((g.toGrid w.1.a).x ≤ i ∧ i ≤ (g.toGrid w.1.b).x) ∧ (j = (g.toGrid w.1.a).y ∨ j = (g.toGrid w.1.b).y))

theorem fits_wave {g : Grid ℝ} {S : Scene} (f : S.Fits g) : ∀ w, S.wave = some w → TfsfFits g w.1 := fun w h => by
  obtain ⟨a, b, d, e, k, m⟩ := f.wave w h
  exact ⟨a, b, d, e, k, m⟩

theorem currents_ok {g : Grid ℝ} (hl : Lawful g) {S : Scene} (f : S.Fits g) (J : ℤ → ℤ → ℝ → ℝ) :
    ∀ s ∈ S.srcs ++ currents g S.objs J, Spec.Fits g s := by
  intro s hs
  rcases List.mem_append.mp hs with h | h
  · exact f.srcs s h
  · obtain ⟨p, hp, rfl⟩ := List.mem_map.mp h
    exact currents_fit hl (mem_nodesIn.mp hp).1

/-- **C83** In exact arithmetic, objects of simple, Debye and Drude materials act on the fields only as currents at the nodes inside
them: the program without the objects and with one more point source of `Ez` at each of these nodes computes the same fields at
all steps, for signals `J` that do not depend on the step. At a node of a simple medium `m` these are the currents
`(ε - 1) dE/dt + σ E` of that medium. The objects, the sources and the incident wave are arbitrary, objects may reach into the
absorbing layer. Partial: without Lorentz media, see `C83_false`. -/
theorem C83_currents_partial (g : Grid ℝ) (hg : g.Wide) (hl : Lawful g) (hT : g.T = 0 ∨ 2 ≤ g.T) (S : Scene) (f : S.Fits g)
    (hm : ∀ o ∈ S.objs, ∀ m, o.mat.kind ≠ .lorentz m) :
    ∃ J : ℤ → ℤ → ℝ → ℝ,
      (∀ n, ∃ c d, S.run g n = .ok c ∧ (⟨[], S.srcs ++ currents g S.objs J, S.wave⟩ : Scene).run g n = .ok d ∧ SameEH c d) ∧
      ∀ n c c' i j m, S.run g n = .ok c → S.run g (n + 1) = .ok c' → Upd g i j → Covers S.objs (g.toReal ⟨i, j⟩) m → 0 < m.eps →
        0 ≤ m.conduc → OffSources g S i j → J i j ((n + 1) * g.dt) =
          - ((m.eps - 1) * (c'.f.Ez.val i j - c.f.Ez.val i j) + g.dt * m.conduc * (c'.f.Ez.val i j + c.f.Ez.val i j) / 2) := by
  obtain ⟨c0, c1, b⟩ := built hg hl hT f.box f.clear
  have g1 : c1.g = g := by rw [← b.g0, b.twin.g]
  have fw := fits_wave f
  have s1 : (putWave S.wave c1).Std := putWave_std b.std1 (by rw [g1]; exact fw)
  have s0 : (putWave S.wave c0).Std := putWave_std b.std0 (by rw [b.g0]; exact fw)
  have pg : ∀ c : Core ℝ, (putWave S.wave c).g = c.g := fun c => by cases S.wave <;> rfl
  have pf : ∀ c : Core ℝ, (putWave S.wave c).f = c.f := fun c => by cases S.wave <;> rfl
  have ptw : (putWave S.wave c1).Twin (putWave S.wave c0) := by
    cases S.wave with
    | none => exact b.twin
    | some w => exact ⟨b.twin.g, b.twin.t, b.twin.sc, b.twin.pml, b.twin.Ez, b.twin.Hx, b.twin.Hy⟩
  have pt : (putWave S.wave c1).t = 0 := by cases S.wave <;> exact b.t
  have ptf : (putWave S.wave c0).tfsf = (putWave S.wave c1).tfsf := by
    cases S.wave with
    | none => show c0.tfsf = c1.tfsf; rw [b.tfsf, b.silent0.tfsf]
    | some w => show some (Tfsf.make c0.g w.2 w.1 c0.g.dt) = some (Tfsf.make c1.g w.2 w.1 c1.g.dt); rw [b.twin.g]
  have pb : (putWave S.wave c0).Bare := by cases S.wave <;> exact ⟨b.empty0.debye, b.empty0.drude, b.empty0.lorentz⟩
  have pl : (putWave S.wave c1).lorentz = [] := by cases S.wave <;> exact b.lorentz hm
  have pst : ∀ {i j : ℤ}, c1.Still i j → (putWave S.wave c1).Still i j := fun h => by cases S.wave <;> exact ⟨h.debye, h.drude⟩
  have hs1 : ∀ s ∈ S.srcs, Spec.Fits (putWave S.wave c1).g s := by rw [pg, g1]; exact f.srcs
  obtain ⟨cs, ls, E2, E3, E4, fs, R⟩ := Core.trace s1 S.srcs hs1
  set J := currentOf (putWave S.wave c0) cs ls with hJ
  have hs0 : ∀ s ∈ S.srcs ++ currents g S.objs J, Spec.Fits (putWave S.wave c0).g s := by rw [pg, b.g0]; exact currents_ok hl f J
  obtain ⟨ds, ms, A, B, D, gs, Q⟩ := Core.trace s0 _ hs0
  have gp1 : (putWave S.wave c1).g = g := by rw [pg, g1]
  have TW := currents_run s1 s0 ptw pt ptf pb pl (by rw [gp1, pf, pf]; exact b.magnetic) (nodesIn_nodup g S.objs)
    (fun p hp => by rw [gp1]; exact (mem_nodesIn.mp hp).1)
    (by
      rw [gp1, pf, pf]
      intro i j i0 i1 j0 j1 h
      obtain ⟨k1, k2, k3⟩ := b.off i j i0 i1 j0 j1 h
      exact ⟨pst k1, k2, k3⟩) R (by rw [gp1]; exact Q)
  refine ⟨J, fun n => ?_, ?_⟩
  · have T := (TW n).1
    exact ⟨cs n, ds n, b.run _ _ (R.run n), b.run0 _ _ (Q.run n), fun i j => by rw [T.Ez], fun i j => by rw [T.Hx], fun i j => by rw [T.Hy]⟩
  · intro n c c' i j m h h' hu hcov he hsg ho
    have e1 := b.run S.srcs S.wave (R.run n)
    have e2 := b.run S.srcs S.wave (R.run (n + 1))
    rw [show (⟨S.objs, S.srcs, S.wave⟩ : Scene) = S from rfl] at e1 e2
    rw [h] at e1
    rw [h'] at e2
    obtain rfl := Except.ok.inj e1
    obtain rfl := Except.ok.inj e2
    have gn : (cs n).g = g := by rw [R.g, gp1]
    have un : Undriven (putWave S.wave c1) S.srcs i j := by
      refine ⟨by rw [gp1]; exact ho.src, ?_⟩
      intro w hw
      cases hS : S.wave with
      | none => rw [hS] at hw; rw [show (putWave none c1).tfsf = c1.tfsf from rfl, b.tfsf] at hw; cases hw
      | some v =>
        rw [hS] at hw
        obtain rfl := Option.some.inj (show some (Tfsf.make c1.g v.2 v.1 c1.g.dt) = some w from hw)
        have := ho.wave v hS
        rw [← g1] at this
        exact this
    have uN := Trace.undriven R un n
    obtain ⟨⟨o, ho1, ho2⟩, hs⟩ := hcov
    have i0 : 0 ≤ i := by have := hu.1; omega
    have i1 : i < g.Nx := by have := hu.2.1; omega
    have j0 : 0 ≤ j := by have := hu.2.2.1; omega
    have j1 : j < g.Ny := by have := hu.2.2.2; omega
    have md := (b.medium i j i0 i1 j0 j1).1 o ho1
    rw [ho2] at md
    have st : (cs n).Still i j := R.still pl i0 (by rw [gp1]; exact i1) j0 (by rw [gp1]; exact j1) (pst (b.still i j hs)) n
    obtain ⟨X, x1, x2⟩ := E1_split (c := cs n) (c0 := putWave S.wave c0) (by rw [gn]; exact hu)
    have E' : (cs (n + 1)).f.Ez.val i j = (cs n).E1.val i j := by
      rw [(R.step n).eE, (R.step n).fE, tfEz_undriven uN, totalContrib_zero uN.src,
        ((R.step n).still (R.std n) (R.noLorentz pl n) i0 (by rw [gn]; exact i1) j0 (by rw [gn]; exact j1) st).2]
      ring
    have Jv : J i j ((n + 1) * g.dt) = (cs (n + 1)).f.Ez.val i j - ((putWave S.wave c0).inMediaOf (cs n)).E1.val i j := by
      rw [hJ]
      unfold currentOf
      have fl : ⌊((n : ℝ) + 1) * g.dt / (putWave S.wave c0).g.dt⌋₊ = n + 1 := by
        rw [pg, b.g0, show ((n : ℝ) + 1) * g.dt = n * g.dt + g.dt by ring]; exact floor_step hl n
      simp only [fl, Nat.add_sub_cancel]
      rw [tfEz_undriven uN, totalContrib_zero (by rw [pg, b.g0, ← gn]; exact uN.src)]
      ring
    obtain ⟨a1, a2, -⟩ := R.coef n
    have e0 := b.empty0.medium i j i0 (by rw [b.g0]; exact i1) j0 (by rw [b.g0]; exact j1)
    have Ca1 : (cs n).f.Ca.val i j = m.Ca g.dt := by rw [a1, pf]; exact md.Ca
    have Cb1 : (cs n).f.Cb.val i j = m.Cb g.dt := by rw [a2, pf]; exact md.Cb
    have Ca0 : (putWave S.wave c0).f.Ca.val i j = 1 := by
      rw [pf, e0.Ca]; simp [MatKind.Ca, Simple.Ca, vacuum]
    have Cb0 : (putWave S.wave c0).f.Cb.val i j = g.dt := by
      rw [pf, e0.Cb, b.g0]; simp [MatKind.Cb, Simple.Cb, vacuum]
    rw [Ca1, Cb1, ← E'] at x1
    rw [Ca0, Cb0] at x2
    rw [Jv, x2]
    have hd : 0 < g.dt := by rw [hl.dt]; have := hl.dx; linarith
    have k0 : 0 < 2 * m.eps + m.conduc * g.dt := by positivity
    have eq : (2 * m.eps + m.conduc * g.dt) * (cs (n + 1)).f.Ez.val i j = (2 * m.eps - m.conduc * g.dt) * (cs n).f.Ez.val i j + 2 * g.dt * X := by
      rw [x1]
      have e2 : (2 * m.eps : ℝ) ≠ 0 := by positivity
      have e3 : 1 + m.conduc * g.dt / (2 * m.eps) ≠ 0 := by positivity
      have ca : m.Ca g.dt = (2 * m.eps - m.conduc * g.dt) / (2 * m.eps + m.conduc * g.dt) := by
        simp only [Simple.Ca, ofInt_real]
        push_cast
        rw [div_eq_div_iff e3 k0.ne']
        field_simp
      have cb : m.Cb g.dt = 2 * g.dt / (2 * m.eps + m.conduc * g.dt) := by
        simp only [Simple.Cb, ofInt_real]
        push_cast
        rw [div_eq_div_iff e3 k0.ne']
        field_simp
      rw [ca, cb]
      field_simp
    linarith

/-- **C83** (incident waves). With an incident wave the field of the program with objects is, at all steps and nodes, the field of the wave
in empty space plus the scattered field: the field of the point sources and of the currents of the objects in empty space,
without any incident wave. -/
theorem C83_scattered_partial (g : Grid ℝ) (hg : g.Wide) (hl : Lawful g) (hT : g.T = 0 ∨ 2 ≤ g.T) (S : Scene) (f : S.Fits g)
    (hm : ∀ o ∈ S.objs, ∀ m, o.mat.kind ≠ .lorentz m) (w : Vol ℝ × TimeProfile ℝ) (hw : S.wave = some w) :
    ∃ J : ℤ → ℤ → ℝ → ℝ, ∀ n, ∃ c u d, S.run g n = .ok c ∧ (⟨[], [], some w⟩ : Scene).run g n = .ok u ∧
      (⟨[], S.srcs ++ currents g S.objs J, none⟩ : Scene).run g n = .ok d ∧
      ∀ i j, c.f.Ez.val i j = u.f.Ez.val i j + d.f.Ez.val i j ∧ c.f.Hx.val i j = u.f.Hx.val i j + d.f.Hx.val i j ∧
        c.f.Hy.val i j = u.f.Hy.val i j + d.f.Hy.val i j := by
  obtain ⟨J, h, -⟩ := C83_currents_partial g hg hl hT S f hm
  refine ⟨J, fun n => ?_⟩
  obtain ⟨c, d, h1, h2, e⟩ := h n
  obtain ⟨c0, c1, b⟩ := built hg hl hT f.box f.clear
  obtain ⟨u, v, d', k, r1, r2, r3, r4⟩ := wave_plus (tp := w.2) b.std0 b.silent0 ⟨b.empty0.debye, b.empty0.drude, b.empty0.lorentz⟩
    (by rw [b.g0]; exact fits_wave f w hw) (l := S.srcs ++ currents g S.objs J) (by rw [b.g0]; exact currents_ok hl f J) n
  have q := b.run0 (S.srcs ++ currents g S.objs J) (some w) r3
  rw [hw, q] at h2
  obtain rfl := Except.ok.inj h2
  refine ⟨c, u, v.1, h1, b.run0 [] (some w) r1, b.run0 (S.srcs ++ currents g S.objs J) none (c := v.1) (l := v.2) r2, fun i j => ?_⟩
  obtain ⟨a1, a2, a3⟩ := r4 i j
  exact ⟨by rw [← a1, e.Ez], by rw [← a2, e.Hx], by rw [← a3, e.Hy]⟩

/-- **C83** (scattered-field zone). When the total-field region is clear of the absorbing layer, all fields outside it are the scattered
field, at all steps, whatever the objects and wherever they are; inside it they are the incident wave plus the scattered
field. `e`, `h` is the incident wave of the one-dimensional scheme. -/
theorem C83_zones_partial (g : Grid ℝ) (hg : g.Wide) (hl : Lawful g) (hT : g.T = 0 ∨ 2 ≤ g.T) (S : Scene) (f : S.Fits g)
    (hm : ∀ o ∈ S.objs, ∀ m, o.mat.kind ≠ .lorentz m) (vol : Vol ℝ) (tp : TimeProfile ℝ) (hw : S.wave = some (vol, tp))
    (hr : ClearRegion g (g.toGrid vol.a) (g.toGrid vol.b)) (e h : ℕ → ℤ → ℝ)
    (W : LineWave tp.resp g.dt ((g.toGrid vol.b).y - (g.toGrid vol.a).y + 5) e h) :
    ∃ J : ℤ → ℤ → ℝ → ℝ, ∀ n, ∃ c d, S.run g n = .ok c ∧
      (⟨[], S.srcs ++ currents g S.objs J, none⟩ : Scene).run g n = .ok d ∧
      (∀ i j, ¬ ((g.toGrid vol.a).x ≤ i ∧ i ≤ (g.toGrid vol.b).x ∧ (g.toGrid vol.a).y ≤ j ∧ j ≤ (g.toGrid vol.b).y) →
        c.f.Ez.val i j = d.f.Ez.val i j ∧ c.f.Hx.val i j = d.f.Hx.val i j ∧ c.f.Hy.val i j = d.f.Hy.val i j) ∧
      ∀ i j, (g.toGrid vol.a).x ≤ i → i ≤ (g.toGrid vol.b).x → (g.toGrid vol.a).y ≤ j → j ≤ (g.toGrid vol.b).y →
        c.f.Ez.val i j = e n (j - (g.toGrid vol.a).y + 3) + d.f.Ez.val i j ∧ c.f.Hy.val i j = d.f.Hy.val i j ∧
        (j + 1 ≤ (g.toGrid vol.b).y → c.f.Hx.val i j = h n (j - (g.toGrid vol.a).y + 3) + d.f.Hx.val i j) := by
  obtain ⟨J, H⟩ := C83_scattered_partial g hg hl hT S f hm _ hw
  refine ⟨J, fun n => ?_⟩
  obtain ⟨c, u, d, h1, h2, h3, h4⟩ := H n
  obtain ⟨c0, u', m, r, F⟩ := C33_no_leak_new n g hg hl hT vol tp hr e h W
  have : (⟨[], [], some (vol, tp)⟩ : Scene).run g n = .ok u' := by
    unfold Scene.run
    rw [m]; simp only [Except.ok_bind]
    rw [show forList ([] : List (Object ℝ)) c0 (fun o c => c.insertObject o) = .ok c0 from rfl]; simp only [Except.ok_bind]
    simp only [r]; rfl
  rw [this] at h2
  obtain rfl := Except.ok.inj h2
  refine ⟨c, d, h1, h3, fun i j ho => ?_, fun i j i0 i1 j0 j1 => ?_⟩ <;> obtain ⟨a1, a2, a3⟩ := h4 i j
  · rw [a1, a2, a3, F.Ez_out i j ho, F.Hy, F.Hx_out i j (fun k => ho ⟨k.1, k.2.1, k.2.2.1, by omega⟩)]
    simp
  · rw [a1, a2, a3, F.Ez_in i j i0 i1 j0 j1, F.Hy]
    exact ⟨rfl, by simp, fun j2 => by rw [F.Hx_in i j i0 i1 j0 j2]⟩

/-! ## Lorentz media -/

/-- C83 for objects of all kinds of material. -/
def C83_statement : Prop :=
  ∀ (g : Grid ℝ), g.Wide → Lawful g → (g.T = 0 ∨ 2 ≤ g.T) → ∀ S : Scene, S.Fits g → ∃ J : ℤ → ℤ → ℝ → ℝ,
    ∀ n, ∃ c d, S.run g n = .ok c ∧ (⟨[], S.srcs ++ currents g S.objs J, S.wave⟩ : Scene).run g n = .ok d ∧ SameEH c d

/-- The electric stage does not depend on the sources. -/
theorem same_stage {c c' d : Core ℝ} {l l' k k' : List (Source ℝ)} {E2 E3 E4 F2 F3 F4 : Tensor ℝ} {f f' : Flds ℝ} (S : c.Step l c' l' E2 E3 E4 f)
    (S' : c.Step k d k' F2 F3 F4 f') : E4 = F4 ∧ c'.debye = d.debye ∧ c'.drude = d.drude ∧ c'.lorentz = d.lorentz := by
  have a1 := Prod.mk.inj (Except.ok.inj (S.hd.symm.trans S'.hd))
  obtain ⟨b1, rfl⟩ := a1
  have a2 := Prod.mk.inj (Except.ok.inj (S.hr.symm.trans S'.hr))
  obtain ⟨b2, rfl⟩ := a2
  have a3 := Prod.mk.inj (Except.ok.inj (S.hl.symm.trans S'.hl))
  exact ⟨a3.2, b1, b2, a3.1⟩

/-- A step at a vacuum node with sources, in a program with one Lorentz material somewhere else. -/
theorem driven_leak {c c' : Core ℝ} {srcs srcs' E2 E3 E4 f} (hc : c.Std) (h : c.Step srcs c' srcs' E2 E3 E4 f) (ht : c.tfsf = none)
    {i j : ℤ} (hb : Beyond c.g i j) {n : String} {P : LorentzPol ℝ} {pE : Tensor ℝ}
    (hpE : c.prevE = some pE) (hl : c.lorentz = [(n, P)]) {m : Simple ℝ} (hin : InSimple c m i j) :
    ∃ P', c'.lorentz = [(n, P')] ∧ P'.mat = P.mat ∧ InSimple c' m i j ∧ c'.prevE = some c.f.Ez ∧ c'.tfsf = none ∧
      c'.f.Ez.val i j = m.Ca c.g.dt * c.f.Ez.val i j + m.Cb c.g.dt * curlH c.f c.g.dx i j
        + P.mat.poles.length * (P.mat.CaPrev c.g.dt * pE.val i j) + totalContrib c.g (c.t + c.g.dt) srcs .Ez ⟨i, j⟩ := by
  obtain ⟨d, k, F2, F3, F4, f', -, S'⟩ := Core.update_step hc [] (by simp)
  have un : Undriven c [] i j := ⟨by simp, by rw [ht]; simp⟩
  obtain ⟨P', a1, a2, a3, a4, a5⟩ := S'.outLorentz hc hb un hpE hl hin
  obtain ⟨e1, e2, e3, e4⟩ := same_stage h S'
  have tn : c'.tfsf = none := by
    have := h.tf
    rw [ht] at this
    exact (Except.ok.inj this).symm
  refine ⟨P', e4.trans a1, a2, ⟨by rw [e2]; exact a3.debye, by rw [e3]; exact a3.drude, by rw [e4]; exact a3.lorentz, h.medium hin.medium⟩,
    by rw [h.prevE, hpE]; rfl, tn, ?_⟩
  rw [S'.Ez_node un, ← e1] at a5
  rw [h.eE, h.fE, a5, ht]
  simp only [tfEz]
  ring

/-- The same without Lorentz materials. -/
theorem driven_plain {c c' : Core ℝ} {srcs srcs' E2 E3 E4 f} (hc : c.Std) (h : c.Step srcs c' srcs' E2 E3 E4 f) (ht : c.tfsf = none)
    {i j : ℤ} (hb : Beyond c.g i j) (hl : c.lorentz = []) {m : Simple ℝ} (hin : InSimple c m i j) :
    InSimple c' m i j ∧ c'.lorentz = [] ∧ c'.tfsf = none ∧
      c'.f.Ez.val i j = m.Ca c.g.dt * c.f.Ez.val i j + m.Cb c.g.dt * curlH c.f c.g.dx i j
        + totalContrib c.g (c.t + c.g.dt) srcs .Ez ⟨i, j⟩ := by
  obtain ⟨d, k, F2, F3, F4, f', -, S'⟩ := Core.update_step hc [] (by simp)
  have un : Undriven c [] i j := ⟨by simp, by rw [ht]; simp⟩
  obtain ⟨a3, a1, a5⟩ := S'.inSimple hc hb un hl hin
  obtain ⟨e1, e2, e3, e4⟩ := same_stage h S'
  have tn : c'.tfsf = none := by
    have := h.tf
    rw [ht] at this
    exact (Except.ok.inj this).symm
  refine ⟨⟨by rw [e2]; exact a3.debye, by rw [e3]; exact a3.drude, by rw [e4]; exact a3.lorentz, h.medium hin.medium⟩, e4.trans a1, tn, ?_⟩
  rw [S'.Ez_node un, ← e1] at a5
  rw [h.eE, h.fE, a5, ht]
  simp only [tfEz]
  ring

/-- A grain of a Lorentz material between four nodes: no node is inside it. -/
noncomputable def grain : Object ℝ := ⟨"grain", .cylinder (1 / 4), ⟨"m", .lorentz ⟨1, [⟨1, 1, 0⟩]⟩⟩, ⟨21 / 2, 21 / 2⟩, 0⟩

theorem grain_inside (p : V2 ℝ) : grain.inside p = true ↔ (p.x - 21 / 2) ^ 2 + (p.y - 21 / 2) ^ 2 < 1 / 16 := by
  rw [inside_pullback]
  simp only [grain, Geometry.cylinder, V2.sqNorm, ltb_real, npow_real, decide_eq_true_eq, Real.cos_zero, Real.sin_zero]
  constructor <;> intro h <;> nlinarith [h]

theorem grain_empty (i j : ℤ) : grain.inside (gEx.toReal ⟨i, j⟩) = false := by
  rw [← Bool.not_eq_true, grain_inside]
  simp only [Grid.toReal, gEx_dx, ofInt_real]
  intro h
  have k : ((2 * i - 21 : ℤ) : ℝ) ^ 2 < 1 := by push_cast; nlinarith [sq_nonneg ((j : ℝ) * 1 - 21 / 2)]
  have k' : (2 * i - 21) ^ 2 < 1 := by exact_mod_cast k
  have : 2 * i - 21 = 0 := by nlinarith [sq_nonneg (2 * i - 21), Int.one_le_abs (z := 2 * i - 21), sq_abs (2 * i - 21)]
  omega

/-- One grain and a constant source far from it. -/
noncomputable def grainScene : Scene := ⟨[grain], [⟨"s", .point .Ez ⟨((5 : ℤ) : ℝ), ((5 : ℤ) : ℝ)⟩, ⟨fun _ => 1, none, []⟩⟩], none⟩

theorem grainScene_fits : grainScene.Fits gEx := by
  refine ⟨?_, ?_, ?_, by simp [grainScene]⟩
  · intro o ho
    obtain rfl : o = grain := by simpa [grainScene] using ho
    intro p hp
    rw [grain_inside] at hp
    rw [gEx_Lx]
    constructor <;> nlinarith [sq_nonneg (p.x - 21 / 2), sq_nonneg (p.y - 21 / 2)]
  · intro o ho
    obtain rfl : o = grain := by simpa [grainScene] using ho
    exact boxSound_lib _ (.cylinder (1 / 4) (by norm_num))
  · intro k hk
    obtain rfl : k = ⟨"s", .point .Ez ⟨((5 : ℤ) : ℝ), ((5 : ℤ) : ℝ)⟩, ⟨fun _ => 1, none, []⟩⟩ := by simpa [grainScene] using hk
    exact gEx_fits (by decide) (by norm_num) (by norm_num) (by norm_num) (by norm_num) _

/-- C83 is false for Lorentz media: a grain that contains no node at all changes the fields. -/
theorem C83_false : ¬ C83_statement := by
  intro H
  have hT : gEx.T = 0 ∨ 2 ≤ gEx.T := by rw [gEx_T]; norm_num
  obtain ⟨J, H⟩ := H gEx gEx_wide gEx_lawful hT grainScene grainScene_fits
  have no : nodesIn gEx grainScene.objs = [] := by
    rw [List.eq_nil_iff_forall_not_mem]
    intro p hp
    obtain ⟨-, o, ho, hi⟩ := mem_nodesIn.mp hp
    obtain rfl : o = grain := by simpa [grainScene] using ho
    rw [grain_empty] at hi
    cases hi
  have nc : grainScene.srcs ++ currents gEx grainScene.objs J = grainScene.srcs := by unfold currents; rw [no]; simp
  rw [nc] at H
  obtain ⟨c0, c1, b⟩ := built gEx_wide gEx_lawful hT grainScene_fits.box grainScene_fits.clear
  have g1 : c1.g = gEx := by rw [← b.g0, b.twin.g]
  have ins : c0.insertObject grain = .ok c1 := by
    have := b.ins
    rw [show grainScene.objs = [grain] from rfl, forList_cons] at this
    obtain ⟨c2, k1, k2⟩ := (Except.bind_ok ..).mp this
    cases k2
    exact k1
  have safe : grain.Safe c0.g := by rw [b.g0]; exact safe_of_clear gEx_lawful (grainScene_fits.clear _ (by simp [grainScene]))
  obtain ⟨P, pE, q1, q2, q3⟩ : ∃ P pE, c1.lorentz = [("m", P)] ∧ P.mat = ⟨1, [⟨1, 1, 0⟩]⟩ ∧ c1.prevE = some pE := by
    have hi := ins
    unfold Core.insertObject at hi
    rw [paintObject_closed b.std0.wf.f safe, show grain.mat.kind = .lorentz ⟨1, [⟨1, 1, 0⟩]⟩ from rfl, b.empty0.lorentz] at hi
    simp only [Except.ok_bind, Except.bind_ok, addPol, mapFind, mapInsert] at hi
    obtain ⟨_, ⟨P, hP, hl⟩, h⟩ := hi
    rw [LorentzPol.insert_closed (LorentzPol.make_wf c0.g _)] at hP
    cases hP
    cases hl
    cases h
    exact ⟨_, c0.prevE.getD c0.f.Ez, rfl, rfl, by cases h : c0.prevE <;> rfl⟩
  have silent1 : Silent c1 := by
    obtain ⟨c2, i2, -, -, z2⟩ := Core.Std.insertAll [grain] b.std0 b.silent0 (by simpa using safe)
    have := b.ins
    rw [show grainScene.objs = [grain] from rfl, i2] at this
    obtain rfl := Except.ok.inj this
    exact z2
  have in0 := gEx_background b.make
  have in1 : InSimple c1 vacuum 5 5 := in0.insertObject b.std0.wf safe (by rw [b.g0]; exact grain_empty 5 5) ins
  have be : Beyond gEx 5 5 := gEx_beyond (by norm_num) (by norm_num) (by norm_num) (by norm_num)
  obtain ⟨cs, ls, E2, E3, E4, fs, R⟩ := Core.trace b.std1 grainScene.srcs (by rw [g1]; exact grainScene_fits.srcs)
  obtain ⟨ds, ms, A, B, D, gs, Q⟩ := Core.trace b.std0 grainScene.srcs (by rw [b.g0]; exact grainScene_fits.srcs)
  have same : ∀ n, SameEH (cs n) (ds n) := by
    intro n
    obtain ⟨c, d, h1, h2, e⟩ := H n
    have k1 := b.run grainScene.srcs none (R.run n)
    have k2 := b.run0 grainScene.srcs none (Q.run n)
    rw [show (⟨grainScene.objs, grainScene.srcs, none⟩ : Scene) = grainScene from rfl, h1] at k1
    rw [show grainScene.wave = none from rfl, k2] at h2
    obtain rfl := Except.ok.inj k1
    obtain rfl := Except.ok.inj h2
    exact e
  have gc : ∀ n, (cs n).g = gEx := fun n => by rw [R.g, g1]
  have gd : ∀ n, (ds n).g = gEx := fun n => by rw [Q.g, b.g0]
  have con : ∀ t l, List.Forall₂ SameSrc grainScene.srcs l → totalContrib gEx t l .Ez ⟨5, 5⟩ = 1 := by
    intro t l h
    rw [totalContrib_same h]
    rw [show grainScene.srcs = [⟨"s", .point .Ez ⟨((5 : ℤ) : ℝ), ((5 : ℤ) : ℝ)⟩, ⟨fun _ => 1, none, []⟩⟩] from rfl, totalContrib_one]
    exact if_pos ⟨rfl, (gEx_node 5 5).symm⟩
  obtain ⟨P1, p1, p2, p3, p4, p5, p6⟩ := driven_leak (R.std 0) (R.step 0) (by rw [R.c0]; exact b.tfsf) (by rw [gc]; exact be)
    (by rw [R.c0]; exact q3) (by rw [R.c0]; exact q1) (by rw [R.c0]; exact in1)
  obtain ⟨P2, r1, r2, r3, r4, r5, r6⟩ := driven_leak (R.std 1) (R.step 1) p5 (by rw [gc]; exact be) p4 p1 p3
  obtain ⟨P3, -, -, -, -, -, s6⟩ := driven_leak (R.std 2) (R.step 2) r5 (by rw [gc]; exact be) r4 r1 r3
  obtain ⟨t1, t2, t3, -⟩ := driven_plain (Q.std 0) (Q.step 0) (by rw [Q.c0]; exact b.silent0.tfsf) (by rw [gd]; exact be)
    (by rw [Q.c0]; exact b.empty0.lorentz) (by rw [Q.c0]; exact in0)
  obtain ⟨u1, u2, u3, -⟩ := driven_plain (Q.std 1) (Q.step 1) t3 (by rw [gd]; exact be) t2 t1
  obtain ⟨-, -, -, v4⟩ := driven_plain (Q.std 2) (Q.step 2) u3 (by rw [gd]; exact be) u2 u1
  have one : (cs 1).f.Ez.val 5 5 = 1 := by
    have z := silent_step (R.std 0) (by rw [R.c0]; exact silent1) (R.step 0) 5 5
    rw [(R.step 0).eE, (R.step 0).fE, z, R.c0, b.tfsf, g1, con _ _ (R.same 0)]
    simp [tfEz]
  have cu : curlH (ds 2).f gEx.dx 5 5 = curlH (cs 2).f gEx.dx 5 5 := by
    unfold curlH
    rw [(same 2).Hx, (same 2).Hx, (same 2).Hy, (same 2).Hy]
  rw [gc, con _ _ (R.same 2)] at s6
  rw [gd, con _ _ (Q.same 2), cu, (same 3).Ez, (same 2).Ez] at v4
  rw [s6, one, r2, p2, q2, gEx_dt] at v4
  simp only [Lorentz.CaPrev, LorentzPole.delta, sumL_real, ofInt_real, npow_real, List.map_cons, List.map_nil, List.sum_cons,
    List.sum_nil, List.length_cons, List.length_nil] at v4
  norm_num at v4

/-! ## Cases -/

/-- C83: a cylinder of glass and a block of metal. -/
example : ∃ J : ℤ → ℤ → ℝ → ℝ, ∀ n, ∃ c d, (glassMetal ⟨1, 0, 0⟩).run gEx n = .ok c ∧
    (⟨[], (glassMetal ⟨1, 0, 0⟩).srcs ++ currents gEx (glassMetal ⟨1, 0, 0⟩).objs J, none⟩ : Scene).run gEx n = .ok d ∧ SameEH c d := by
  obtain ⟨J, h, -⟩ := C83_currents_partial gEx gEx_wide gEx_lawful (by rw [gEx_T]; norm_num) (glassMetal ⟨1, 0, 0⟩)
    (glassMetal_fits (v := ⟨1, 0, 0⟩) gEx_lawful one_pos gEx_dx (le_refl 0) (le_refl 0) (by rw [gEx_Nx]; norm_num) (by rw [gEx_Ny]; norm_num))
    (by simp [glassMetal, glassOf, metalOf])
  exact ⟨J, h⟩

/-- A disc of water inside the total-field region of the example grid. -/
noncomputable def litDisc (m : Material ℝ) (tp : TimeProfile ℝ) : Scene :=
  ⟨[disc m 9 10], [], some (⟨⟨((5 : ℤ) : ℝ), ((6 : ℤ) : ℝ)⟩, ⟨((12 : ℤ) : ℝ), ((13 : ℤ) : ℝ)⟩, ⟨7, 7⟩⟩, tp)⟩

theorem litDisc_fits (m : Material ℝ) (tp : TimeProfile ℝ) : (litDisc m tp).Fits gEx := by
  refine ⟨?_, ?_, by simp [litDisc], ?_⟩
  · intro o ho
    obtain rfl : o = disc m 9 10 := by simpa [litDisc] using ho
    exact disc_clear _ (by norm_num) (by norm_num)
  · intro o ho
    obtain rfl : o = disc m 9 10 := by simpa [litDisc] using ho
    exact disc_sound _ _ _
  · intro w hw
    cases hw
    rw [gEx_node 5 6, gEx_node 12 13, gEx_Nx, gEx_Ny]
    norm_num

/-- C83: outside the region around a disc of water there is only the scattered field. -/
example (tp : TimeProfile ℝ) (e h : ℕ → ℤ → ℝ) (W : LineWave tp.resp gEx.dt 12 e h) :
    ∃ J : ℤ → ℤ → ℝ → ℝ, ∀ n, ∃ c d, (litDisc water tp).run gEx n = .ok c ∧
      (⟨[], currents gEx (litDisc water tp).objs J, none⟩ : Scene).run gEx n = .ok d ∧
      ∀ i, c.f.Ez.val i 4 = d.f.Ez.val i 4 := by
  have r : ClearRegion gEx (gEx.toGrid ⟨((5 : ℤ) : ℝ), ((6 : ℤ) : ℝ)⟩) (gEx.toGrid ⟨((12 : ℤ) : ℝ), ((13 : ℤ) : ℝ)⟩) := by
    have := gEx_region
    norm_num at this ⊢
    exact this
  obtain ⟨J, H⟩ := C83_zones_partial gEx gEx_wide gEx_lawful (by rw [gEx_T]; norm_num) (litDisc water tp) (litDisc_fits _ _) (by simp [litDisc, disc, water])
    _ tp rfl r e h (by rw [gEx_node 5 6, gEx_node 12 13]; exact W)
  refine ⟨J, fun n => ?_⟩
  obtain ⟨c, d, h1, h2, h3, -⟩ := H n
  exact ⟨c, d, h1, h2, fun i => (h3 i 4 (by rw [gEx_node 5 6]; simp)).1⟩

end Qbox.Props
