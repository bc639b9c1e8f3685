import Verif.Lemmas.PolarStep

/-! # One step of a program with media with memory, sources and an incident wave -/

namespace Qbox
open Scalar Spec Props

/-- The program without the incident wave. -/
def Core.unlit (c : Core ℝ) : Core ℝ := { c with tfsf := none }

/-- The total-field region is that from `a` to `b`. -/
def Core.Region (c : Core ℝ) (a b : V2 ℤ) : Prop := ∀ w, c.tfsf = some w → w.ia = a.x ∧ w.ib = b.x ∧ w.ja = a.y ∧ w.jb = b.y

theorem Core.Std.unlit {c : Core ℝ} (h : c.Std) : c.unlit.Std :=
  h.of_same { h.wf with tfsf := fun w hw => by cases hw } rfl rfl rfl rfl

theorem Core.Region.step {c c' : Core ℝ} {srcs srcs' E2 E3 E4 f} {a b : V2 ℤ} (h : c.Region a b) (hc : c.Std) (S : c.Step srcs c' srcs' E2 E3 E4 f) : c'.Region a b := by
  intro w' hw'
  obtain ⟨w, hw, e1, e2, e3, e4⟩ := optPulse_region (fun w hw => (hc.wf.tfsf w hw).1) S.tf w' hw'
  rw [e1, e2, e3, e4]
  exact h w hw

theorem tfEz_off {c : Core ℝ} {a b : V2 ℤ} (h : c.Region a b) {i j : ℤ} (hn : ¬ ((a.x ≤ i ∧ i ≤ b.x) ∧ (j = a.y ∨ j = b.y))) : tfEz c.tfsf i j = 0 :=
  tfEz_undriven (srcs := []) ⟨by simp, fun w hw => by obtain ⟨e1, e2, e3, e4⟩ := h w hw; rw [e1, e2, e3, e4]; exact hn⟩

theorem tfHx_off {c : Core ℝ} {a b : V2 ℤ} (h : c.Region a b) {i j : ℤ} (hn : j ≠ a.y - 1 ∧ j ≠ b.y) : tfHx c.tfsf i j = 0 := by
  unfold tfHx
  split
  · rfl
  · rename_i w hw
    obtain ⟨e1, e2, e3, e4⟩ := h w hw
    simp only [Tfsf.addHx, e3, e4, if_neg hn.1, if_neg hn.2]
    simp

theorem tfHy_off {c : Core ℝ} {a b : V2 ℤ} (h : c.Region a b) {i j : ℤ} (hn : i ≠ a.x - 1 ∧ i ≠ b.x) : tfHy c.tfsf i j = 0 := by
  unfold tfHy
  split
  · rfl
  · rename_i w hw
    obtain ⟨e1, e2, e3, e4⟩ := h w hw
    simp only [Tfsf.addHy, e1, e2, if_neg hn.1, if_neg hn.2]
    simp

/-- The step of the magnetic field in any medium, with sources and an incident wave. -/
theorem magnetic_lit {c c' : Core ℝ} {srcs srcs' E2 E3 E4 f} (hc : c.Std) (h : c.Step srcs c' srcs' E2 E3 E4 f) {i j : ℤ}
    (hb : Beyond c.g i j) {k : MatKind ℝ} (hm : HasMedium c.f k c.g.dt i j) :
    c'.f.Hx.val i j = c.f.Hx.val i j + totalContrib c.g (c.t + c.g.dt) srcs .Hx ⟨i, j⟩ - c.g.dt * ((c'.f.Ez.val i (j + 1) - c'.f.Ez.val i j) / c.g.dx)
      + tfHx c'.tfsf i j ∧
    c'.f.Hy.val i j = c.f.Hy.val i j + totalContrib c.g (c.t + c.g.dt) srcs .Hy ⟨i, j⟩ + c.g.dt * ((c'.f.Ez.val (i + 1) j - c'.f.Ez.val i j) / c.g.dx)
      + tfHy c'.tfsf i j := by
  obtain ⟨b1, b2, b3, b4⟩ := hb
  have hT := hc.thick
  have nx : c.pml.Nx = c.g.Nx := hc.wf.pml.nx
  have ny : c.pml.Ny = c.g.Ny := hc.wf.pml.ny
  have nt : c.pml.par.T = c.g.T := hc.wf.pml.thk
  have hin : (i, j) ∈ rect 1 (c.g.Nx - 1) 1 (c.g.Ny - 1) := by rw [mem_rect]; simp only; omega
  obtain ⟨-, -, q3, q4⟩ := h.coef
  have da : MatKind.Da c.g.dt k = 1 := by cases k <;> simp [MatKind.Da, Simple.Da]
  have db : MatKind.Db c.g.dt k = c.g.dt := by cases k <;> simp [MatKind.Db, Simple.Db]
  constructor
  · rw [h.eX, h.eE]
    simp only [Tensor.upd, Pml.corrHx, Pml.afterE, nx, ny, nt]
    rw [if_pos hin, if_neg (by rw [mem_rect]; simp only; omega), if_neg (by rw [mem_rect]; simp only; omega)]
    simp only [hxVal, hc.sc.khdy, q3, q4, hm.Da, hm.Db, h.fX, da, db]
    ring
  · rw [h.eY, h.eE]
    simp only [Tensor.upd, Pml.corrHy, Pml.afterE, nx, ny, nt]
    rw [if_pos hin, if_neg (by rw [mem_rect]; simp only; omega), if_neg (by rw [mem_rect]; simp only; omega)]
    simp only [hyVal, hc.sc.khdx, q3, q4, hm.Da, hm.Db, h.fY, da, db]
    ring

theorem Spec.Filled.move {c d : Core ℝ} (e2 : d.debye = c.debye) (e3 : d.drude = c.drude) (e4 : d.lorentz = c.lorentz) (e5 : d.g = c.g) (e6 : c.f.SameCoef d.f)
    {i j : ℤ} {m : Medium} (h : Filled c i j m) : Filled d i j m := by
  obtain ⟨f1, f2, f3, f4⟩ := e6
  have med : ∀ k, HasMedium c.f k c.g.dt i j → HasMedium d.f k d.g.dt i j := fun k h => by
    rw [e5]
    exact ⟨by rw [f1]; exact h.Ca, by rw [f2]; exact h.Cb, by rw [f3]; exact h.Da, by rw [f4]; exact h.Db⟩
  cases m with
  | simple m =>
    have h' : InSimple c m i j := h
    exact ⟨by rw [e2]; exact h'.debye, by rw [e3]; exact h'.drude, by rw [e4]; exact h'.lorentz, med _ h'.medium⟩
  | debye k m =>
    obtain ⟨n, P, b, a, F, q⟩ := h
    exact ⟨n, P, b, a, ⟨by rw [e2]; exact F.entry, F.others, by rw [e3]; exact F.drude, by rw [e4]; exact F.lorentz, med _ F.medium, by rw [e5]; exact F.strength⟩, q⟩
  | drude k m =>
    obtain ⟨n, P, b, a, F, q⟩ := h
    exact ⟨n, P, b, a, ⟨by rw [e3]; exact F.entry, F.others, by rw [e2]; exact F.debye, by rw [e4]; exact F.lorentz, med _ F.medium, by rw [e5]; exact F.strength⟩, q⟩

/-- A step with an incident wave: the laws of the media, and the terms of the wave at the edge of its region. -/
theorem lit_step {c c' : Core ℝ} {srcs srcs' E2 E3 E4 f} {med : ℤ → ℤ → Medium} (hc : c.Std) (h : Remembers c.unlit med) (hf : ∀ s ∈ srcs, Fits c.g s)
    (S : c.Step srcs c' srcs' E2 E3 E4 f) {eps sig I} {τ δ : ℝ} (hk : Spec.Carries c.g srcs eps sig I τ δ) (ho : SourcesApart c.g med srcs) {a b : V2 ℤ} (hr : c.Region a b) (hcl : ClearRegion c.g a b) :
    Remembers c'.unlit med ∧
    (∀ i j, (updatedNodes c.g).Mem i j →
      ConductiveLaw (med i j).base c.g.dt (c.f.Ez.val i j) (c'.f.Ez.val i j - tfEz c.tfsf i j) (curlH c.f c.g.dx i j +
        (((med i j).base.eps / c.g.dt + (med i j).base.conduc / 2) * addedE c.g srcs (c.t + c.g.dt) i j -
          ((med i j).res.flow ((med i j).cur c' i j) + (med i j).res.flow ((med i j).cur c i j)) / 2)) ∧
      c'.f.Hx.val i j = c.f.Hx.val i j - c.g.dt * ((c'.f.Ez.val i (j + 1) - c'.f.Ez.val i j) / c.g.dx) + tfHx c'.tfsf i j ∧
      c'.f.Hy.val i j = c.f.Hy.val i j + c.g.dt * ((c'.f.Ez.val (i + 1) j - c'.f.Ez.val i j) / c.g.dx) + tfHy c'.tfsf i j ∧
      (med i j).res.step c.g.dt (c.f.Ez.val i j) (c'.f.Ez.val i j - tfEz c.tfsf i j) ((med i j).cur c i j) ((med i j).cur c' i j) 0) := by
  obtain ⟨d, l0, F2, F3, F4, f', u, S'⟩ := Core.update_step h.std srcs hf
  have a1 := Prod.mk.inj (Except.ok.inj (S.hd.symm.trans S'.hd))
  have b1 := a1.2
  subst b1
  have a2 := Prod.mk.inj (Except.ok.inj (S.hr.symm.trans S'.hr))
  have b2 := a2.2
  subst b2
  have a3 := Prod.mk.inj (Except.ok.inj (S.hl.symm.trans S'.hl))
  obtain ⟨rem, laws, poles⟩ := remembers_step h S' hk ho
  have E' : ∀ i j, c'.f.Ez.val i j - tfEz c.tfsf i j = d.f.Ez.val i j := by
    intro i j
    rw [S.eE, S.fE, S'.eE, S'.fE, a3.2]
    simp only [Core.unlit, tfEz]
    ring
  have cur : ∀ i j, (med i j).cur c' i j = (med i j).cur d i j := by
    intro i j
    cases (med i j) with
    | simple m => rfl
    | debye k m => simp only [Medium.cur, a1.1]
    | drude k m => simp only [Medium.cur, a2.1]
  have cur0 : ∀ i j, (med i j).cur c.unlit i j = (med i j).cur c i j := fun i j => by cases (med i j) <;> rfl
  have nx : c.pml.Nx = c.g.Nx := hc.wf.pml.nx
  have ny : c.pml.Ny = c.g.Ny := hc.wf.pml.ny
  have nt : c.pml.par.T = 0 := by rw [hc.wf.pml.thk]; exact h.layer
  have hr' := hr.step hc S
  obtain ⟨x1, x2⟩ := hcl.edge
  obtain ⟨y1, y2, y3, y4⟩ := hcl.hi
  have T0 : c.g.T = 0 := h.layer
  rw [T0] at y2 y4
  have hax := hcl.x
  have hay := hcl.y
  have out : ∀ {i j : ℤ}, ¬ (updatedNodes c.g).Mem i j → ¬ (i, j) ∈ rect 1 (c.g.Nx - 1) 1 (c.g.Ny - 1) := by
    intro i j hn hm
    rw [mem_rect] at hm
    apply hn
    unfold Box.Mem updatedNodes
    simp only at hm ⊢
    omega
  have zX : ∀ i j, ¬ (updatedNodes c.g).Mem i j → c'.f.Hx.val i j = c.f.Hx.val i j + tfHx c'.tfsf i j := by
    intro i j hm
    rw [S.eX]
    simp only [Tensor.upd, Pml.corrHx, Pml.afterE, nx, ny, nt]
    rw [if_neg (out hm), if_neg (by rw [mem_rect]; simp only; omega), if_neg (by rw [mem_rect]; simp only; omega), S.fX, totalContrib_out hk.inner .Hx hm]
    ring
  have zY : ∀ i j, ¬ (updatedNodes c.g).Mem i j → c'.f.Hy.val i j = c.f.Hy.val i j + tfHy c'.tfsf i j := by
    intro i j hm
    rw [S.eY]
    simp only [Tensor.upd, Pml.corrHy, Pml.afterE, nx, ny, nt]
    rw [if_neg (out hm), if_neg (by rw [mem_rect]; simp only; omega), if_neg (by rw [mem_rect]; simp only; omega), S.fY, totalContrib_out hk.inner .Hy hm]
    ring
  have gd : d.g = c.g := S'.g
  have coef : d.f.SameCoef c'.unlit.f := by
    obtain ⟨p1, p2, p3, p4⟩ := S.coef'
    obtain ⟨r1, r2, r3, r4⟩ := S'.coef'
    exact ⟨p1.trans r1.symm, p2.trans r2.symm, p3.trans r3.symm, p4.trans r4.symm⟩
  have eg : c'.unlit.g = c.g := S.g
  have eg' : c'.unlit.g = d.g := by rw [eg, gd]
  refine ⟨⟨S.std.unlit, by rw [eg, T0], rfl, ?_, ?_, ⟨?_, ?_⟩, ?_⟩, fun i j hm => ⟨?_, ?_, ?_, ?_⟩⟩
  · rw [eg']
    exact ⟨by rw [eg']; exact rem.media.beyond, fun i j hm => Spec.Filled.move (d := c'.unlit) a1.1 a2.1 a3.1 eg' coef (rem.media.filled i j hm), rem.media.passive, a3.1.trans rem.media.lorentz⟩
  · rw [eg']; exact rem.single
  · rw [eg', show c'.unlit.debye = d.debye from a1.1]; exact rem.edge.debye
  · rw [eg', show c'.unlit.drude = d.drude from a2.1]; exact rem.edge.drude
  · have q := rem.frame
    rw [gd] at q
    have q0 := h.frame
    rw [show c.unlit.g = c.g from rfl] at q0
    rw [eg]
    refine ⟨fun j => ?_, fun j => ?_, fun i => ?_, fun i => ?_⟩
    · refine (zY _ _ (by unfold Box.Mem; omega)).trans ?_
      rw [tfHy_off hr' (by simp only [updatedNodes]; omega), add_zero]; exact q0.left j
    · have := E' ((updatedNodes c.g).r + 1) j
      rw [tfEz_off hr (by simp only [updatedNodes]; omega), sub_zero] at this
      exact this.trans (q.right j)
    · refine (zX _ _ (by unfold Box.Mem; omega)).trans ?_
      rw [tfHx_off hr' (by simp only [updatedNodes]; omega), add_zero]; exact q0.bottom i
    · have := E' i ((updatedNodes c.g).t + 1)
      rw [tfEz_off hr (by simp only [updatedNodes]; omega), sub_zero] at this
      exact this.trans (q.top i)
  · have := laws.ampere i j hm
    rw [← cur0, cur, E']
    exact this
  · obtain ⟨k, hmd⟩ := (h.media.filled i j hm).medium
    rw [(magnetic_lit hc S (h.media.beyond i j hm) hmd).1, hk.silentH _ (by simp)]
    ring
  · obtain ⟨k, hmd⟩ := (h.media.filled i j hm).medium
    rw [(magnetic_lit hc S (h.media.beyond i j hm) hmd).2, hk.silentH _ (by simp)]
    ring
  · have := poles i j hm
    rw [← cur0, cur, E']
    exact this

/-- What the incident wave at a node contributes to the law of a step of the medium there. -/
noncomputable def Spec.Response.lead (dt a a' : ℝ) : Response → ℝ
  | .plain => 0
  | .debye d _ => d * (a' - a) / dt
  | .drude _ o => o ^ 2 * (a' + a) / 2

theorem Spec.Response.step_lead {r : Response} {dt E E' a a' K K' q : ℝ} (h : r.step dt (E + a) (E' + a') K K' q) :
    r.step dt E E' K K' (q + r.lead dt a a') := by
  cases r with
  | plain => trivial
  | debye d t => simp only [Response.step, Response.lead] at h ⊢; rw [h]; ring
  | drude c o => simp only [Response.step, Response.lead] at h ⊢; rw [h]; ring

/-- The vacuum everywhere. -/
noncomputable def emptySpace : ℤ → ℤ → Medium := fun _ _ => .simple Qbox.vacuum

/-- A program with objects, and one without and with the same incident wave. -/
structure LitPair (c u : Core ℝ) (med : ℤ → ℤ → Medium) (a b : V2 ℤ) : Prop where
  stdc : c.Std
  stdu : u.Std
  objects : Remembers c.unlit med
  empty : Remembers u.unlit emptySpace
  g : u.g = c.g
  wave : u.tfsf = c.tfsf
  region : c.Region a b

theorem nothing_carried (g : Grid ℝ) (τ : ℝ) : Spec.Carries g [] (fun _ _ => 1) (fun _ _ => 0) (fun _ _ _ => 0) τ 0 :=
  ⟨by simp, fun n i j _ _ _ _ _ => by simp [addedE]⟩

/-- A step of both: the difference of their fields obeys the laws of the media, without the terms at the edge of the region. The currents of the media follow the sum
of the difference and the incident wave. -/
theorem LitPair.step {c u c' u' : Core ℝ} {med : ℤ → ℤ → Medium} {a b : V2 ℤ} (h : LitPair c u med a b) {srcs srcs' E2 E3 E4 f F2 F3 F4 f'}
    (hf : ∀ s ∈ srcs, Fits c.g s) (S : c.Step srcs c' srcs' E2 E3 E4 f) (S' : u.Step [] u' [] F2 F3 F4 f')
    {eps sig I} {τ δ : ℝ} (hk : Spec.Carries c.g srcs eps sig I τ δ) (ho : SourcesApart c.g med srcs) (hcl : ClearRegion c.g a b)
    (hv : ∀ i j, (a.x ≤ i ∧ i ≤ b.x) ∧ (j = a.y ∨ j = b.y) → med i j = .simple Qbox.vacuum) {D D' : Flds ℝ} (m : Mix 1 (-1) c.f u.f D) (m' : Mix 1 (-1) c'.f u'.f D') :
    LitPair c' u' med a b ∧
    Laws c.g (fun i j => (med i j).base) (updatedNodes c.g) D D'
      (fun i j => ((med i j).base.eps / c.g.dt + (med i j).base.conduc / 2) * addedE c.g srcs (c.t + c.g.dt) i j -
        (((med i j).base.eps - 1) * ((u'.f.Ez.val i j - u.f.Ez.val i j) / c.g.dt) + (med i j).base.conduc * ((u'.f.Ez.val i j + u.f.Ez.val i j) / 2)) -
        ((med i j).res.flow ((med i j).cur c' i j) + (med i j).res.flow ((med i j).cur c i j)) / 2) (fun _ _ => 0) (fun _ _ => 0) ∧
    (∀ i j, (updatedNodes c.g).Mem i j → (med i j).res.step c.g.dt (D.Ez.val i j + u.f.Ez.val i j) (D'.Ez.val i j + u'.f.Ez.val i j)
      ((med i j).cur c i j) ((med i j).cur c' i j) 0) ∧
    FrameQuiet D (updatedNodes c.g) ∧ FrameQuiet D' (updatedNodes c.g) := by
  have hru : u.Region a b := fun w hw => h.region w (by rw [← h.wave]; exact hw)
  obtain ⟨r1, n1⟩ := lit_step h.stdc h.objects hf S hk ho h.region hcl
  obtain ⟨r2, n2⟩ := lit_step h.stdu h.empty (by simp) S' (nothing_carried u.g τ) (fun i j _ hs => hs.elim) hru (by rw [h.g]; exact hcl)
  have wv : u'.tfsf = c'.tfsf := by
    have k1 := S.tf
    have k2 := S'.tf
    rw [h.wave, k1] at k2
    exact (Except.ok.inj k2).symm
  have g' : u'.g = c'.g := by rw [S'.g, S.g, h.g]
  rw [h.g] at n2
  have off : ∀ i j, ¬ ((a.x ≤ i ∧ i ≤ b.x) ∧ (j = a.y ∨ j = b.y)) → tfEz c.tfsf i j = 0 := fun i j hn => tfEz_off h.region hn
  have qc := h.objects.frame
  have qu := h.empty.frame
  have qc' := r1.frame
  have qu' := r2.frame
  rw [show c.unlit.g = c.g from rfl] at qc
  rw [show u.unlit.g = c.g from h.g] at qu
  rw [show c'.unlit.g = c.g from S.g] at qc'
  rw [show u'.unlit.g = c.g from S'.g.trans h.g] at qu'
  refine ⟨⟨S.std, S'.std, r1, r2, g', wv, h.region.step h.stdc S⟩, ⟨fun i j hm => ?_, fun i j hm => ?_, fun i j hm => ?_⟩, fun i j hm => ?_, m.quiet qc qu, m'.quiet qc' qu'⟩
  · obtain ⟨k1, -⟩ := n1 i j hm
    obtain ⟨k2, -⟩ := n2 i j hm
    rw [h.wave] at k2
    unfold ConductiveLaw curlH at k1 k2 ⊢
    simp only [emptySpace, Medium.base, Medium.res, Response.flow, Qbox.vacuum, addedE, List.map_nil, List.sum_nil] at k2
    rw [m.Ez, m'.Ez, m.Hx, m.Hx, m.Hy, m.Hy]
    by_cases hn : (a.x ≤ i ∧ i ≤ b.x) ∧ (j = a.y ∨ j = b.y)
    · have hm' := hv i j hn
      rw [hm'] at k1 ⊢
      simp only [Medium.base, Medium.res, Response.flow, Qbox.vacuum] at k1 ⊢
      linear_combination k1 - k2
    · rw [off i j hn] at k1 k2
      linear_combination k1 - k2
  · rw [m'.Hx, m.Hx, m'.Ez, m'.Ez, (n1 i j hm).2.1, (n2 i j hm).2.1, wv]
    ring
  · rw [m'.Hy, m.Hy, m'.Ez, m'.Ez, (n1 i j hm).2.2.1, (n2 i j hm).2.2.1, wv]
    ring
  · obtain ⟨-, -, -, k⟩ := n1 i j hm
    have e1 : D.Ez.val i j + u.f.Ez.val i j = c.f.Ez.val i j := by rw [m.Ez]; ring
    have e2 : D'.Ez.val i j + u'.f.Ez.val i j = c'.f.Ez.val i j := by rw [m'.Ez]; ring
    rw [e1, e2]
    by_cases hn : (a.x ≤ i ∧ i ≤ b.x) ∧ (j = a.y ∨ j = b.y)
    · rw [hv i j hn]
      trivial
    · rwa [off i j hn, sub_zero] at k

end Qbox
