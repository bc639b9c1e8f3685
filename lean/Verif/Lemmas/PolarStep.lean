import Verif.Lemmas.Polar
import Verif.Lemmas.DrivenWave
import Verif.Props.DispersiveProps
import Verif.Props.DrivenWaveProps

/-! # One step of a program with media with memory and sources -/

namespace Qbox
open Scalar Spec Props

namespace Spec.Medium

/-- The delayed response of a medium of at most one pole. -/
noncomputable def res : Medium → Response
  | .simple _ => .plain
  | .debye _ m => match m.poles with
    | [p] => .debye p.dEps p.tau
    | _ => .plain
  | .drude _ m => match m.poles with
    | [p] => .drude p.gamma p.omega
    | _ => .plain

/-- At most one pole. -/
def Single : Medium → Prop
  | .simple _ => True
  | .debye _ m => m.poles.length ≤ 1
  | .drude _ m => m.poles.length ≤ 1

/-- The medium has memory. -/
def Slow : Medium → Prop
  | .simple _ => False
  | _ => True

/-- The polarization current of the first pole in the program. -/
noncomputable def cur (c : Core ℝ) (i j : ℤ) : Medium → ℝ
  | .simple _ => 0
  | .debye k _ => match c.debye[k]? with
    | some q => q.2.J.val i j 0
    | none => 0
  | .drude k _ => match c.drude[k]? with
    | some q => q.2.J.val i j 0
    | none => 0

theorem res_passive {m : Medium} (h : m.Passive) : m.res.Passive := by
  cases m with
  | simple m => trivial
  | debye k m =>
    have h' : DebyePassive m := h
    unfold res
    simp only
    split
    · rename_i p e
      exact ⟨h'.dEps p (by rw [e]; simp), h'.tau p (by rw [e]; simp)⟩
    · trivial
  | drude k m =>
    have h' : DrudePassive m := h
    unfold res
    simp only
    split
    · rename_i p e
      exact ⟨h'.gamma p (by rw [e]; simp), h'.omega p (by rw [e]; simp)⟩
    · trivial

theorem of_kind {k : MatKind ℝ} {m : Medium} {e s : ℝ} {r : Response} (h : Medium.Of k m) (h' : KindIs k e s r) :
    m.base.eps = e ∧ m.base.conduc = s ∧ m.res = r ∧ m.Single ∧ (m.Slow → MatKind.Delayed k) := by
  cases h <;> cases h' <;> exact ⟨rfl, rfl, rfl, by simp [Single], fun h => h⟩

end Spec.Medium

/-- The step of the magnetic field in any medium, with sources. -/
theorem magnetic_full {c c' : Core ℝ} {srcs srcs' E2 E3 E4 f} (hc : c.Std) (h : c.Step srcs c' srcs' E2 E3 E4 f) {i j : ℤ}
    (hb : Beyond c.g i j) (ht : c.tfsf = none) {k : MatKind ℝ} (hm : HasMedium c.f k c.g.dt i j) :
    c'.f.Hx.val i j = c.f.Hx.val i j + totalContrib c.g (c.t + c.g.dt) srcs .Hx ⟨i, j⟩ - c.g.dt * ((c'.f.Ez.val i (j + 1) - c'.f.Ez.val i j) / c.g.dx) ∧
    c'.f.Hy.val i j = c.f.Hy.val i j + totalContrib c.g (c.t + c.g.dt) srcs .Hy ⟨i, j⟩ + c.g.dt * ((c'.f.Ez.val (i + 1) j - c'.f.Ez.val i j) / c.g.dx) := by
  obtain ⟨b1, b2, b3, b4⟩ := hb
  have hT := hc.thick
  have nx : c.pml.Nx = c.g.Nx := hc.wf.pml.nx
  have ny : c.pml.Ny = c.g.Ny := hc.wf.pml.ny
  have nt : c.pml.par.T = c.g.T := hc.wf.pml.thk
  have tn : c'.tfsf = none := by
    have := h.tf
    rw [ht] at this
    exact (Except.ok.inj this).symm
  have hin : (i, j) ∈ rect 1 (c.g.Nx - 1) 1 (c.g.Ny - 1) := by rw [mem_rect]; simp only; omega
  obtain ⟨-, -, q3, q4⟩ := h.coef
  have da : MatKind.Da c.g.dt k = 1 := by cases k <;> simp [MatKind.Da, Simple.Da]
  have db : MatKind.Db c.g.dt k = c.g.dt := by cases k <;> simp [MatKind.Db, Simple.Db]
  constructor
  · rw [h.eX, tn, h.eE]
    simp only [Tensor.upd, Pml.corrHx, Pml.afterE, nx, ny, nt, tfHx]
    rw [if_pos hin, if_neg (by rw [mem_rect]; simp only; omega), if_neg (by rw [mem_rect]; simp only; omega)]
    simp only [hxVal, hc.sc.khdy, q3, q4, hm.Da, hm.Db, h.fX, da, db]
    ring
  · rw [h.eY, tn, h.eE]
    simp only [Tensor.upd, Pml.corrHy, Pml.afterE, nx, ny, nt, tfHy]
    rw [if_pos hin, if_neg (by rw [mem_rect]; simp only; omega), if_neg (by rw [mem_rect]; simp only; omega)]
    simp only [hyVal, hc.sc.khdx, q3, q4, hm.Da, hm.Db, h.fY, da, db]
    ring

theorem Spec.Filled.medium {c : Core ℝ} {i j : ℤ} {m : Medium} (h : Filled c i j m) : ∃ k, HasMedium c.f k c.g.dt i j := by
  cases m with
  | simple m => exact ⟨_, InSimple.medium h⟩
  | debye k m => obtain ⟨n, P, b, a, h, -⟩ := h; exact ⟨_, h.medium⟩
  | drude k m => obtain ⟨n, P, b, a, h, -⟩ := h; exact ⟨_, h.medium⟩

/-- What the poles see of a source: a step at a node of a passive medium of at most one pole, with sources there. The field follows the law of the medium, and after
that the source is added. -/
theorem memory_blind {c c' : Core ℝ} {srcs srcs' E2 E3 E4 f} (hc : c.Std) (S : c.Step srcs c' srcs' E2 E3 E4 f) (ht : c.tfsf = none)
    (hl : c.lorentz = []) {i j : ℤ} (hb : Beyond c.g i j) {m : Medium} (hp : m.Passive) (h1 : m.Single) (hm : Filled c i j m) :
    Filled c' i j m ∧
      ConductiveLaw m.base c.g.dt (c.f.Ez.val i j) (c'.f.Ez.val i j - totalContrib c.g (c.t + c.g.dt) srcs .Ez ⟨i, j⟩)
        (curlH c.f c.g.dx i j - (m.res.flow (m.cur c' i j) + m.res.flow (m.cur c i j)) / 2) ∧
      m.res.step c.g.dt (c.f.Ez.val i j) (c'.f.Ez.val i j - totalContrib c.g (c.t + c.g.dt) srcs .Ez ⟨i, j⟩) (m.cur c i j) (m.cur c' i j) 0 := by
  obtain ⟨d, l0, F2, F3, F4, f', u, S'⟩ := Core.update_step hc [] (by simp)
  obtain rfl : l0 = [] := by have := S'.same; cases this; rfl
  have un : Undriven c [] i j := ⟨by simp, by rw [ht]; simp⟩
  obtain ⟨e1, e2, e3, e4⟩ := same_stage S S'
  have eE : c'.f.Ez.val i j - totalContrib c.g (c.t + c.g.dt) srcs .Ez ⟨i, j⟩ = d.f.Ez.val i j := by
    rw [S.eE, S.fE, S'.Ez_node un, e1, ht]
    simp [tfEz]
  rw [eE]
  cases m with
  | simple m =>
    obtain ⟨h1, -, h3⟩ := S'.inSimple hc hb un hl hm
    refine ⟨⟨by rw [e2]; exact h1.debye, by rw [e3]; exact h1.drude, by rw [e4]; exact h1.lorentz, S.medium (InSimple.medium hm)⟩, ?_, trivial⟩
    have := ((C24_unique m c.g.dt hc.dt_pos (by linarith [hp.1]) hp.2).1 _ _ _).mpr h3
    simpa [Medium.res, Medium.base, Response.flow] using this
  | debye k m =>
    obtain ⟨n, P, b, a, h2, rfl, rfl⟩ := hm
    have hp' : DebyePassive P.mat := hp
    obtain ⟨c2, l2, P', b', a', k1, k2, k3, k4, k5⟩ := C25_single_partial c hc [] (by simp) i j hb un n P b a h2
      ⟨by linarith [hp'.epsInf], fun p h => ⟨hp'.tau p h, (hp'.dEps p h).le⟩⟩ h1
    rw [u] at k1
    obtain ⟨rfl, -⟩ := Prod.mk.inj (Except.ok.inj k1)
    have cur1 : Medium.cur c i j (.debye b.length P.mat) = P.J.val i j 0 := by simp only [Medium.cur]; rw [get_split h2.entry]
    have cur2 : Medium.cur c' i j (.debye b.length P.mat) = P'.J.val i j 0 := by simp only [Medium.cur]; rw [e2, ← k3, get_split k2.entry]
    refine ⟨⟨n, P', b', a', ⟨by rw [e2]; exact k2.entry, k2.others, by rw [e3]; exact k2.drude, by rw [e4]; exact k2.lorentz,
      by rw [k4]; exact S.medium h2.medium, by rw [S.g, ← S'.g]; exact k2.strength⟩, k3, k4⟩, ?_⟩
    have am := k5.ampere
    rw [cur1, cur2]
    have h1' : P.mat.poles.length ≤ 1 := h1
    rcases hpl : P.mat.poles with _ | ⟨p, _ | ⟨p2, l⟩⟩
    · simp only [hpl, List.length_nil, Finset.range_zero, Finset.sum_empty, add_zero] at am
      refine ⟨?_, by simp [Medium.res, hpl, Response.step]⟩
      unfold ConductiveLaw Medium.base
      simp only [Medium.res, hpl, Response.flow]
      linarith
    · have po := k5.pole 0 (by rw [hpl]; simp)
      simp only [hpl, List.length_singleton, Finset.range_one, Finset.sum_singleton, Nat.cast_zero, List.getElem_cons_zero] at am po
      constructor
      · unfold ConductiveLaw Medium.base
        simp only [Medium.res, hpl, Response.flow]
        linarith
      · simp only [Medium.res, hpl, Response.step]
        linarith
    · rw [hpl] at h1'; simp at h1'
  | drude k m =>
    obtain ⟨n, P, b, a, h2, rfl, rfl⟩ := hm
    have hp' : DrudePassive P.mat := hp
    obtain ⟨c2, l2, P', b', a', k1, k2, k3, k4, k5⟩ := C26_single_partial c hc [] (by simp) i j hb un n P b a h2 ⟨by linarith [hp'.epsInf], hp'.gamma⟩ hp'.single
    rw [u] at k1
    obtain ⟨rfl, -⟩ := Prod.mk.inj (Except.ok.inj k1)
    have cur1 : Medium.cur c i j (.drude b.length P.mat) = P.J.val i j 0 := by simp only [Medium.cur]; rw [get_split h2.entry]
    have cur2 : Medium.cur c' i j (.drude b.length P.mat) = P'.J.val i j 0 := by simp only [Medium.cur]; rw [e3, ← k3, get_split k2.entry]
    refine ⟨⟨n, P', b', a', ⟨by rw [e3]; exact k2.entry, k2.others, by rw [e2]; exact k2.debye, by rw [e4]; exact k2.lorentz,
      by rw [k4]; exact S.medium h2.medium, by rw [S.g, ← S'.g]; exact k2.strength⟩, k3, k4⟩, ?_⟩
    have am := k5.ampere
    rw [cur1, cur2]
    have h1' : P.mat.poles.length ≤ 1 := h1
    rcases hpl : P.mat.poles with _ | ⟨p, _ | ⟨p2, l⟩⟩
    · simp only [hpl, List.length_nil, Finset.range_zero, Finset.sum_empty, add_zero] at am
      refine ⟨?_, by simp [Medium.res, hpl, Response.step]⟩
      unfold ConductiveLaw Medium.base
      simp only [Medium.res, hpl, Response.flow]
      linarith
    · have po := k5.pole 0 (by rw [hpl]; simp)
      simp only [hpl, List.length_singleton, Finset.range_one, Finset.sum_singleton, Nat.cast_zero, List.getElem_cons_zero] at am po
      constructor
      · unfold ConductiveLaw Medium.base
        simp only [Medium.res, hpl, Response.flow]
        linarith
      · simp only [Medium.res, hpl, Response.step]
        linarith
    · rw [hpl] at h1'; simp at h1'

/-- The box without absorbing layer, filled with passive media of at most one pole. -/
structure Remembers (c : Core ℝ) (med : ℤ → ℤ → Medium) : Prop where
  std : c.Std
  layer : c.g.T = 0
  wave : c.tfsf = none
  media : Dispersive c med (updatedNodes c.g)
  single : ∀ i j, (updatedNodes c.g).Mem i j → (med i j).Single
  edge : EdgeStill c
  frame : FrameQuiet c.f (updatedNodes c.g)

/-- The sources are silent in media with memory. -/
def SourcesApart (g : Grid ℝ) (med : ℤ → ℤ → Medium) (srcs : List (Source ℝ)) : Prop :=
  ∀ i j, (updatedNodes g).Mem i j → (med i j).Slow → ∀ t, addedE g srcs t i j = 0

theorem SourcesApart.same {g : Grid ℝ} {med : ℤ → ℤ → Medium} {srcs srcs' : List (Source ℝ)} (h : SourcesApart g med srcs) (hs : List.Forall₂ SameSrc srcs srcs') :
    SourcesApart g med srcs' := fun i j hm hl t => by
  have : addedE g srcs' t i j = addedE g srcs t i j := totalContrib_same hs
  rw [this]
  exact h i j hm hl t

theorem remembers_step {c c' : Core ℝ} {srcs srcs' E2 E3 E4 f} {med : ℤ → ℤ → Medium} (h : Remembers c med) (S : c.Step srcs c' srcs' E2 E3 E4 f)
    {eps sig I} {τ δ : ℝ} (hk : Spec.Carries c.g srcs eps sig I τ δ) (ho : SourcesApart c.g med srcs) :
    Remembers c' med ∧
    Laws c.g (fun i j => (med i j).base) (updatedNodes c.g) c.f c'.f
      (fun i j => ((med i j).base.eps / c.g.dt + (med i j).base.conduc / 2) * addedE c.g srcs (c.t + c.g.dt) i j -
        ((med i j).res.flow ((med i j).cur c' i j) + (med i j).res.flow ((med i j).cur c i j)) / 2) (fun _ _ => 0) (fun _ _ => 0) ∧
    ∀ i j, (updatedNodes c.g).Mem i j → (med i j).res.step c.g.dt (c.f.Ez.val i j) (c'.f.Ez.val i j) ((med i j).cur c i j) ((med i j).cur c' i j) 0 := by
  obtain ⟨d, l0, F2, F3, F4, f', u, S'⟩ := Core.update_step h.std [] (by simp)
  obtain rfl : l0 = [] := by have := S'.same; cases this; rfl
  obtain ⟨e1, e2, e3, e4⟩ := same_stage S S'
  obtain ⟨q1, s1, -, lo⟩ := closed_still h.std h.layer S' h.wave h.media.lorentz h.edge h.frame
  have tn : c'.tfsf = none := by
    have := S.tf
    rw [h.wave] at this
    exact (Except.ok.inj this).symm
  have nx : c.pml.Nx = c.g.Nx := h.std.wf.pml.nx
  have ny : c.pml.Ny = c.g.Ny := h.std.wf.pml.ny
  have nt : c.pml.par.T = 0 := by rw [h.std.wf.pml.thk, h.layer]
  have zE : ∀ i j, ¬ (updatedNodes c.g).Mem i j → c'.f.Ez.val i j = d.f.Ez.val i j := by
    intro i j hm
    rw [S.eE, S.fE, S'.eE, S'.fE, e1, totalContrib_out hk.inner .Ez hm]
    simp [totalContrib]
  have out : ∀ {i j : ℤ}, ¬ (updatedNodes c.g).Mem i j → ¬ (i, j) ∈ rect 1 (c.g.Nx - 1) 1 (c.g.Ny - 1) := by
    intro i j hn hm
    rw [mem_rect] at hm
    apply hn
    unfold Box.Mem updatedNodes
    simp only at hm ⊢
    omega
  have zX : ∀ i j, ¬ (updatedNodes c.g).Mem i j → c'.f.Hx.val i j = c.f.Hx.val i j := by
    intro i j hm
    rw [S.eX, tn]
    simp only [Tensor.upd, Pml.corrHx, Pml.afterE, nx, ny, nt, tfHx]
    rw [if_neg (out hm), if_neg (by rw [mem_rect]; simp only; omega), if_neg (by rw [mem_rect]; simp only; omega), S.fX, totalContrib_out hk.inner .Hx hm]
    ring
  have zY : ∀ i j, ¬ (updatedNodes c.g).Mem i j → c'.f.Hy.val i j = c.f.Hy.val i j := by
    intro i j hm
    rw [S.eY, tn]
    simp only [Tensor.upd, Pml.corrHy, Pml.afterE, nx, ny, nt, tfHy]
    rw [if_neg (out hm), if_neg (by rw [mem_rect]; simp only; omega), if_neg (by rw [mem_rect]; simp only; omega), S.fY, totalContrib_out hk.inner .Hy hm]
    ring
  have node := fun i j (hm : (updatedNodes c.g).Mem i j) => memory_blind h.std S h.wave h.media.lorentz (h.media.beyond i j hm) (h.media.passive i j hm) (h.single i j hm)
    (h.media.filled i j hm)
  have add : ∀ i j, totalContrib c.g (c.t + c.g.dt) srcs .Ez ⟨i, j⟩ = addedE c.g srcs (c.t + c.g.dt) i j := fun _ _ => rfl
  refine ⟨⟨S.std, by rw [S.g, h.layer], tn, ?_, by rw [S.g]; exact h.single, ⟨?_, ?_⟩, ?_⟩, ⟨fun i j hm => ?_, fun i j hm => ?_, fun i j hm => ?_⟩, fun i j hm => ?_⟩
  · rw [S.g]
    exact ⟨by rw [S.g]; exact h.media.beyond, fun i j hm => (node i j hm).1, h.media.passive, by rw [e4]; exact lo⟩
  · rw [e2, S.g, ← S'.g]; exact s1.debye
  · rw [e3, S.g, ← S'.g]; exact s1.drude
  · rw [S'.g] at q1
    rw [S.g]
    refine ⟨fun j => ?_, fun j => ?_, fun i => ?_, fun i => ?_⟩
    · rw [zY _ _ (by unfold Box.Mem; omega)]; exact h.frame.left j
    · rw [zE _ _ (by unfold Box.Mem; omega)]; exact q1.right j
    · rw [zX _ _ (by unfold Box.Mem; omega)]; exact h.frame.bottom i
    · rw [zE _ _ (by unfold Box.Mem; omega)]; exact q1.top i
  · have k := (node i j hm).2.1
    rw [add] at k
    unfold ConductiveLaw at k ⊢
    linear_combination k
  · obtain ⟨k, hmd⟩ := (h.media.filled i j hm).medium
    rw [(magnetic_full h.std S (h.media.beyond i j hm) h.wave hmd).1, hk.silentH _ (by simp)]
    ring
  · obtain ⟨k, hmd⟩ := (h.media.filled i j hm).medium
    rw [(magnetic_full h.std S (h.media.beyond i j hm) h.wave hmd).2, hk.silentH _ (by simp)]
    ring
  · have k := (node i j hm).2.2
    rw [add] at k
    by_cases hsl : (med i j).Slow
    · rwa [ho i j hm hsl, sub_zero] at k
    · cases hmd : med i j with
      | simple m => trivial
      | debye n m => rw [hmd] at hsl; exact absurd trivial hsl
      | drude n m => rw [hmd] at hsl; exact absurd trivial hsl

end Qbox
