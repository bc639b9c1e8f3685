import Verif.Lemmas.PolarStep
import Verif.Props.CurrentProps

/-! # One step of a closed domain with one Lorentz medium of one pole -/

namespace Qbox
open Scalar Spec Props

/-- A closed domain of simple media and of a Lorentz medium of one pole, which fills the nodes `inn`; `pE` is the field before the last step. -/
structure Swings (c : Core ℝ) (n : String) (P : LorentzPol ℝ) (pE : Tensor ℝ) (med : ℤ → ℤ → Simple ℝ) (inn : ℤ → ℤ → Prop) (e : ℝ) (p : LorentzPole ℝ) :
    Prop where
  std : c.Std
  layer : c.g.T = 0
  wave : c.tfsf = none
  debye : c.debye = []
  drude : c.drude = []
  entry : c.lorentz = [(n, P)]
  mat : P.mat = ⟨e, [p]⟩
  prev : c.prevE = some pE
  inside : ∀ i j, (updatedNodes c.g).Mem i j → inn i j → InLorentz c n P i j ∧ (med i j).eps = e ∧ (med i j).conduc = 0
  outside : ∀ i j, (updatedNodes c.g).Mem i j → ¬ inn i j → InSimple c (med i j) i j ∧ 1 ≤ (med i j).eps ∧ 0 ≤ (med i j).conduc
  edge : ∀ i j, 0 ≤ i → i < c.g.Nx → 0 ≤ j → j < c.g.Ny → i = c.g.Nx - 1 ∨ j = c.g.Ny - 1 → P.J.val i j 0 = 0 ∧ P.prevJ.val i j 0 = 0 ∧ pE.val i j = 0
  frame : FrameQuiet c.f (updatedNodes c.g)

/-- A pole that gives off no energy. -/
structure LorentzPole.Sound (p : LorentzPole ℝ) : Prop where
  omega : p.omega ≠ 0
  dEps : 0 < p.dEps
  gamma : 0 ≤ p.gamma

open Classical in
/-- The medium as one of free charges, without the force that pulls them back. -/
noncomputable def swingRes (inn : ℤ → ℤ → Prop) (p : LorentzPole ℝ) (i j : ℤ) : Response :=
  if inn i j then .drude (2 * p.gamma) (Real.sqrt p.dEps * p.omega) else .plain

open Classical in
/-- What `Ca_prev` adds to Ampère's law, as multiple of the field before the last step. -/
noncomputable def leakage (med : ℤ → ℤ → Simple ℝ) (inn : ℤ → ℤ → Prop) (e : ℝ) (p : LorentzPole ℝ) (dt : ℝ) (i j : ℤ) : ℝ :=
  if inn i j then (e / dt + p.delta dt / (4 * dt)) * (p.delta dt / 2 / (2 * e + p.delta dt)) - p.delta dt / (4 * dt)
  else ((med i j).eps / dt + (med i j).conduc / 2) * (p.delta dt / 2 / (2 * e + p.delta dt))

/-- The polarization half a step after the currents. -/
noncomputable def displaced (p : LorentzPole ℝ) (dt E pE J pJ : ℝ) : ℝ :=
  (p.dEps * p.omega ^ 2 * (E + pE) / 2 - (J - pJ) / dt - p.gamma * (J + pJ)) / p.omega ^ 2 + dt * J

theorem delta_pos {p : LorentzPole ℝ} (hp : p.Sound) {dt : ℝ} (hd : 0 < dt) : 0 < p.delta dt := by
  have := hp.omega
  have := hp.dEps
  have := hp.gamma
  simp only [LorentzPole.delta, npow_real]
  positivity

/-- The arithmetic of a step inside the medium. -/
theorem lorentz_law {e : ℝ} (he : 0 < e) {p : LorentzPole ℝ} (hp : p.Sound) {dt : ℝ} (hd : 0 < dt) {E E' pE J J' pJ curl : ℝ}
    (h1 : E' = (Lorentz.mk e [p]).Ca dt * E + (Lorentz.mk e [p]).Cb dt * curl + (Lorentz.mk e [p]).CaPrev dt * pE -
      (Lorentz.mk e [p]).Cb dt / 2 * ((1 + p.alpha dt) * J + p.beta dt * pJ))
    (h2 : J' = p.alpha dt * J + p.beta dt * pJ + p.delta dt / (2 * dt) * (E' - pE)) :
    e * (E' - E) / dt = curl + (((e / dt + p.delta dt / (4 * dt)) * (p.delta dt / 2 / (2 * e + p.delta dt)) - p.delta dt / (4 * dt)) * pE - (J' + J) / 2) ∧
    (J' - J) / dt + 2 * p.gamma * (J' + J) / 2 = (Real.sqrt p.dEps * p.omega) ^ 2 * (E' + E) / 2 - p.omega ^ 2 * displaced p dt E pE J pJ ∧
    displaced p dt E' E J' J = displaced p dt E pE J pJ + dt * J' := by
  have d0 := delta_pos hp hd
  have hw := hp.omega
  have hw2 : p.omega ^ 2 ≠ 0 := pow_ne_zero 2 hw
  have law := (lorentz_pole_iff hd hp.gamma (E' - pE) pJ J J').mpr h2
  have sq : (Real.sqrt p.dEps * p.omega) ^ 2 = p.dEps * p.omega ^ 2 := by rw [mul_pow, Real.sq_sqrt hp.dEps.le]
  have law' : (J' - J) / dt + 2 * p.gamma * (J' + J) / 2 = p.dEps * p.omega ^ 2 * (E' + E) / 2 - p.omega ^ 2 * displaced p dt E pE J pJ := by
    have ex : p.omega ^ 2 * displaced p dt E pE J pJ = p.dEps * p.omega ^ 2 * (E + pE) / 2 - (J - pJ) / dt - p.gamma * (J + pJ) + p.omega ^ 2 * (dt * J) := by
      unfold displaced
      rw [mul_add, mul_div_cancel₀ _ hw2]
    rw [ex]
    field_simp at law ⊢
    linarith
  refine ⟨?_, by rw [sq]; exact law', ?_⟩
  · simp only [Lorentz.Ca, Lorentz.Cb, Lorentz.CaPrev, sumL_real, ofInt_real, List.map_cons, List.map_nil, List.sum_cons, List.sum_nil, add_zero] at h1
    push_cast at h1
    set δ := p.delta dt
    have hD : 2 * e + δ / 2 ≠ 0 := by positivity
    have hD2 : 2 * e + δ ≠ 0 := by positivity
    obtain ⟨k, hk⟩ : ∃ k, k = δ / 2 / (2 * e + δ) := ⟨_, rfl⟩
    rw [← hk] at h1 ⊢
    have h3 : (2 * e + δ / 2) * E' = 2 * e * E + 2 * dt * curl + (2 * e + δ / 2) * (k * pE) - dt * ((1 + p.alpha dt) * J + p.beta dt * pJ) := by
      rw [h1]; field_simp
    have h4 : J' + J = (1 + p.alpha dt) * J + p.beta dt * pJ + δ / (2 * dt) * (E' - pE) := by rw [h2]; ring
    have h5 : (1 + p.alpha dt) * J + p.beta dt * pJ = J' + J - δ / (2 * dt) * (E' - pE) := by rw [h4]; ring
    rw [h5] at h3
    field_simp at h3 ⊢
    linarith
  · have a : displaced p dt E' E J' J = (p.dEps * p.omega ^ 2 * (E' + E) / 2 - ((J' - J) / dt + 2 * p.gamma * (J' + J) / 2)) / p.omega ^ 2 + dt * J' := by
      unfold displaced; ring
    rw [a, law']
    rw [show p.dEps * p.omega ^ 2 * (E' + E) / 2 - (p.dEps * p.omega ^ 2 * (E' + E) / 2 - p.omega ^ 2 * displaced p dt E pE J pJ) =
      p.omega ^ 2 * displaced p dt E pE J pJ by ring, mul_div_cancel_left₀ _ hw2]

theorem Swings.beyond {c : Core ℝ} {n P pE med inn e p} (h : Swings c n P pE med inn e p) {i j : ℤ} (hm : (updatedNodes c.g).Mem i j) : Beyond c.g i j := by
  have hT := h.layer
  unfold Box.Mem updatedNodes at hm
  simp only at hm
  constructor <;> omega

set_option maxHeartbeats 1000000 in
/-- One step. -/
theorem swings_step {c c' : Core ℝ} {srcs srcs' E2 E3 E4 f} {n : String} {P : LorentzPol ℝ} {pE : Tensor ℝ} {med : ℤ → ℤ → Simple ℝ} {inn : ℤ → ℤ → Prop} {e : ℝ}
    {p : LorentzPole ℝ} (h : Swings c n P pE med inn e p) (he : 0 < e) (hp : p.Sound) (S : c.Step srcs c' srcs' E2 E3 E4 f)
    {eps sig I} {τ δ : ℝ} (hk : Spec.Carries c.g srcs eps sig I τ δ) (ho : ∀ t i j, inn i j → addedE c.g srcs t i j = 0) :
    ∃ P', Swings c' n P' c.f.Ez med inn e p ∧
    Laws c.g med (updatedNodes c.g) c.f c'.f
      (fun i j => (((med i j).eps / c.g.dt + (med i j).conduc / 2) * addedE c.g srcs (c.t + c.g.dt) i j + leakage med inn e p c.g.dt i j * pE.val i j) -
        ((swingRes inn p i j).flow (P'.J.val i j 0) + (swingRes inn p i j).flow (P.J.val i j 0)) / 2) (fun _ _ => 0) (fun _ _ => 0) ∧
    (∀ i j, (updatedNodes c.g).Mem i j → (swingRes inn p i j).step c.g.dt (c.f.Ez.val i j) (c'.f.Ez.val i j) (P.J.val i j 0) (P'.J.val i j 0)
      (- (p.omega ^ 2 * displaced p c.g.dt (c.f.Ez.val i j) (pE.val i j) (P.J.val i j 0) (P.prevJ.val i j 0)))) ∧
    ∀ i j, (updatedNodes c.g).Mem i j → inn i j → displaced p c.g.dt (c'.f.Ez.val i j) (c.f.Ez.val i j) (P'.J.val i j 0) (P'.prevJ.val i j 0) =
      displaced p c.g.dt (c.f.Ez.val i j) (pE.val i j) (P.J.val i j 0) (P.prevJ.val i j 0) + c.g.dt * P'.J.val i j 0 := by
  have dt0 : 0 < c.g.dt := h.std.dt_pos
  obtain ⟨d, l0, F2, F3, F4, f', u, S'⟩ := Core.update_step h.std [] (by simp)
  obtain rfl : l0 = [] := by have := S'.same; cases this; rfl
  obtain ⟨e1, e2, e3, e4⟩ := same_stage S S'
  have wd := h.std.wf.lorentz
  rw [h.entry] at wd
  have wP := wd (n, P) (by simp)
  have dp := h.std.wf.prevE pE h.prev
  have tn : c'.tfsf = none := by
    have := S.tf
    rw [h.wave] at this
    exact (Except.ok.inj this).symm
  have dd : c'.debye = [] ∧ E2 = c.E1 := by
    have := S.hd
    rw [h.debye] at this
    have := Prod.mk.inj (Except.ok.inj this)
    exact ⟨this.1.symm, this.2.symm⟩
  have dr : c'.drude = [] ∧ E3 = E2 := by
    have := S.hr
    rw [h.drude] at this
    have := Prod.mk.inj (Except.ok.inj this)
    exact ⟨this.1.symm, this.2.symm⟩
  have hnp : P.np.toNat = 1 := by rw [wP.np, h.mat]; simp
  obtain ⟨P', E', uj, w2, d2, m2, n2, b2, v2⟩ := LorentzPol.updateJ_node (P := P) wP dp S.d3
  have cl := LorentzPol.updateJ_closed (P := P) wP dp S.d3
  rw [uj] at cl
  have cl2 := (Prod.mk.inj (Except.ok.inj cl)).2
  have hd := S.hl
  rw [h.entry, h.prev] at hd
  unfold mapUpdateJ mapUpdateJ at hd
  rw [uj] at hd
  simp only [Except.ok_bind, Except.pure_eq] at hd
  have k4 : c'.lorentz = [(n, P')] := (congrArg Prod.fst (Except.ok.inj hd)).symm
  have hE4 : E4 = E' := (congrArg Prod.snd (Except.ok.inj hd)).symm
  have pE' : c'.prevE = some c.f.Ez := by rw [S.prevE, h.prev]; rfl
  have one : ∀ q : LorentzPole ℝ → ℝ, (Arr.ofList ([p].map q)).val (0 : ℤ) = q p := fun _ => rfl
  have cell : ∀ i j, 0 ≤ i → i < c.g.Nx → 0 ≤ j → j < c.g.Ny →
      E'.val i j = E3.val i j + (Lorentz.mk e [p]).CaPrev c.g.dt * pE.val i j - (Lorentz.mk e [p]).Cb c.g.dt / 2 * ((1 + p.alpha c.g.dt) * P.J.val i j 0 + p.beta c.g.dt * P.prevJ.val i j 0) ∧
      P'.prevJ.val i j 0 = P.J.val i j 0 ∧
      P'.J.val i j 0 = p.alpha c.g.dt * P.J.val i j 0 + p.beta c.g.dt * P.prevJ.val i j 0 + P.delta.val i j 0 / (2 * c.g.dt) * (E'.val i j - pE.val i j) := by
    intro i j i0 i1 j0 j1
    obtain ⟨a, b⟩ := v2 i j i0 i1 j0 j1
    obtain ⟨b1, b2⟩ := b 0 (by rw [hnp]; norm_num)
    rw [hnp, h.mat] at a
    rw [h.mat] at b2
    simp only [Finset.range_one, Finset.sum_singleton, Nat.cast_zero, Nat.cast_one, one_mul, one, zero_add] at a b1 b2
    refine ⟨a, b1, ?_⟩
    rw [b2, a]
  have edgeE : ∀ x y, x = c.g.Nx - 1 ∨ y = c.g.Ny - 1 → E3.val x y = 0 → E4.val x y = 0 := by
    intro x y hxy z
    rw [hE4]
    by_cases hm : (x, y) ∈ rect 0 c.g.Nx 0 c.g.Ny
    · rw [mem_rect] at hm
      simp only at hm
      obtain ⟨z1, z2, z3⟩ := h.edge x y (by omega) (by omega) (by omega) (by omega) hxy
      rw [(cell x y (by omega) (by omega) (by omega) (by omega)).1, z, z1, z2, z3]
      ring
    · rw [cl2]
      simp only [Tensor.setv_val, hm, if_false]
      exact z
  have zero : ∀ x y, x = c.g.Nx - 1 ∨ y = c.g.Ny - 1 → c.f.Ez.val x y = 0 := by
    intro x y hxy
    rcases hxy with rfl | rfl
    · have := h.frame.right y; simp only [updatedNodes] at this; rw [← this]; congr 1; ring
    · have := h.frame.top x; simp only [updatedNodes] at this; rw [← this]; congr 1; ring
  have ee : E3 = F3 := by
    have a := S'.hd
    have b := S'.hr
    rw [h.debye] at a
    rw [h.drude] at b
    rw [dr.2, dd.2, ← (Prod.mk.inj (Except.ok.inj b)).2, ← (Prod.mk.inj (Except.ok.inj a)).2]
  obtain ⟨q1, -, -⟩ := closed_frame h.std h.layer S' h.wave (fun x y hxy z => by rw [← e1]; rw [← ee] at z; exact edgeE x y hxy z)
    ⟨by rw [h.debye]; simp, by rw [h.drude]; simp⟩ h.frame
  have nx : c.pml.Nx = c.g.Nx := h.std.wf.pml.nx
  have ny : c.pml.Ny = c.g.Ny := h.std.wf.pml.ny
  have nt : c.pml.par.T = 0 := by rw [h.std.wf.pml.thk, h.layer]
  have zE : ∀ i j, ¬ (updatedNodes c.g).Mem i j → c'.f.Ez.val i j = d.f.Ez.val i j := by
    intro i j hm
    rw [S.eE, S.fE, S'.eE, S'.fE, e1, totalContrib_out hk.inner .Ez hm]
    simp [totalContrib]
  have out : ∀ {i j : ℤ}, ¬ (updatedNodes c.g).Mem i j → ¬ (i, j) ∈ rect 1 (c.g.Nx - 1) 1 (c.g.Ny - 1) := by
    intro i j hn hm
    rw [mem_rect] at hm
    apply hn
    unfold Box.Mem updatedNodes
    simp only at hm ⊢
    omega
  have zX : ∀ i j, ¬ (updatedNodes c.g).Mem i j → c'.f.Hx.val i j = c.f.Hx.val i j := by
    intro i j hm
    rw [S.eX, tn]
    simp only [Tensor.upd, Pml.corrHx, Pml.afterE, nx, ny, nt, tfHx]
    rw [if_neg (out hm), if_neg (by rw [mem_rect]; simp only; omega), if_neg (by rw [mem_rect]; simp only; omega), S.fX, totalContrib_out hk.inner .Hx hm]
    ring
  have zY : ∀ i j, ¬ (updatedNodes c.g).Mem i j → c'.f.Hy.val i j = c.f.Hy.val i j := by
    intro i j hm
    rw [S.eY, tn]
    simp only [Tensor.upd, Pml.corrHy, Pml.afterE, nx, ny, nt, tfHy]
    rw [if_neg (out hm), if_neg (by rw [mem_rect]; simp only; omega), if_neg (by rw [mem_rect]; simp only; omega), S.fY, totalContrib_out hk.inner .Hy hm]
    ring
  have add : ∀ i j, totalContrib c.g (c.t + c.g.dt) srcs .Ez ⟨i, j⟩ = addedE c.g srcs (c.t + c.g.dt) i j := fun _ _ => rfl
  have ran : ∀ {i j}, (updatedNodes c.g).Mem i j → 0 ≤ i ∧ i < c.g.Nx ∧ 0 ≤ j ∧ j < c.g.Ny := fun hm => Beyond_mem h.std.thick (h.beyond hm)
  have nodeIn : ∀ i j, (updatedNodes c.g).Mem i j → inn i j →
      c'.f.Ez.val i j = (Lorentz.mk e [p]).Ca c.g.dt * c.f.Ez.val i j + (Lorentz.mk e [p]).Cb c.g.dt * curlH c.f c.g.dx i j + (Lorentz.mk e [p]).CaPrev c.g.dt * pE.val i j -
        (Lorentz.mk e [p]).Cb c.g.dt / 2 * ((1 + p.alpha c.g.dt) * P.J.val i j 0 + p.beta c.g.dt * P.prevJ.val i j 0) ∧
      P'.prevJ.val i j 0 = P.J.val i j 0 ∧
      P'.J.val i j 0 = p.alpha c.g.dt * P.J.val i j 0 + p.beta c.g.dt * P.prevJ.val i j 0 + p.delta c.g.dt / (2 * c.g.dt) * (c'.f.Ez.val i j - pE.val i j) := by
    intro i j hm hi
    obtain ⟨i0, i1, j0, j1⟩ := ran hm
    obtain ⟨a1, a2, a3⟩ := cell i j i0 i1 j0 j1
    obtain ⟨b1, -, -⟩ := h.inside i j hm hi
    have md := b1.medium
    rw [h.mat] at md
    have st := b1.strength 0 (by rw [h.mat]; simp)
    simp only [h.mat, Nat.cast_zero, List.getElem_cons_zero] at st
    have eE : c'.f.Ez.val i j = E'.val i j := by
      rw [S.eE, S.fE, h.wave, add, ho _ _ _ hi, hE4]
      simp [tfEz]
    have eO : E3.val i j = (Lorentz.mk e [p]).Ca c.g.dt * c.f.Ez.val i j + (Lorentz.mk e [p]).Cb c.g.dt * curlH c.f c.g.dx i j := by
      rw [dr.2, dd.2, Core.E1_node h.std (h.beyond hm), md.Ca, md.Cb]
      simp [MatKind.Ca, MatKind.Cb]
    refine ⟨by rw [eE, a1, eO], a2, ?_⟩
    rw [a3, st, eE]
  have nodeOut := fun i j (hm : (updatedNodes c.g).Mem i j) (hi : ¬ inn i j) => driven_leak h.std S h.wave (h.beyond hm) h.prev h.entry (h.outside i j hm hi).1
  refine ⟨P', ⟨S.std, by rw [S.g, h.layer], tn, dd.1, dr.1, k4, by rw [m2, h.mat], pE', ?_, ?_, ?_, ?_⟩, ⟨fun i j hm => ?_, fun i j hm => ?_, fun i j hm => ?_⟩,
    fun i j hm => ?_, fun i j hm hi => ?_⟩
  · rw [S.g]
    intro i j hm hi
    obtain ⟨b1, b2', b3⟩ := h.inside i j hm hi
    exact ⟨⟨k4, by rw [dd.1]; simp, by rw [dr.1]; simp, by rw [m2]; exact S.medium b1.medium, by rw [m2, b2, S.g]; exact b1.strength⟩, b2', b3⟩
  · rw [S.g]
    intro i j hm hi
    obtain ⟨-, -, -, a, -⟩ := nodeOut i j hm hi
    exact ⟨a, (h.outside i j hm hi).2⟩
  · rw [S.g]
    intro i j i0 i1 j0 j1 hxy
    obtain ⟨z1, z2, z3⟩ := h.edge i j i0 i1 j0 j1 hxy
    obtain ⟨a1, a2, a3⟩ := cell i j i0 i1 j0 j1
    have z4 := zero i j hxy
    have z5 : E'.val i j = 0 := by
      rw [← hE4]
      refine edgeE i j hxy ?_
      rw [dr.2, dd.2]
      unfold Core.E1
      simp only [Tensor.setv_val, Tensor.upd, Pml.corrE, nx, ny, nt]
      rw [if_neg (by rw [mem_rect]; simp only; omega), if_neg (by rw [mem_rect]; simp only; omega), if_neg (by rw [mem_rect]; simp only; omega),
        if_neg (by rw [mem_rect]; simp only; omega), if_neg (by rw [mem_rect]; simp only; omega), z4]
      ring
    refine ⟨?_, by rw [a2, z1], z4⟩
    rw [a3, z1, z2, z3, z5]
    ring
  · rw [S'.g] at q1
    rw [S.g]
    refine ⟨fun j => ?_, fun j => ?_, fun i => ?_, fun i => ?_⟩
    · rw [zY _ _ (by unfold Box.Mem; omega)]; exact h.frame.left j
    · rw [zE _ _ (by unfold Box.Mem; omega)]; exact q1.right j
    · rw [zX _ _ (by unfold Box.Mem; omega)]; exact h.frame.bottom i
    · rw [zE _ _ (by unfold Box.Mem; omega)]; exact q1.top i
  · by_cases hi : inn i j
    · obtain ⟨b1, b2', b3⟩ := h.inside i j hm hi
      obtain ⟨n1, n2', n3⟩ := nodeIn i j hm hi
      obtain ⟨l1, -, -⟩ := lorentz_law he hp dt0 n1 n3
      unfold ConductiveLaw leakage swingRes
      simp only [if_pos hi, Response.flow]
      rw [b2', b3, ho _ _ _ hi]
      linear_combination l1
    · obtain ⟨b1, b2', b3⟩ := h.outside i j hm hi
      obtain ⟨P2, a1, a2, a3, a4, a5, a6⟩ := nodeOut i j hm hi
      rw [(C24_unique (med i j) c.g.dt dt0 (by linarith) b3).1, a6, h.mat, add]
      unfold leakage swingRes
      simp only [if_neg hi, Response.flow, Lorentz.CaPrev, sumL_real, ofInt_real, List.map_cons, List.map_nil, List.sum_cons, List.sum_nil, add_zero,
        List.length_singleton]
      have cb : (med i j).Cb c.g.dt * ((med i j).eps / c.g.dt + (med i j).conduc / 2) = 1 := by
        have hb : (med i j).Cb c.g.dt = 2 * c.g.dt / (2 * (med i j).eps + (med i j).conduc * c.g.dt) := by
          have : (1 : ℝ) + (med i j).conduc * c.g.dt / (2 * (med i j).eps) ≠ 0 := by positivity
          have e0 : (med i j).eps ≠ 0 := by linarith
          simp only [Simple.Cb, ofInt_real]; push_cast; field_simp
        rw [hb]
        have : 2 * (med i j).eps + (med i j).conduc * c.g.dt ≠ 0 := by positivity
        field_simp
      push_cast
      linear_combination (- addedE c.g srcs (c.t + c.g.dt) i j - p.delta c.g.dt / 2 / (2 * e + p.delta c.g.dt) * pE.val i j) * cb
  · have hmd : ∃ k, HasMedium c.f k c.g.dt i j := by
      by_cases hi : inn i j
      · exact ⟨_, (h.inside i j hm hi).1.medium⟩
      · exact ⟨_, (h.outside i j hm hi).1.medium⟩
    obtain ⟨k, hmd⟩ := hmd
    rw [(magnetic_full h.std S (h.beyond hm) h.wave hmd).1, hk.silentH _ (by simp)]
    ring
  · have hmd : ∃ k, HasMedium c.f k c.g.dt i j := by
      by_cases hi : inn i j
      · exact ⟨_, (h.inside i j hm hi).1.medium⟩
      · exact ⟨_, (h.outside i j hm hi).1.medium⟩
    obtain ⟨k, hmd⟩ := hmd
    rw [(magnetic_full h.std S (h.beyond hm) h.wave hmd).2, hk.silentH _ (by simp)]
    ring
  · unfold swingRes
    by_cases hi : inn i j
    · obtain ⟨n1, n2', n3⟩ := nodeIn i j hm hi
      obtain ⟨-, l2, -⟩ := lorentz_law he hp dt0 n1 n3
      simp only [if_pos hi, Response.step]
      linear_combination l2
    · simp only [if_neg hi, Response.step]
  · obtain ⟨n1, n2', n3⟩ := nodeIn i j hm hi
    obtain ⟨-, -, l3⟩ := lorentz_law he hp dt0 n1 n3
    rw [n2']
    exact l3

end Qbox
