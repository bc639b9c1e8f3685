import Verif.Lemmas.Momentum
import Verif.Props.ForceProps
import Verif.Props.PoyntingProps

/-! # C103: force and torque that box monitors write are those on the currents in the box -/

namespace Qbox.Props
open Scalar Spec MeasureTheory

section
variable {qty : Quantity ℝ} {now : ℕ → ℝ} {g : Grid ℝ} {cs1 cs2 later : List (Call ℝ)} {name : String} {a b : V2 ℝ} {freq : List ℝ} {n : ℕ} {w4 : World ℝ}

/-- The file has the force (two numbers per frequency) or the torque about the centre of the box (one number per frequency) of the wave on the current `C` in the box up to time `T`:
`dt ^ 2` times the numbers of frequency `f` differ from it by at most `eF f` and `eT f`. The box is the one between the nodes at the corners of the monitor. -/
def HoldsLorentzForce (qty : Quantity ℝ) (w4 : World ℝ) (g : Grid ℝ) (name : String) (a b : V2 ℝ) (freq : List ℝ) (w : Spec.Wave) (C : ℝ → ℝ → ℝ → ℝ) (T : ℝ) (eF eT : ℝ → ℝ) : Prop :=
  (qty = .force → ∃ Fx Fy : ℝ → ℝ, w4.tree.at ["monitors", "box_monitor", name, "force"] = some (.nums (freq.map Fx ++ freq.map Fy)) ∧
    ∀ f, |g.dt ^ 2 * Fx f - (w.push C f T (g.toReal (g.toGrid a)) (g.toReal (g.toGrid b))).x| ≤ eF f ∧
      |g.dt ^ 2 * Fy f - (w.push C f T (g.toReal (g.toGrid a)) (g.toReal (g.toGrid b))).y| ≤ eF f) ∧
  (∀ c, qty = .torque c → ∃ N : ℝ → ℝ, w4.tree.at ["monitors", "box_monitor", name, "torque"] = some (.nums (freq.map N)) ∧
    ∀ f, |g.dt ^ 2 * N f - w.spin C f T (g.toReal (g.toGrid a)) (g.toReal (g.toGrid b))| ≤ eT f)

/-- The errors of C103: those of C102 and what is left of the field. -/
noncomputable def lorentzForceError (g : Grid ℝ) (a b : V2 ℝ) (M T E η f : ℝ) : ℝ :=
  3 / 2 * boxFlowError g (g.toGrid a) (g.toGrid b) M T E f + remainder (g.toReal (g.toGrid a)) (g.toReal (g.toGrid b)) 2 η M T
noncomputable def lorentzTorqueError (g : Grid ℝ) (a b : V2 ℝ) (M T E η f : ℝ) : ℝ :=
  boxTorqueError g (g.toGrid a) (g.toGrid b) M T E f + remainder (g.toReal (g.toGrid a)) (g.toReal (g.toGrid b))
    ((g.toReal (g.toGrid b)).x - (g.toReal (g.toGrid a)).x + ((g.toReal (g.toGrid b)).y - (g.toReal (g.toGrid a)).y)) η M T

theorem asked_corners (h : BoxAsked qty now g cs1 cs2 later name a b freq n w4) :
    (g.toReal (g.toGrid a)).x ≤ (g.toReal (g.toGrid b)).x ∧ (g.toReal (g.toGrid a)).y ≤ (g.toReal (g.toGrid b)).y ∧
      ∀ x y, (x, y) ∈ between (g.toReal (g.toGrid a)) (g.toReal (g.toGrid b)) → InDomain g x y := by
  have d := h.lawful.dx
  obtain ⟨x1, x2, x3⟩ := h.x
  obtain ⟨y1, y2, y3⟩ := h.y
  have e1 := node_le_x h.lawful (k := (g.toGrid b).x) (by omega)
  have e2 := node_le_y h.lawful (k := (g.toGrid b).y) (by omega)
  have c1 : (0 : ℝ) ≤ (g.toGrid a).x := by exact_mod_cast (by omega : (0 : ℤ) ≤ (g.toGrid a).x)
  have c2 : (0 : ℝ) ≤ (g.toGrid a).y := by exact_mod_cast (by omega : (0 : ℤ) ≤ (g.toGrid a).y)
  have f1 : ((g.toGrid a).x : ℝ) ≤ (g.toGrid b).x := by exact_mod_cast x2.le
  have f2 : ((g.toGrid a).y : ℝ) ≤ (g.toGrid b).y := by exact_mod_cast y2.le
  have tx : ∀ P : V2 ℤ, (g.toReal P).x = P.x * g.dx := fun P => by simp [Grid.toReal, mul_comm]
  have ty : ∀ P : V2 ℤ, (g.toReal P).y = P.y * g.dx := fun P => by simp [Grid.toReal, mul_comm]
  unfold between
  rw [tx, tx, ty, ty]
  refine ⟨mul_le_mul_of_nonneg_right f1 d.le, mul_le_mul_of_nonneg_right f2 d.le, fun x y hz => ?_⟩
  exact ⟨(mul_nonneg c1 d.le).trans hz.1.1, hz.1.2.trans e1, (mul_nonneg c2 d.le).trans hz.2.1, hz.2.2.trans e2⟩

theorem pushed_close (h : BoxAsked qty now g cs1 cs2 later name a b freq n w4) {w : Spec.Wave} {S : ℝ → ℝ → Prop} {eps sig : ℝ → ℝ → ℝ} {J Xx Yy : ℝ → ℝ → ℝ → ℝ} {τ M η E : ℝ} (hM : 0 ≤ M)
    (hsm : w.Smooth S g τ M) (hst : w.Steady g τ M) (hev : w.Even g τ M) (hmx : w.Driven S eps sig J g τ) (hr : w.AtRest g) (hτ : n * g.dt ≤ τ)
    (hcm : w.Calm S g (g.toReal (g.toGrid a)) (g.toReal (g.toGrid b)) τ M (n * g.dt) η Xx Yy) (hb : HoldsPush qty w4 g name a b freq w (n * g.dt) M E) :
    HoldsLorentzForce qty w4 g name a b freq w (w.currents eps sig J) (n * g.dt) (lorentzForceError g a b M (n * g.dt) E η) (lorentzTorqueError g a b M (n * g.dt) E η) := by
  obtain ⟨c1, c2, c3⟩ := asked_corners h
  have dt0 : 0 ≤ g.dt := by rw [h.lawful.dt]; linarith [h.lawful.dx]
  have key := box_push hM hsm hst hev hmx hr c1 c2 (by positivity) hτ c3 hcm
  have tri : ∀ {u v z e e' : ℝ}, |u - v| ≤ e → |v - z| ≤ e' → |u - z| ≤ e + e' := fun {u v z e e'} h1 h2 => (abs_sub_le u v z).trans (add_le_add h1 h2)
  refine ⟨fun hq => ?_, fun c hq => ?_⟩
  · obtain ⟨Fx, Fy, h1, h2⟩ := hb.1 hq
    exact ⟨Fx, Fy, h1, fun f => ⟨tri (h2 f).1 (key f).1, tri (h2 f).2 (key f).2.1⟩⟩
  · obtain ⟨N, h1, h2⟩ := hb.2 c hq
    exact ⟨N, h1, fun f => tri (h2 f) (key f).2.2⟩

/-- **C103**, simple media. Under the hypotheses of `C102_simple`, if the field in the box has no magnetic charges and has faded at the end of the program: the numbers in the file are the force
and the torque of the field on the currents of polarization, of conduction and of the sources in the box, up to the error of C102 and what is left of the field. -/
theorem C103_simple (h : BoxFelt qty now g cs1 cs2 later name a b freq n w4) (objs : List (Object ℝ)) (srcs : List (Source ℝ)) (ho : objectsOf (simOps cs1) = objs)
    (hsr : sourcesOf (simOps cs1) = srcs) (hb : ∀ o ∈ objs, BoxSound o)
    (hc : ∀ o ∈ objs, ClearOfUnguardedEdges g o) (hp : ∀ o ∈ objs, PassiveObject o) (epsMax sigMax : ℝ) (he : AtMost epsMax objs)
    (hs : ConductAtMost sigMax objs) (eps sig : ℝ → ℝ → ℝ) (hmed : MediumOf objs eps sig) (w : Spec.Wave) (S : ℝ → ℝ → Prop) (J Xx Yy : ℝ → ℝ → ℝ → ℝ) (τ M δ η : ℝ)
    (hsm : w.Smooth S g τ M) (hst : w.Steady g τ M) (hev : w.Even g τ M) (hmx : w.Driven S eps sig J g τ) (hJ : CurrentAtMost J g τ M) (hwl : w.Walls g τ) (hr : w.AtRest g)
    (fits : ∀ s ∈ srcs, Fits g s) (hδ : 0 ≤ δ) (hk : Spec.Carries g srcs eps sig J τ δ) (hn : ((n : ℝ) + 1 / 2) * g.dt ≤ τ)
    (hcm : w.Calm S g (g.toReal (g.toGrid a)) (g.toReal (g.toGrid b)) τ M (n * g.dt) η Xx Yy) :
    HoldsLorentzForce qty w4 g name a b freq w (w.currents eps sig J) (n * g.dt)
      (lorentzForceError g a b M (n * g.dt) (restError S g M epsMax + n * g.dt * drivenError S g M epsMax sigMax δ) η)
      (lorentzTorqueError g a b M (n * g.dt) (restError S g M epsMax + n * g.dt * drivenError S g M epsMax sigMax δ) η) := by
  have dt0 : 0 < g.dt := by rw [h.lawful.dt]; linarith [h.lawful.dx]
  have n0 : (0 : ℝ) ≤ n := Nat.cast_nonneg n
  exact pushed_close h.toBoxAsked (current_nonneg h.wide h.lawful h.closed hJ (by nlinarith)) hsm hst hev hmx hr (by nlinarith) hcm
    (C102_simple h objs srcs ho hsr hb hc hp epsMax sigMax he hs eps sig hmed w S J τ M δ hsm hst hev hmx hJ hwl hr fits hδ hk hn)

/-- **C103**, Debye and Drude media of one pole. The current `K` of the poles is one of the currents on which the field acts. -/
theorem C103_dispersive (h : BoxFelt qty now g cs1 cs2 later name a b freq n w4) (objs : List (Object ℝ)) (srcs : List (Source ℝ)) (hob : objectsOf (simOps cs1) = objs)
    (hsr : sourcesOf (simOps cs1) = srcs) (hb : ∀ o ∈ objs, BoxSound o)
    (hc : ∀ o ∈ objs, ClearOfUnguardedEdges g o) (hp : ∀ o ∈ objs, PassiveKind o.mat.kind) (hnm : OneMeaning objs) (hu : Uncovered g objs)
    (eps sig : ℝ → ℝ → ℝ) (res : ℝ → ℝ → Response) (hmat : MatterOf objs eps sig res) (epsMax sigMax q : ℝ) (hmax : MatterAtMost eps sig res epsMax sigMax q)
    (w : Spec.Wave) (K Kt I Xx Yy : ℝ → ℝ → ℝ → ℝ) (S : ℝ → ℝ → Prop) (τ M δ η : ℝ) (hsm : w.Smooth S g τ M) (hst : w.Steady g τ M) (hev : w.Even g τ M)
    (hmx : w.Driven S eps sig (fun t x y => K t x y + I t x y) g τ) (hK : w.Polarized K Kt S res g τ M) (hI : CurrentAtMost I g τ M) (hwl : w.Walls g τ)
    (hr : w.AtRest g) (hrK : ∀ x y, InDomain g x y → K 0 x y = 0) (fits : ∀ s ∈ srcs, Fits g s) (hδ : 0 ≤ δ)
    (hk : Spec.Carries g srcs eps sig I τ δ) (ho : OutsideMemory g objs srcs) (hn : ((n : ℝ) + 1 / 2) * g.dt ≤ τ)
    (hcm : w.Calm S g (g.toReal (g.toGrid a)) (g.toReal (g.toGrid b)) τ M (n * g.dt) η Xx Yy) :
    HoldsLorentzForce qty w4 g name a b freq w (w.currents eps sig fun t x y => K t x y + I t x y) (n * g.dt)
      (lorentzForceError g a b M (n * g.dt) (restError S g M (epsMax + q ^ 2) + n * g.dt * polarError S g M epsMax sigMax q δ) η)
      (lorentzTorqueError g a b M (n * g.dt) (restError S g M (epsMax + q ^ 2) + n * g.dt * polarError S g M epsMax sigMax q δ) η) := by
  have dt0 : 0 < g.dt := by rw [h.lawful.dt]; linarith [h.lawful.dx]
  have n0 : (0 : ℝ) ≤ n := Nat.cast_nonneg n
  exact pushed_close h.toBoxAsked (current_nonneg h.wide h.lawful h.closed hI (by nlinarith)) hsm hst hev hmx hr (by nlinarith) hcm
    (C102_dispersive h objs srcs hob hsr hb hc hp hnm hu eps sig res hmat epsMax sigMax q hmax w K Kt I S τ M δ hsm hst hev hmx hK hI hwl hr hrK fits hδ hk ho hn)

/-- **C103**, a Lorentz medium of one pole on top of passive simple media. -/
theorem C103_lorentz (h : BoxFelt qty now g cs1 cs2 later name a b freq n w4) (objs : List (Object ℝ)) (srcs : List (Source ℝ)) (o : Object ℝ)
    (hob : objectsOf (simOps cs1) = objs ++ [o]) (hsr : sourcesOf (simOps cs1) = srcs) (hb : ∀ o ∈ objs, BoxSound o)
    (hc : ∀ o ∈ objs, ClearOfUnguardedEdges g o) (hp : ∀ o ∈ objs, PassiveObject o) (epsMax sigMax : ℝ) (he : AtMost epsMax objs)
    (hs : ConductAtMost sigMax objs) (eps sig : ℝ → ℝ → ℝ) (hmed : MediumOf objs eps sig) (e : ℝ) (p : LorentzPole ℝ)
    (hk : o.mat.kind = .lorentz ⟨e, [p]⟩) (bo : BoxSound o) (co : ClearOfUnguardedEdges g o) (e1 : 1 ≤ e) (e2 : e ≤ epsMax)
    (p1 : p.omega ≠ 0) (p2 : 0 < p.dEps) (p3 : 0 ≤ p.gamma)
    (w : Spec.Wave) (S : ℝ → ℝ → Prop) (P K Kt I Xx Yy : ℝ → ℝ → ℝ → ℝ) (τ M δ η : ℝ) (hsm : w.Smooth S g τ M) (hst : w.Steady g τ M) (hev : w.Even g τ M)
    (hmx : w.Driven S (coated o e eps) (coated o 0 sig) (fun t x y => K t x y + I t x y) g τ)
    (hq : w.Swinging P K Kt S (fun x y => o.inside ⟨x, y⟩ = true) p g τ M) (hI : CurrentAtMost I g τ M) (hwl : w.Walls g τ) (hr : w.AtRest g)
    (hP : ∀ x y, InDomain g x y → P 0 x y = 0 ∧ K 0 x y = 0)
    (fits : ∀ s ∈ srcs, Fits g s) (hδ : 0 ≤ δ) (hcr : Spec.Carries g srcs (coated o e eps) (coated o 0 sig) I τ δ)
    (ho : ∀ t (i j : ℤ), o.inside ⟨i * g.dx, j * g.dx⟩ = true → addedE g srcs t i j = 0) (hn : ((n : ℝ) + 1 / 2) * g.dt ≤ τ)
    (hcm : w.Calm S g (g.toReal (g.toGrid a)) (g.toReal (g.toGrid b)) τ M (n * g.dt) η Xx Yy) :
    HoldsLorentzForce qty w4 g name a b freq w (w.currents (coated o e eps) (coated o 0 sig) fun t x y => K t x y + I t x y) (n * g.dt)
      (lorentzForceError g a b M (n * g.dt) (3 * (Real.exp (swingRate p epsMax sigMax g.dt * (n * g.dt)) * (swingStart S g p M epsMax + n * g.dt * swingError S g p M epsMax sigMax δ))) η)
      (lorentzTorqueError g a b M (n * g.dt) (3 * (Real.exp (swingRate p epsMax sigMax g.dt * (n * g.dt)) * (swingStart S g p M epsMax + n * g.dt * swingError S g p M epsMax sigMax δ))) η) := by
  have dt0 : 0 < g.dt := by rw [h.lawful.dt]; linarith [h.lawful.dx]
  have n0 : (0 : ℝ) ≤ n := Nat.cast_nonneg n
  exact pushed_close h.toBoxAsked (current_nonneg h.wide h.lawful h.closed hI (by nlinarith)) hsm hst hev hmx hr (by nlinarith) hcm
    (C102_lorentz h objs srcs o hob hsr hb hc hp epsMax sigMax he hs eps sig hmed e p hk bo co e1 e2 p1 p2 p3 w S P K Kt I τ M δ hsm hst hev hmx hq hI hwl hr hP fits hδ hcr ho hn)

/-- The plane wave has no magnetic charges. -/
theorem lit_calm {w : Spec.Wave} {S : ℝ → ℝ → Prop} {p q : V2 ℝ} {τ M Ms T η η' y0 : ℝ} {s : ℝ → ℝ} {Xx Yy : ℝ → ℝ → ℝ → ℝ} (hτ : 0 ≤ τ) (hs : SmoothStart s Ms) (hy : y0 < p.y)
    (hc : w.Calm S g p q τ M T η' Xx Yy) (hf : (w.lit s y0).Faded p q T η) :
    (w.lit s y0).Calm (fun x y => S x y ∧ y0 < y) g p q τ (litSize M Ms τ) T η Xx Yy := by
  have l0 := (litSize_ge (M := M) hτ hs).1
  have sub : {z : ℝ × ℝ | z ∈ between p q ∧ S z.1 z.2 ∧ y0 < z.2} ⊆ {z | z ∈ between p q ∧ S z.1 z.2} := fun z hz => ⟨hz.1, hz.2.1⟩
  refine ⟨lit_settled hs hy hc.pieces hc.regular hf, ⟨?_, ?_, ?_⟩, hc.evenX.mono (Set.prod_mono_right sub), hc.evenY.mono (Set.prod_mono_right sub)⟩
  · intro t y a b t0 t1 k
    exact ((hc.solenoidal.alongX t y a b t0 t1 fun x x1 x2 => ⟨(k x x1 x2).1, (k x x1 x2).2.1⟩).plus _).le l0
  · intro t x a b t0 t1 k
    exact (hc.solenoidal.alongY t x a b t0 t1 fun y y1 y2 => ⟨(k y y1 y2).1, (k y y1 y2).2.1⟩).le l0
  · intro t x y t0 t1 d k
    exact hc.solenoidal.gauss t x y t0 t1 d k.1

/-- **C103**: bodies in an incident wave. A box in the region of the incident wave: if the scattered wave has no magnetic charges and the total field in the box has faded at the end of the
program, the numbers in the file are the force and the torque of the total field on the currents in the box (`η'` does not matter). -/
theorem C103_total {objs : List (Object ℝ)} {srcs : List (Source ℝ)} {vol : Vol ℝ} {tp : TimeProfile ℝ} {eps sig : ℝ → ℝ → ℝ} {epsMax sigMax : ℝ} {w : Spec.Wave} {S : ℝ → ℝ → Prop}
    {J Xx Yy : ℝ → ℝ → ℝ → ℝ} {τ M Ms δ η η' : ℝ} (h : LitFelt qty now g cs1 cs2 later name a b freq n w4) (ho : objectsOf (simOps cs1) = objs) (hsr : sourcesOf (simOps cs1) = srcs)
    (hwv : incidentOf (simOps cs1) = some (vol, tp)) (p : Scatters g objs srcs vol tp.resp eps sig epsMax sigMax w S J τ M Ms δ) (hn : ((n : ℝ) + 1 / 2) * g.dt ≤ τ) (hin : BoxWithin g vol a b)
    (hcm : w.Calm S g (g.toReal (g.toGrid a)) (g.toReal (g.toGrid b)) τ M (n * g.dt) η' Xx Yy)
    (hη : (w.lit tp.resp (entry g vol)).Faded (g.toReal (g.toGrid a)) (g.toReal (g.toGrid b)) (n * g.dt) η) :
    HoldsLorentzForce qty w4 g name a b freq (w.lit tp.resp (entry g vol)) ((w.lit tp.resp (entry g vol)).currents eps sig J) (n * g.dt)
      (lorentzForceError g a b (litSize M Ms τ) (n * g.dt) (litError S g vol M Ms epsMax sigMax τ δ n) η)
      (lorentzTorqueError g a b (litSize M Ms τ) (n * g.dt) (litError S g vol M Ms epsMax sigMax τ δ n) η) := by
  have dt0 : 0 < g.dt := by rw [h.lawful.dt]; linarith [h.lawful.dx]
  have n0 : (0 : ℝ) ≤ n := Nat.cast_nonneg n
  have τ0 : 0 ≤ τ := le_trans (by positivity) hn
  have M0 : 0 ≤ M := current_nonneg h.wide h.lawful h.closed p.current τ0
  have up : entry g vol < (g.toReal (g.toGrid a)).y := by
    have := entry_below h.lawful.dx (vol := vol) (j := (g.toGrid a).y) hin.2.1.le
    simpa [Grid.toReal, mul_comm] using this
  exact pushed_close h.toBoxAsked (M0.trans (litSize_ge τ0 p.signal).1) (lit_smooth τ0 p.signal p.smooth) (lit_steady τ0 p.signal p.steady) (lit_even τ0 p.signal p.even)
    (lit_driven p.driven) (lit_rest p.signal p.rest) (by nlinarith) (lit_calm τ0 p.signal up hcm hη) (C102_total h ho hsr hwv p hn hin)

/-- No current, no force. -/
theorem push_free {w : Spec.Wave} {C : ℝ → ℝ → ℝ → ℝ} {T : ℝ} {p q : V2 ℝ} (hT : 0 ≤ T) (hC : NoCurrent C p q T) (f : ℝ) :
    w.push C f T p q = ⟨0, 0⟩ ∧ w.spin C f T p q = 0 := by
  have z : ∀ u ∈ between p q, w.pushAt C f T u.1 u.2 = ⟨0, 0⟩ := fun u hu => by
    have e : spectrum (fun t => C t u.1 u.2) f T = 0 := by
      show (∫ t in (0 : ℝ)..T, ((C t u.1 u.2 : ℝ) : ℂ) * wavelet f t) = 0
      rw [intervalIntegral.integral_congr (g := fun _ => (0 : ℂ)) fun t ht => ?_, intervalIntegral.integral_zero]
      rw [Set.uIcc_of_le hT] at ht
      dsimp only
      rw [hC t ht u.1 u.2 hu]
      simp
    unfold Wave.pushAt
    rw [e]
    simp
  refine ⟨?_, ?_⟩
  · unfold Wave.push
    rw [setIntegral_eq_zero_of_forall_eq_zero fun u hu => by rw [z u hu], setIntegral_eq_zero_of_forall_eq_zero fun u hu => by rw [z u hu]]
  · unfold Wave.spin
    exact setIntegral_eq_zero_of_forall_eq_zero fun u hu => by rw [z u hu]; simp

/-- The file has force or torque up to `eF f` and `eT f` at zero. -/
def HoldsNoForce (qty : Quantity ℝ) (w4 : World ℝ) (g : Grid ℝ) (name : String) (freq : List ℝ) (eF eT : ℝ → ℝ) : Prop :=
  (qty = .force → ∃ Fx Fy : ℝ → ℝ, w4.tree.at ["monitors", "box_monitor", name, "force"] = some (.nums (freq.map Fx ++ freq.map Fy)) ∧
    ∀ f, |g.dt ^ 2 * Fx f| ≤ eF f ∧ |g.dt ^ 2 * Fy f| ≤ eF f) ∧
  (∀ c, qty = .torque c → ∃ N : ℝ → ℝ, w4.tree.at ["monitors", "box_monitor", name, "torque"] = some (.nums (freq.map N)) ∧ ∀ f, |g.dt ^ 2 * N f| ≤ eT f)

theorem lorentz_free {w : Spec.Wave} {C : ℝ → ℝ → ℝ → ℝ} {T : ℝ} {eF eT : ℝ → ℝ} (h : HoldsLorentzForce qty w4 g name a b freq w C T eF eT) (hT : 0 ≤ T)
    (hC : NoCurrent C (g.toReal (g.toGrid a)) (g.toReal (g.toGrid b)) T) : HoldsNoForce qty w4 g name freq eF eT := by
  refine ⟨fun hq => ?_, fun c hq => ?_⟩
  · obtain ⟨Fx, Fy, h1, h2⟩ := h.1 hq
    refine ⟨Fx, Fy, h1, fun f => ?_⟩
    have := h2 f
    rw [(push_free hT hC f).1, sub_zero, sub_zero] at this
    exact this
  · obtain ⟨N, h1, h2⟩ := h.2 c hq
    refine ⟨N, h1, fun f => ?_⟩
    have := h2 f
    rw [(push_free hT hC f).2, sub_zero] at this
    exact this

/-- **C103**: light that only passes through a box exerts neither force nor torque. If the box has vacuum and no sources in it, the numbers in the file vanish up to the error. -/
theorem C103_empty (h : BoxFelt qty now g cs1 cs2 later name a b freq n w4) (objs : List (Object ℝ)) (srcs : List (Source ℝ)) (ho : objectsOf (simOps cs1) = objs)
    (hsr : sourcesOf (simOps cs1) = srcs) (hb : ∀ o ∈ objs, BoxSound o)
    (hc : ∀ o ∈ objs, ClearOfUnguardedEdges g o) (hp : ∀ o ∈ objs, PassiveObject o) (epsMax sigMax : ℝ) (he : AtMost epsMax objs)
    (hs : ConductAtMost sigMax objs) (eps sig : ℝ → ℝ → ℝ) (hmed : MediumOf objs eps sig) (w : Spec.Wave) (S : ℝ → ℝ → Prop) (J Xx Yy : ℝ → ℝ → ℝ → ℝ) (τ M δ η : ℝ)
    (hsm : w.Smooth S g τ M) (hst : w.Steady g τ M) (hev : w.Even g τ M) (hmx : w.Driven S eps sig J g τ) (hJ : CurrentAtMost J g τ M) (hwl : w.Walls g τ) (hr : w.AtRest g)
    (fits : ∀ s ∈ srcs, Fits g s) (hδ : 0 ≤ δ) (hk : Spec.Carries g srcs eps sig J τ δ) (hn : ((n : ℝ) + 1 / 2) * g.dt ≤ τ)
    (hcm : w.Calm S g (g.toReal (g.toGrid a)) (g.toReal (g.toGrid b)) τ M (n * g.dt) η Xx Yy)
    (hno : NoCurrent J (g.toReal (g.toGrid a)) (g.toReal (g.toGrid b)) (n * g.dt))
    (hvac : ∀ x y, (x, y) ∈ between (g.toReal (g.toGrid a)) (g.toReal (g.toGrid b)) → eps x y = 1 ∧ sig x y = 0) :
    HoldsNoForce qty w4 g name freq
      (lorentzForceError g a b M (n * g.dt) (restError S g M epsMax + n * g.dt * drivenError S g M epsMax sigMax δ) η)
      (lorentzTorqueError g a b M (n * g.dt) (restError S g M epsMax + n * g.dt * drivenError S g M epsMax sigMax δ) η) := by
  have dt0 : 0 < g.dt := by rw [h.lawful.dt]; linarith [h.lawful.dx]
  have n0 : (0 : ℝ) ≤ n := Nat.cast_nonneg n
  refine lorentz_free (C103_simple h objs srcs ho hsr hb hc hp epsMax sigMax he hs eps sig hmed w S J Xx Yy τ M δ η hsm hst hev hmx hJ hwl hr fits hδ hk hn hcm) (by positivity) ?_
  intro t ht x y hxy
  unfold Wave.currents
  rw [hno t ht x y hxy, (hvac x y hxy).1, (hvac x y hxy).2]
  ring

/-- **C103**: the same in an incident wave: neither light that passes nor the edge of the region of the incident wave exert force or torque on an empty box in the region. -/
theorem C103_empty_lit {objs : List (Object ℝ)} {srcs : List (Source ℝ)} {vol : Vol ℝ} {tp : TimeProfile ℝ} {eps sig : ℝ → ℝ → ℝ} {epsMax sigMax : ℝ} {w : Spec.Wave} {S : ℝ → ℝ → Prop}
    {J Xx Yy : ℝ → ℝ → ℝ → ℝ} {τ M Ms δ η η' : ℝ} (h : LitFelt qty now g cs1 cs2 later name a b freq n w4) (ho : objectsOf (simOps cs1) = objs) (hsr : sourcesOf (simOps cs1) = srcs)
    (hwv : incidentOf (simOps cs1) = some (vol, tp)) (p : Scatters g objs srcs vol tp.resp eps sig epsMax sigMax w S J τ M Ms δ) (hn : ((n : ℝ) + 1 / 2) * g.dt ≤ τ) (hin : BoxWithin g vol a b)
    (hcm : w.Calm S g (g.toReal (g.toGrid a)) (g.toReal (g.toGrid b)) τ M (n * g.dt) η' Xx Yy)
    (hη : (w.lit tp.resp (entry g vol)).Faded (g.toReal (g.toGrid a)) (g.toReal (g.toGrid b)) (n * g.dt) η)
    (hno : NoCurrent J (g.toReal (g.toGrid a)) (g.toReal (g.toGrid b)) (n * g.dt))
    (hvac : ∀ x y, (x, y) ∈ between (g.toReal (g.toGrid a)) (g.toReal (g.toGrid b)) → eps x y = 1 ∧ sig x y = 0) :
    HoldsNoForce qty w4 g name freq
      (lorentzForceError g a b (litSize M Ms τ) (n * g.dt) (litError S g vol M Ms epsMax sigMax τ δ n) η)
      (lorentzTorqueError g a b (litSize M Ms τ) (n * g.dt) (litError S g vol M Ms epsMax sigMax τ δ n) η) := by
  have dt0 : 0 < g.dt := by rw [h.lawful.dt]; linarith [h.lawful.dx]
  have n0 : (0 : ℝ) ≤ n := Nat.cast_nonneg n
  refine lorentz_free (C103_total h ho hsr hwv p hn hin hcm hη) (by positivity) ?_
  intro t ht x y hxy
  unfold Wave.currents
  rw [hno t ht x y hxy, (hvac x y hxy).1, (hvac x y hxy).2]
  ring

end

end Qbox.Props
