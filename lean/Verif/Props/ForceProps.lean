import Verif.Props.ForceWaveProps
import Verif.Props.LitProps

/-! # C102: what box monitors write as force and torque -/

namespace Qbox.Props
open Qbox Scalar Spec

/-- Such a program, which adds objects and sources before the monitor. -/
structure BoxFelt (qty : Quantity ℝ) (now : ℕ → ℝ) (g : Grid ℝ) (cs1 cs2 later : List (Call ℝ)) (name : String) (a b : V2 ℝ) (freq : List ℝ) (n : ℕ) (w4 : World ℝ) : Prop
    extends BoxAsked qty now g cs1 cs2 later name a b freq n w4 where
  furnishes : Furnishes (simOps cs1)

/-- Such a program, which may also set an incident wave. -/
structure LitFelt (qty : Quantity ℝ) (now : ℕ → ℝ) (g : Grid ℝ) (cs1 cs2 later : List (Call ℝ)) (name : String) (a b : V2 ℝ) (freq : List ℝ) (n : ℕ) (w4 : World ℝ) : Prop
    extends BoxAsked qty now g cs1 cs2 later name a b freq n w4 where
  lights : Lights (simOps cs1)

/-- The file holds the force on the box, if this is what the program writes, or the torque. The fields are within `E` of those of the wave, which are of the size `M`. -/
def HoldsPush (qty : Quantity ℝ) (w4 : World ℝ) (g : Grid ℝ) (name : String) (a b : V2 ℝ) (freq : List ℝ) (w : Spec.Wave) (T M E : ℝ) : Prop :=
  (qty = .force → HoldsBoxForce w4 g name a b freq w T fun f => 3 / 2 * boxFlowError g (g.toGrid a) (g.toGrid b) M T E f) ∧
  (∀ c, qty = .torque c → HoldsBoxTorque w4 g name a b freq w T (boxTorqueError g (g.toGrid a) (g.toGrid b) M T E))

theorem holdsPush_close {qty : Quantity ℝ} {now : ℕ → ℝ} {g : Grid ℝ} {cs1 cs2 later : List (Call ℝ)} {name : String} {a b : V2 ℝ} {freq : List ℝ} {n : ℕ} {w4 : World ℝ}
    (h : BoxFelt qty now g cs1 cs2 later name a b freq n w4) {m0 : BoxMon ℝ} (hm0 : BoxMon.make name (Vol.make a b) .all freq = .ok m0)
    (w1 w2 w3 : World ℝ) (hw : Watched now g cs1 (.box m0) cs2 w1 w2) (he : ∀ s ∈ sourcesOf (simOps cs1), ∀ C i j, Drives g s C ⟨i, j⟩ → C = .Ez)
    (k2 : w2.step now (.report w1.sim.mons.length qty) = .ok w3) (k3 : w3.run now later = .ok w4)
    (w : Spec.Wave) (τ M B : ℝ) (hM : 0 ≤ M) (hst : w.Steady g τ M) (hev : w.Even g τ M) (hr : w.AtRest g) (hτ : n * g.dt ≤ τ)
    (close : ∀ m ≤ n, ∃ c, (⟨objectsOf (simOps cs1), sourcesOf (simOps cs1), none⟩ : Scene).run g m = .ok c ∧ Real.sqrt (gap w g m c.f (updatedNodes g)) ≤ B) :
    HoldsPush qty w4 g name a b freq w (n * g.dt) M B :=
  holdsBoxForce_near h.toBoxAsked hm0 w1 w2 w3 hw _ (fun s2 qs q1 q2 => shown_scene hw h.furnishes h.advances he q1 q2) k2 k3 w τ M B hM hst hev hr hτ fun m hm => by
    obtain ⟨c, e1, e2⟩ := close m hm
    exact ⟨c, c.f, e1, fun _ _ _ _ => ⟨rfl, rfl, rfl⟩, e2⟩

/-- **C102**, simple media. Objects of passive simple media and sources of `Ez` that carry the current of a solution of Maxwell's equations that starts from rest: what the
monitor writes as force is the flow of momentum of the solution into its box, the integral of Maxwell's stress tensor over its edge, and what it writes as torque is the flow of
angular momentum about the centre, up to the error of the fields (C84), divided by the root of the size of a cell, and terms of first
order in it. -/
theorem C102_simple {qty : Quantity ℝ} {now : ℕ → ℝ} {g : Grid ℝ} {cs1 cs2 later : List (Call ℝ)} {name : String} {a b : V2 ℝ} {freq : List ℝ} {n : ℕ}
    {w4 : World ℝ} (h : BoxFelt qty now g cs1 cs2 later name a b freq n w4) (objs : List (Object ℝ)) (srcs : List (Source ℝ)) (ho : objectsOf (simOps cs1) = objs)
    (hsr : sourcesOf (simOps cs1) = srcs) (hb : ∀ o ∈ objs, BoxSound o)
    (hc : ∀ o ∈ objs, ClearOfUnguardedEdges g o) (hp : ∀ o ∈ objs, PassiveObject o) (epsMax sigMax : ℝ) (he : AtMost epsMax objs)
    (hs : ConductAtMost sigMax objs) (eps sig : ℝ → ℝ → ℝ) (hmed : MediumOf objs eps sig) (w : Spec.Wave) (S : ℝ → ℝ → Prop) (J : ℝ → ℝ → ℝ → ℝ) (τ M δ : ℝ)
    (hsm : w.Smooth S g τ M) (hst : w.Steady g τ M) (hev : w.Even g τ M) (hmx : w.Driven S eps sig J g τ) (hJ : CurrentAtMost J g τ M) (hwl : w.Walls g τ) (hr : w.AtRest g)
    (fits : ∀ s ∈ srcs, Fits g s) (hδ : 0 ≤ δ) (hk : Spec.Carries g srcs eps sig J τ δ) (hn : ((n : ℝ) + 1 / 2) * g.dt ≤ τ) :
    HoldsPush qty w4 g name a b freq w (n * g.dt) M
      (restError S g M epsMax + n * g.dt * drivenError S g M epsMax sigMax δ) := by
  subst ho hsr
  obtain ⟨m0, w1, w2, w3, k0, k1, k2, k3⟩ := h.runs
  have dt0 : 0 < g.dt := by rw [h.lawful.dt]; linarith [h.lawful.dx]
  have n0 : (0 : ℝ) ≤ n := Nat.cast_nonneg n
  refine holdsPush_close h k0 w1 w2 w3 k1
    (fun s hs C i j hd => (hk.electric s hs C i j hd).1) k2 k3 w τ M _ (current_nonneg h.wide h.lawful h.closed hJ (by nlinarith)) hst hev hr (by nlinarith) fun m hm => ?_
  obtain ⟨c, e1, e2⟩ := C84_radiates m g h.wide h.lawful h.closed _ hb hc hp epsMax sigMax he hs eps sig hmed w S J τ M δ hsm hst hmx hJ hwl hr _ fits hδ hk
    (earlier hm dt0 hn).1
  exact ⟨c, e1, e2.trans (add_le_add_right (mul_le_mul_of_nonneg_right (earlier hm dt0 hn).2 (Real.sqrt_nonneg _)) _)⟩

/-- **C102**, Debye and Drude media of one pole: as `C102_simple`, with the error of the fields of C85. -/
theorem C102_dispersive {qty : Quantity ℝ} {now : ℕ → ℝ} {g : Grid ℝ} {cs1 cs2 later : List (Call ℝ)} {name : String} {a b : V2 ℝ} {freq : List ℝ} {n : ℕ}
    {w4 : World ℝ} (h : BoxFelt qty now g cs1 cs2 later name a b freq n w4) (objs : List (Object ℝ)) (srcs : List (Source ℝ)) (hob : objectsOf (simOps cs1) = objs)
    (hsr : sourcesOf (simOps cs1) = srcs) (hb : ∀ o ∈ objs, BoxSound o)
    (hc : ∀ o ∈ objs, ClearOfUnguardedEdges g o) (hp : ∀ o ∈ objs, PassiveKind o.mat.kind) (hnm : OneMeaning objs) (hu : Uncovered g objs)
    (eps sig : ℝ → ℝ → ℝ) (res : ℝ → ℝ → Response) (hmat : MatterOf objs eps sig res) (epsMax sigMax q : ℝ) (hmax : MatterAtMost eps sig res epsMax sigMax q)
    (w : Spec.Wave) (K Kt I : ℝ → ℝ → ℝ → ℝ) (S : ℝ → ℝ → Prop) (τ M δ : ℝ) (hsm : w.Smooth S g τ M) (hst : w.Steady g τ M) (hev : w.Even g τ M)
    (hmx : w.Driven S eps sig (fun t x y => K t x y + I t x y) g τ) (hK : w.Polarized K Kt S res g τ M) (hI : CurrentAtMost I g τ M) (hwl : w.Walls g τ)
    (hr : w.AtRest g) (hrK : ∀ x y, InDomain g x y → K 0 x y = 0) (fits : ∀ s ∈ srcs, Fits g s) (hδ : 0 ≤ δ)
    (hk : Spec.Carries g srcs eps sig I τ δ) (ho : OutsideMemory g objs srcs) (hn : ((n : ℝ) + 1 / 2) * g.dt ≤ τ) :
    HoldsPush qty w4 g name a b freq w (n * g.dt) M
      (restError S g M (epsMax + q ^ 2) + n * g.dt * polarError S g M epsMax sigMax q δ) := by
  subst hob hsr
  obtain ⟨m0, w1, w2, w3, k0, k1, k2, k3⟩ := h.runs
  have dt0 : 0 < g.dt := by rw [h.lawful.dt]; linarith [h.lawful.dx]
  have n0 : (0 : ℝ) ≤ n := Nat.cast_nonneg n
  refine holdsPush_close h k0 w1 w2 w3 k1
    (fun s hs C i j hd => (hk.electric s hs C i j hd).1) k2 k3 w τ M _ (current_nonneg h.wide h.lawful h.closed hI (by nlinarith)) hst hev hr (by nlinarith) fun m hm => ?_
  obtain ⟨c, e1, e2⟩ := C85_solves m g h.wide h.lawful h.closed _ hb hc hp hnm hu eps sig res hmat epsMax sigMax q hmax w K Kt I S τ M δ hsm hst hmx hK hI hwl hr hrK _
    fits hδ hk ho (earlier hm dt0 hn).1
  exact ⟨c, e1, e2.trans (add_le_add_right (mul_le_mul_of_nonneg_right (earlier hm dt0 hn).2 (Real.sqrt_nonneg _)) _)⟩

/-- **C102**, a Lorentz medium of one pole on top of passive simple media: as `C102_simple`, with the error of the fields of C93. -/
theorem C102_lorentz {qty : Quantity ℝ} {now : ℕ → ℝ} {g : Grid ℝ} {cs1 cs2 later : List (Call ℝ)} {name : String} {a b : V2 ℝ} {freq : List ℝ} {n : ℕ}
    {w4 : World ℝ} (h : BoxFelt qty now g cs1 cs2 later name a b freq n w4) (objs : List (Object ℝ)) (srcs : List (Source ℝ)) (o : Object ℝ)
    (hob : objectsOf (simOps cs1) = objs ++ [o]) (hsr : sourcesOf (simOps cs1) = srcs) (hb : ∀ o ∈ objs, BoxSound o)
    (hc : ∀ o ∈ objs, ClearOfUnguardedEdges g o) (hp : ∀ o ∈ objs, PassiveObject o) (epsMax sigMax : ℝ) (he : AtMost epsMax objs)
    (hs : ConductAtMost sigMax objs) (eps sig : ℝ → ℝ → ℝ) (hmed : MediumOf objs eps sig) (e : ℝ) (p : LorentzPole ℝ)
    (hk : o.mat.kind = .lorentz ⟨e, [p]⟩) (bo : BoxSound o) (co : ClearOfUnguardedEdges g o) (e1 : 1 ≤ e) (e2 : e ≤ epsMax)
    (p1 : p.omega ≠ 0) (p2 : 0 < p.dEps) (p3 : 0 ≤ p.gamma)
    (w : Spec.Wave) (S : ℝ → ℝ → Prop) (P K Kt I : ℝ → ℝ → ℝ → ℝ) (τ M δ : ℝ) (hsm : w.Smooth S g τ M) (hst : w.Steady g τ M) (hev : w.Even g τ M)
    (hmx : w.Driven S (coated o e eps) (coated o 0 sig) (fun t x y => K t x y + I t x y) g τ)
    (hq : w.Swinging P K Kt S (fun x y => o.inside ⟨x, y⟩ = true) p g τ M) (hI : CurrentAtMost I g τ M) (hwl : w.Walls g τ) (hr : w.AtRest g)
    (hP : ∀ x y, InDomain g x y → P 0 x y = 0 ∧ K 0 x y = 0)
    (fits : ∀ s ∈ srcs, Fits g s) (hδ : 0 ≤ δ) (hcr : Spec.Carries g srcs (coated o e eps) (coated o 0 sig) I τ δ)
    (ho : ∀ t (i j : ℤ), o.inside ⟨i * g.dx, j * g.dx⟩ = true → addedE g srcs t i j = 0) (hn : ((n : ℝ) + 1 / 2) * g.dt ≤ τ) :
    HoldsPush qty w4 g name a b freq w (n * g.dt) M
      (3 * (Real.exp (swingRate p epsMax sigMax g.dt * (n * g.dt)) *
        (swingStart S g p M epsMax + n * g.dt * swingError S g p M epsMax sigMax δ))) := by
  subst hsr
  obtain ⟨m0, w1, w2, w3, k0, k1, k2, k3⟩ := h.runs
  have dt0 : 0 < g.dt := by rw [h.lawful.dt]; linarith [h.lawful.dx]
  have n0 : (0 : ℝ) ≤ n := Nat.cast_nonneg n
  have M0 : 0 ≤ M := current_nonneg h.wide h.lawful h.closed hI (by nlinarith)
  have s0 : 0 ≤ swingStart S g p M epsMax := by
    unfold swingStart restError
    have := h.lawful.dx
    positivity
  obtain ⟨l0, f0, r0⟩ := rates_nonneg (p := p) ⟨p1, p2, p3⟩ (by linarith : 0 ≤ epsMax) hs.1 dt0.le
  have q0 : 0 ≤ swingNoise S g M epsMax sigMax (swingStiff p) δ := by unfold swingNoise; positivity
  have w0 : 0 ≤ swingError S g p M epsMax sigMax δ := by unfold swingError; positivity
  refine holdsPush_close h k0 w1 w2 w3 k1
    (fun s hs C i j hd => (hcr.electric s hs C i j hd).1) k2 k3 w τ M _ M0 hst hev hr (by nlinarith) fun m hm => ?_
  obtain ⟨c, c1, c2⟩ := C93_solves m g h.wide h.lawful h.closed objs hb hc hp epsMax sigMax he hs eps sig hmed o e p hk bo co e1 e2 p1 p2 p3 w S P K Kt I τ M δ hsm hst
    hmx hq hI hwl hr hP _ fits hδ hcr ho (earlier hm dt0 hn).1
  rw [hob]
  have mn := (earlier hm dt0 hn).2
  refine ⟨c, c1, c2.trans (mul_le_mul_of_nonneg_left (mul_le_mul (Real.exp_le_exp.mpr (mul_le_mul_of_nonneg_left mn r0))
    (add_le_add_right (mul_le_mul_of_nonneg_right mn w0) _) (add_nonneg s0 (by positivity)) (Real.exp_nonneg _)) (by norm_num))⟩

section
variable {qty : Quantity ℝ} {now : ℕ → ℝ} {g : Grid ℝ} {cs1 cs2 later : List (Call ℝ)} {name : String} {a b : V2 ℝ} {freq : List ℝ} {n : ℕ} {w4 : World ℝ}
variable {objs : List (Object ℝ)} {srcs : List (Source ℝ)} {vol : Vol ℝ} {tp : TimeProfile ℝ} {eps sig : ℝ → ℝ → ℝ} {epsMax sigMax : ℝ} {w : Spec.Wave} {S : ℝ → ℝ → Prop}
variable {J : ℝ → ℝ → ℝ → ℝ} {τ M Ms δ : ℝ}

/-- **C102**: a box around the region of the incident wave. What the monitor writes is the force and the torque of the scattered wave, without the incident wave, up to the
error of the fields (C100), divided by the root of the size of a cell, and terms of first order in it. -/
theorem C102_scattered (h : LitFelt qty now g cs1 cs2 later name a b freq n w4) (ho : objectsOf (simOps cs1) = objs) (hsr : sourcesOf (simOps cs1) = srcs)
    (hwv : incidentOf (simOps cs1) = some (vol, tp)) (p : Scatters g objs srcs vol tp.resp eps sig epsMax sigMax w S J τ M Ms δ) (hn : ((n : ℝ) + 1 / 2) * g.dt ≤ τ) (har : BoxAround g vol a b) :
    HoldsPush qty w4 g name a b freq w (n * g.dt) M (litError S g vol M Ms epsMax sigMax τ δ n) := by
  subst ho hsr
  obtain ⟨m0, w1, w2, w3, k0, k1, k2, k3⟩ := h.runs
  have dt0 : 0 < g.dt := by rw [h.lawful.dt]; linarith [h.lawful.dx]
  have n0 : (0 : ℝ) ≤ n := Nat.cast_nonneg n
  refine holdsBoxForce_near h.toBoxAsked k0 w1 w2 w3 k1 ⟨_, _, incidentOf (simOps cs1)⟩
    (fun s2 qs q1 q2 => shown_lit k1 h.lights h.advances (fun s hs C i j hd => (p.carries.electric s hs C i j hd).1) q1 q2) k2 k3 w τ M _
    (current_nonneg h.wide h.lawful h.closed p.current (by nlinarith)) p.steady p.even p.rest (by nlinarith) fun m hm => ?_
  obtain ⟨c, e1, e2⟩ := scattered_close h.wide h.lawful h.closed p hn m hm
  rw [hwv]
  refine ⟨c, _, e1, fun f i j hf => ?_, le_trans (le_of_eq (congrArg _ gap_relit)) e2⟩
  obtain ⟨-, k⟩ := face_near h.x.2.1 h.y.2.1 f hf
  obtain ⟨r1, r2, r3, r4⟩ := har
  obtain ⟨z1, z2⟩ := incidentE_outside (s := tp.resp) (m := m) (i := i) (j := j) (vol := vol) (g := g) fun hi => by
    obtain ⟨u1, u2, u3, u4⟩ := hi
    omega
  simp only [relit, z1, z2, sub_zero, and_self]

/-- **C102**: a box inside the region of the incident wave. What the monitor writes is the force and the torque of the sum of the
scattered wave and the plane wave: what light does to the bodies in the box. -/
theorem C102_total (h : LitFelt qty now g cs1 cs2 later name a b freq n w4) (ho : objectsOf (simOps cs1) = objs) (hsr : sourcesOf (simOps cs1) = srcs)
    (hwv : incidentOf (simOps cs1) = some (vol, tp)) (p : Scatters g objs srcs vol tp.resp eps sig epsMax sigMax w S J τ M Ms δ) (hn : ((n : ℝ) + 1 / 2) * g.dt ≤ τ) (hin : BoxWithin g vol a b) :
    HoldsPush qty w4 g name a b freq (w.lit tp.resp (entry g vol)) (n * g.dt) (litSize M Ms τ) (litError S g vol M Ms epsMax sigMax τ δ n) := by
  subst ho hsr
  obtain ⟨m0, w1, w2, w3, k0, k1, k2, k3⟩ := h.runs
  have dt0 : 0 < g.dt := by rw [h.lawful.dt]; linarith [h.lawful.dx]
  have n0 : (0 : ℝ) ≤ n := Nat.cast_nonneg n
  have τ0 : 0 ≤ τ := le_trans (by positivity) hn
  have M0 : 0 ≤ M := current_nonneg h.wide h.lawful h.closed p.current τ0
  refine holdsBoxForce_near h.toBoxAsked k0 w1 w2 w3 k1 ⟨_, _, incidentOf (simOps cs1)⟩
    (fun s2 qs q1 q2 => shown_lit k1 h.lights h.advances (fun s hs C i j hd => (p.carries.electric s hs C i j hd).1) q1 q2) k2 k3 _ τ (litSize M Ms τ) _
    (M0.trans (litSize_ge τ0 p.signal).1) (lit_steady τ0 p.signal p.steady) (lit_even τ0 p.signal p.even) (lit_rest p.signal p.rest) (by nlinarith) fun m hm => ?_
  obtain ⟨c, e1, e2⟩ := scattered_close h.wide h.lawful h.closed p hn m hm
  rw [hwv]
  refine ⟨c, _, e1, fun f i j hf => ?_, le_trans (le_of_eq (congrArg _ gap_lit)) e2⟩
  obtain ⟨⟨u1, u2, u3, u4⟩, -⟩ := face_near h.x.2.1 h.y.2.1 f hf
  obtain ⟨r1, r2, r3, r4⟩ := hin
  obtain ⟨z1, z2⟩ := incidentE_inside h.lawful.dx (s := tp.resp) (m := m) (i := i) (j := j) (vol := vol) (g := g) ⟨by omega, by omega, by omega, by omega⟩ (by omega)
  simp only [relit, z1, z2, sub_self, sub_zero, and_self]

end

end Qbox.Props
