import Verif.Props.LitMetalProps
import Verif.Props.MomentumProps

/-! # The push of light on Debye and Drude bodies (C108) -/

namespace Qbox
open Scalar Spec
namespace Props

section
variable {qty : Quantity ℝ} {now : ℕ → ℝ} {g : Grid ℝ} {cs1 cs2 later : List (Call ℝ)} {name : String} {a b : V2 ℝ} {freq : List ℝ} {n : ℕ} {w4 : World ℝ}
variable {objs : List (Object ℝ)} {srcs : List (Source ℝ)} {vol : Vol ℝ} {tp : TimeProfile ℝ} {eps sig : ℝ → ℝ → ℝ} {res : ℝ → ℝ → Response} {epsMax sigMax q : ℝ} {w : Spec.Wave}
variable {S : ℝ → ℝ → Prop} {K Kt J : ℝ → ℝ → ℝ → ℝ} {τ M Ms δ : ℝ}

/-- **C108**: a box around the region of the incident wave. What the monitor writes is the flow of momentum and of angular momentum of the wave that the bodies scatter, up to the error of the
fields (C106), divided by the root of the size of a cell, and terms of first order in it. -/
theorem C108_scattered (h : LitFelt qty now g cs1 cs2 later name a b freq n w4) (ho : objectsOf (simOps cs1) = objs) (hsr : sourcesOf (simOps cs1) = srcs)
    (hwv : incidentOf (simOps cs1) = some (vol, tp)) (p : ScattersPolar g objs srcs vol tp.resp eps sig res epsMax sigMax q w S K Kt J τ M Ms δ) (hn : ((n : ℝ) + 1 / 2) * g.dt ≤ τ)
    (har : BoxAround g vol a b) :
    HoldsPush qty w4 g name a b freq w (n * g.dt) M (metalError S g vol M Ms epsMax sigMax q τ δ n) := by
  subst ho hsr
  obtain ⟨m0, w1, w2, w3, k0, k1, k2, k3⟩ := h.runs
  have dt0 : 0 < g.dt := by rw [h.lawful.dt]; linarith [h.lawful.dx]
  have n0 : (0 : ℝ) ≤ n := Nat.cast_nonneg n
  refine holdsBoxForce_near h.toBoxAsked k0 w1 w2 w3 k1 ⟨_, _, incidentOf (simOps cs1)⟩
    (fun s2 qs q1 q2 => shown_lit k1 h.lights h.advances (fun s hs C i j hd => (p.carries.electric s hs C i j hd).1) q1 q2) k2 k3 w τ M _
    (current_nonneg h.wide h.lawful h.closed p.current (by nlinarith)) p.steady p.even p.rest (by nlinarith) fun m hm => ?_
  obtain ⟨c, e1, e2⟩ := metal_close h.wide h.lawful h.closed p hn m hm
  rw [hwv]
  refine ⟨c, _, e1, fun f i j hf => ?_, le_trans (le_of_eq (congrArg _ gap_relit)) e2⟩
  obtain ⟨-, k⟩ := face_near h.x.2.1 h.y.2.1 f hf
  obtain ⟨r1, r2, r3, r4⟩ := har
  obtain ⟨z1, z2⟩ := incidentE_outside (s := tp.resp) (m := m) (i := i) (j := j) (vol := vol) (g := g) fun hi => by
    obtain ⟨u1, u2, u3, u4⟩ := hi
    omega
  simp only [relit, z1, z2, sub_zero, and_self]

/-- **C108**: a box inside the region of the incident wave. What the monitor writes is the flow of momentum and of angular momentum of the sum of the scattered wave and the plane wave. -/
theorem C108_total (h : LitFelt qty now g cs1 cs2 later name a b freq n w4) (ho : objectsOf (simOps cs1) = objs) (hsr : sourcesOf (simOps cs1) = srcs)
    (hwv : incidentOf (simOps cs1) = some (vol, tp)) (p : ScattersPolar g objs srcs vol tp.resp eps sig res epsMax sigMax q w S K Kt J τ M Ms δ) (hn : ((n : ℝ) + 1 / 2) * g.dt ≤ τ)
    (hin : BoxWithin g vol a b) :
    HoldsPush qty w4 g name a b freq (w.lit tp.resp (entry g vol)) (n * g.dt) (litSize M Ms τ) (metalError S g vol M Ms epsMax sigMax q τ δ n) := by
  subst ho hsr
  obtain ⟨m0, w1, w2, w3, k0, k1, k2, k3⟩ := h.runs
  have dt0 : 0 < g.dt := by rw [h.lawful.dt]; linarith [h.lawful.dx]
  have n0 : (0 : ℝ) ≤ n := Nat.cast_nonneg n
  have τ0 : 0 ≤ τ := le_trans (by positivity) hn
  have M0 : 0 ≤ M := current_nonneg h.wide h.lawful h.closed p.current τ0
  refine holdsBoxForce_near h.toBoxAsked k0 w1 w2 w3 k1 ⟨_, _, incidentOf (simOps cs1)⟩
    (fun s2 qs q1 q2 => shown_lit k1 h.lights h.advances (fun s hs C i j hd => (p.carries.electric s hs C i j hd).1) q1 q2) k2 k3 _ τ (litSize M Ms τ) _
    (M0.trans (litSize_ge τ0 p.signal).1) (lit_steady τ0 p.signal p.steady) (lit_even τ0 p.signal p.even) (lit_rest p.signal p.rest) (by nlinarith) fun m hm => ?_
  obtain ⟨c, e1, e2⟩ := metal_close h.wide h.lawful h.closed p hn m hm
  rw [hwv]
  refine ⟨c, _, e1, fun f i j hf => ?_, le_trans (le_of_eq (congrArg _ gap_lit)) e2⟩
  obtain ⟨⟨u1, u2, u3, u4⟩, -⟩ := face_near h.x.2.1 h.y.2.1 f hf
  obtain ⟨r1, r2, r3, r4⟩ := hin
  obtain ⟨z1, z2⟩ := incidentE_inside h.lawful.dx (s := tp.resp) (m := m) (i := i) (j := j) (vol := vol) (g := g) ⟨by omega, by omega, by omega, by omega⟩ (by omega)
  simp only [relit, z1, z2, sub_self, sub_zero, and_self]

/-- **C108**: the push of light on bodies with memory. If the scattered wave has no magnetic charges and the total field in a box in the region has faded at the end of the program, the numbers
in the file are the Lorentz force and the torque of the total field on the currents in the box: those of polarization without delay, of conduction, of the media with memory and of the sources. -/
theorem C108_force {Xx Yy : ℝ → ℝ → ℝ → ℝ} {η η' : ℝ} (h : LitFelt qty now g cs1 cs2 later name a b freq n w4) (ho : objectsOf (simOps cs1) = objs) (hsr : sourcesOf (simOps cs1) = srcs)
    (hwv : incidentOf (simOps cs1) = some (vol, tp)) (p : ScattersPolar g objs srcs vol tp.resp eps sig res epsMax sigMax q w S K Kt J τ M Ms δ) (hn : ((n : ℝ) + 1 / 2) * g.dt ≤ τ)
    (hin : BoxWithin g vol a b) (hcm : w.Calm S g (g.toReal (g.toGrid a)) (g.toReal (g.toGrid b)) τ M (n * g.dt) η' Xx Yy)
    (hη : (w.lit tp.resp (entry g vol)).Faded (g.toReal (g.toGrid a)) (g.toReal (g.toGrid b)) (n * g.dt) η) :
    HoldsLorentzForce qty w4 g name a b freq (w.lit tp.resp (entry g vol)) ((w.lit tp.resp (entry g vol)).currents eps sig fun t x y => K t x y + J t x y) (n * g.dt)
      (lorentzForceError g a b (litSize M Ms τ) (n * g.dt) (metalError S g vol M Ms epsMax sigMax q τ δ n) η)
      (lorentzTorqueError g a b (litSize M Ms τ) (n * g.dt) (metalError S g vol M Ms epsMax sigMax q τ δ n) η) := by
  have dt0 : 0 < g.dt := by rw [h.lawful.dt]; linarith [h.lawful.dx]
  have n0 : (0 : ℝ) ≤ n := Nat.cast_nonneg n
  have τ0 : 0 ≤ τ := le_trans (by positivity) hn
  have M0 : 0 ≤ M := current_nonneg h.wide h.lawful h.closed p.current τ0
  have up : entry g vol < (g.toReal (g.toGrid a)).y := by
    have := entry_below h.lawful.dx (vol := vol) (j := (g.toGrid a).y) hin.2.1.le
    simpa [Grid.toReal, mul_comm] using this
  have dr : w.Driven S eps sig (fun t x y => (K t x y + J t x y) + induced eps sig tp.resp (entry g vol) t x y) g τ := by
    simp only [add_assoc]
    exact p.driven
  exact pushed_close h.toBoxAsked (M0.trans (litSize_ge τ0 p.signal).1) (lit_smooth τ0 p.signal p.smooth) (lit_steady τ0 p.signal p.steady) (lit_even τ0 p.signal p.even)
    (lit_driven (J := fun t x y => K t x y + J t x y) dr) (lit_rest p.signal p.rest) (by nlinarith) (lit_calm τ0 p.signal up hcm hη) (C108_total h ho hsr hwv p hn hin)

end

end Props
end Qbox
