import Verif.Lemmas.Lit
import Verif.Props.ScatterProps
import Verif.Props.PoyntingProps

/-! # C101: what box monitors write in programs with an incident wave -/

namespace Qbox
open Scalar Spec MeasureTheory Props

/-- The nodes near a face of a box: near its edge. -/
theorem face_near {g : Grid ℝ} {a b : V2 ℝ} (hx : (g.toGrid a).x < (g.toGrid b).x) (hy : (g.toGrid a).y < (g.toGrid b).y) (f : Fin 4) {i j : ℤ}
    (h : Nearby (g.toGrid (boxFace a b f).1) (g.toGrid (boxFace a b f).2.1) i j) :
    ((g.toGrid a).x - 1 ≤ i ∧ i ≤ (g.toGrid b).x ∧ (g.toGrid a).y - 1 ≤ j ∧ j ≤ (g.toGrid b).y) ∧
      (j ≤ (g.toGrid a).y ∨ (g.toGrid b).x - 1 ≤ i ∨ (g.toGrid b).y - 1 ≤ j ∨ i ≤ (g.toGrid a).x) := by
  have ex : ∀ u v : ℝ, (g.toGrid ⟨u, v⟩).x = (g.toGrid ⟨u, a.y⟩).x := fun _ _ => rfl
  have ey : ∀ u v : ℝ, (g.toGrid ⟨u, v⟩).y = (g.toGrid ⟨a.x, v⟩).y := fun _ _ => rfl
  have e1 : (g.toGrid ⟨b.x, a.y⟩).x = (g.toGrid b).x := rfl
  have e2 : (g.toGrid ⟨b.x, a.y⟩).y = (g.toGrid a).y := rfl
  have e3 : (g.toGrid ⟨a.x, b.y⟩).x = (g.toGrid a).x := rfl
  have e4 : (g.toGrid ⟨a.x, b.y⟩).y = (g.toGrid b).y := rfl
  unfold Nearby at h
  fin_cases f
  · change min (g.toGrid a).x (g.toGrid ⟨b.x, a.y⟩).x - 1 ≤ i ∧ i ≤ max (g.toGrid a).x (g.toGrid ⟨b.x, a.y⟩).x ∧
      min (g.toGrid a).y (g.toGrid ⟨b.x, a.y⟩).y - 1 ≤ j ∧ j ≤ max (g.toGrid a).y (g.toGrid ⟨b.x, a.y⟩).y at h
    rw [e1, e2] at h
    omega
  · change min (g.toGrid ⟨b.x, a.y⟩).x (g.toGrid b).x - 1 ≤ i ∧ i ≤ max (g.toGrid ⟨b.x, a.y⟩).x (g.toGrid b).x ∧
      min (g.toGrid ⟨b.x, a.y⟩).y (g.toGrid b).y - 1 ≤ j ∧ j ≤ max (g.toGrid ⟨b.x, a.y⟩).y (g.toGrid b).y at h
    rw [e1, e2] at h
    omega
  · change min (g.toGrid b).x (g.toGrid ⟨a.x, b.y⟩).x - 1 ≤ i ∧ i ≤ max (g.toGrid b).x (g.toGrid ⟨a.x, b.y⟩).x ∧
      min (g.toGrid b).y (g.toGrid ⟨a.x, b.y⟩).y - 1 ≤ j ∧ j ≤ max (g.toGrid b).y (g.toGrid ⟨a.x, b.y⟩).y at h
    rw [e3, e4] at h
    omega
  · change min (g.toGrid ⟨a.x, b.y⟩).x (g.toGrid a).x - 1 ≤ i ∧ i ≤ max (g.toGrid ⟨a.x, b.y⟩).x (g.toGrid a).x ∧
      min (g.toGrid ⟨a.x, b.y⟩).y (g.toGrid a).y - 1 ≤ j ∧ j ≤ max (g.toGrid ⟨a.x, b.y⟩).y (g.toGrid a).y at h
    rw [e3, e4] at h
    omega

theorem rows_nonneg {g : Grid ℝ} {vol : Vol ℝ} (h : ClearRegion g (g.toGrid vol.a) (g.toGrid vol.b)) : 0 ≤ rows g vol := by
  unfold rows
  have : 0 ≤ (g.toGrid vol.b).y - (g.toGrid vol.a).y + 1 := by have := h.y; omega
  exact_mod_cast this

theorem incidentError_mono {Ms dt R : ℝ} (hM : 0 ≤ Ms) (hd : 0 ≤ dt) (hR : 0 ≤ R) {m n : ℕ} (h : m ≤ n) :
    incidentError Ms dt m R ≤ incidentError Ms dt n R ∧ incidentErrorX Ms dt m R ≤ incidentErrorX Ms dt n R := by
  have c : (m : ℝ) ≤ n := Nat.cast_le.mpr h
  have e : incidentError Ms dt m R ≤ incidentError Ms dt n R := by
    unfold incidentError
    have : 0 ≤ (R + 1) * (Ms * dt ^ 4) := by positivity
    exact mul_le_mul_of_nonneg_right (by linarith) this
  refine ⟨e, ?_⟩
  unfold incidentErrorX
  have : 0 ≤ (R + 1) * (Ms * dt ^ 5) := by positivity
  have := mul_le_mul_of_nonneg_left (mul_le_mul_of_nonneg_right (by linarith : 160 * ((m : ℝ) + 1) ≤ 160 * (n + 1)) this) hR
  linarith

/-- The fields without the incident wave, and with another one. -/
noncomputable def relit (f : Flds ℝ) (u v : ℤ → ℤ → ℝ) : Flds ℝ :=
  { f with Ez := { f.Ez with val := fun i j => f.Ez.val i j - u i j }, Hx := { f.Hx with val := fun i j => f.Hx.val i j - v i j } }

theorem gap_relit {w : Spec.Wave} {g : Grid ℝ} {vol : Vol ℝ} {s : ℝ → ℝ} {m : ℕ} {f : Flds ℝ} {R : Box} :
    gap w g m (relit f (incidentE g vol s m) (incidentX g vol s m)) R = litGap w vol s g m f R := by
  unfold gap litGap relit
  congr 1
  refine Box.sum_congr _ fun i j _ => ?_
  simp only
  ring

/-- The incident wave continued everywhere. -/
noncomputable def allE (s : ℝ → ℝ) (y0 : ℝ) (g : Grid ℝ) (m : ℕ) (j : ℤ) : ℝ := s (m * g.dt - max 0 (j * g.dx - y0))
noncomputable def allX (s : ℝ → ℝ) (y0 : ℝ) (g : Grid ℝ) (m : ℕ) (j : ℤ) : ℝ := s ((m + 1 / 2) * g.dt - max 0 ((j + 1 / 2) * g.dx - y0))

theorem gap_lit {w : Spec.Wave} {g : Grid ℝ} {vol : Vol ℝ} {s : ℝ → ℝ} {y0 : ℝ} {m : ℕ} {f : Flds ℝ} {R : Box} :
    gap (w.lit s y0) g m (relit f (fun i j => incidentE g vol s m i j - allE s y0 g m j) (fun i j => incidentX g vol s m i j - allX s y0 g m j)) R = litGap w vol s g m f R := by
  unfold gap litGap relit
  congr 1
  refine Box.sum_congr _ fun i j _ => ?_
  simp only [Wave.nodeE, Wave.nodeX, Wave.nodeY, Wave.lit, allE, allX]
  ring

theorem entry_below {g : Grid ℝ} (hg : 0 < g.dx) {vol : Vol ℝ} {j : ℤ} (h : (g.toGrid vol.a).y ≤ j) : entry g vol < j * g.dx := by
  unfold entry
  have : ((g.toGrid vol.a).y : ℝ) ≤ j := by exact_mod_cast h
  nlinarith

theorem incidentE_outside {g : Grid ℝ} {vol : Vol ℝ} {s : ℝ → ℝ} {m : ℕ} {i j : ℤ} (h : ¬ InRegion (g.toGrid vol.a) (g.toGrid vol.b) i j) :
    incidentE g vol s m i j = 0 ∧ incidentX g vol s m i j = 0 := by
  unfold incidentE incidentX
  rw [if_neg h, if_neg fun k => h k.1]
  exact ⟨rfl, rfl⟩

theorem incidentE_inside {g : Grid ℝ} (hg : 0 < g.dx) {vol : Vol ℝ} {s : ℝ → ℝ} {m : ℕ} {i j : ℤ} (h : InRegion (g.toGrid vol.a) (g.toGrid vol.b) i j) (hj : j < (g.toGrid vol.b).y) :
    incidentE g vol s m i j = allE s (entry g vol) g m j ∧ incidentX g vol s m i j = allX s (entry g vol) g m j := by
  have e := entry_below hg h.2.2.1
  unfold incidentE incidentX allE allX planeE
  rw [if_pos h, if_pos ⟨h, h.1, h.2.1, by have := h.2.2.1; omega, by omega⟩, max_eq_right (by linarith), max_eq_right (by linarith)]
  exact ⟨rfl, rfl⟩

namespace Props

/-- A program as in C97, which may also set an incident wave before it adds the monitor. -/
structure LitWritten (now : ℕ → ℝ) (g : Grid ℝ) (cs1 cs2 later : List (Call ℝ)) (name : String) (a b : V2 ℝ) (tag : DftTag) (freq : List ℝ) (n : ℕ) (w4 : World ℝ) : Prop
    extends BoxReport now g cs1 cs2 later name a b tag freq n w4 where
  lights : Lights (simOps cs1)

/-- The scattering problem of C100: objects of passive simple media in the region `vol`, in which there is an incident plane wave with a signal that starts smoothly; the scattered
wave `w` starts from rest and solves Maxwell's equations with the current `J`, which the sources carry, and the current that the incident wave induces in the objects. -/
structure Scatters (g : Grid ℝ) (objs : List (Object ℝ)) (srcs : List (Source ℝ)) (vol : Vol ℝ) (s : ℝ → ℝ) (eps sig : ℝ → ℝ → ℝ) (epsMax sigMax : ℝ) (w : Spec.Wave)
    (S : ℝ → ℝ → Prop) (J : ℝ → ℝ → ℝ → ℝ) (τ M Ms δ : ℝ) : Prop where
  sound : ∀ o ∈ objs, BoxSound o
  clear : ∀ o ∈ objs, ClearOfUnguardedEdges g o
  passive : ∀ o ∈ objs, PassiveObject o
  epsMax : AtMost epsMax objs
  sigMax : ConductAtMost sigMax objs
  medium : MediumOf objs eps sig
  region : ClearRegion g (g.toGrid vol.a) (g.toGrid vol.b)
  within : AllWithin g vol objs
  signal : SmoothStart s Ms
  smooth : w.Smooth S g τ M
  steady : w.Steady g τ M
  even : w.Even g τ M
  driven : w.Driven S eps sig (fun t x y => J t x y + induced eps sig s (entry g vol) t x y) g τ
  current : CurrentAtMost (fun t x y => J t x y + induced eps sig s (entry g vol) t x y) g τ M
  walls : w.Walls g τ
  rest : w.AtRest g
  fits : ∀ s ∈ srcs, Fits g s
  nonneg : 0 ≤ δ
  carries : Spec.Carries g srcs eps sig J τ δ

section
variable {now : ℕ → ℝ} {g : Grid ℝ} {cs1 cs2 later : List (Call ℝ)} {name : String} {a b : V2 ℝ} {tag : DftTag} {freq : List ℝ} {n : ℕ} {w4 : World ℝ}
variable {objs : List (Object ℝ)} {srcs : List (Source ℝ)} {vol : Vol ℝ} {tp : TimeProfile ℝ} {eps sig : ℝ → ℝ → ℝ} {epsMax sigMax : ℝ} {w : Spec.Wave} {S : ℝ → ℝ → Prop}
variable {J : ℝ → ℝ → ℝ → ℝ} {τ M Ms δ : ℝ}

/-- The fields of the steps up to the last one. -/
theorem scattered_close (hw : g.Wide) (hl : Lawful g) (hT : g.T = 0) (p : Scatters g objs srcs vol tp.resp eps sig epsMax sigMax w S J τ M Ms δ) (hn : ((n : ℝ) + 1 / 2) * g.dt ≤ τ)
    (m : ℕ) (hm : m ≤ n) : ∃ c, (⟨objs, srcs, some (vol, tp)⟩ : Scene).run g m = .ok c ∧
      Real.sqrt (litGap w vol tp.resp g m c.f (updatedNodes g)) ≤ litError S g vol M Ms epsMax sigMax τ δ n := by
  have dt0 : 0 < g.dt := by rw [hl.dt]; linarith [hl.dx]
  obtain ⟨c, e1, e2⟩ := C100_scattering m g hw hl hT objs p.sound p.clear p.passive epsMax sigMax p.epsMax p.sigMax eps sig p.medium vol tp p.region p.within Ms p.signal w S J τ M δ
    p.smooth p.steady p.driven p.current p.walls p.rest srcs p.fits p.nonneg p.carries (earlier hm dt0 hn).1
  refine ⟨c, e1, e2.trans ?_⟩
  obtain ⟨k1, k2⟩ := incidentError_mono p.signal.nonneg dt0.le (rows_nonneg p.region) hm
  unfold litError
  exact add_le_add (add_le_add_right (mul_le_mul_of_nonneg_right (earlier hm dt0 hn).2 (Real.sqrt_nonneg _)) _) (mul_le_mul_of_nonneg_right (add_le_add k1 k2) (Real.sqrt_nonneg _))

/-- **C101**: a box around the region of the incident wave. What the monitor writes as flux is the energy that the scattered wave carries away, without the incident wave, up to the
error of the fields (C100), divided by the root of the size of a cell, and terms of first order in it. -/
theorem C101_scattered (h : LitWritten now g cs1 cs2 later name a b tag freq n w4) (ho : objectsOf (simOps cs1) = objs) (hsr : sourcesOf (simOps cs1) = srcs)
    (hwv : incidentOf (simOps cs1) = some (vol, tp)) (p : Scatters g objs srcs vol tp.resp eps sig epsMax sigMax w S J τ M Ms δ) (hn : ((n : ℝ) + 1 / 2) * g.dt ≤ τ) (har : BoxAround g vol a b) :
    HoldsBoxFlux w4 g name a b freq w (n * g.dt) (boxFlowError g (g.toGrid a) (g.toGrid b) M (n * g.dt) (litError S g vol M Ms epsMax sigMax τ δ n)) := by
  subst ho hsr
  obtain ⟨m0, w1, w2, w3, k0, k1, k2, k3⟩ := h.runs
  have dt0 : 0 < g.dt := by rw [h.lawful.dt]; linarith [h.lawful.dx]
  have n0 : (0 : ℝ) ≤ n := Nat.cast_nonneg n
  refine holdsBoxFlux_near h.toBoxReport k0 w1 w2 w3 k1 ⟨_, _, incidentOf (simOps cs1)⟩
    (fun s2 qs q1 q2 => shown_lit k1 h.lights h.advances (fun s hs C i j hd => (p.carries.electric s hs C i j hd).1) q1 q2) k2 k3 w τ M _
    (current_nonneg h.wide h.lawful h.closed p.current (by nlinarith)) p.steady p.even p.rest (by nlinarith) fun m hm => ?_
  obtain ⟨c, e1, e2⟩ := scattered_close h.wide h.lawful h.closed p hn m hm
  rw [hwv]
  refine ⟨c, _, e1, fun f i j hf => ?_, le_trans (le_of_eq (congrArg _ gap_relit)) e2⟩
  obtain ⟨-, k⟩ := face_near h.x.2.1 h.y.2.1 f hf
  obtain ⟨r1, r2, r3, r4⟩ := har
  obtain ⟨z1, z2⟩ := incidentE_outside (s := tp.resp) (m := m) (i := i) (j := j) (vol := vol) (g := g) fun hi => by
    obtain ⟨u1, u2, u3, u4⟩ := hi
    omega
  simp only [relit, z1, z2, sub_zero, and_self]

/-- **C101**: a box inside the region of the incident wave. What the monitor writes is the energy that the sum of the scattered wave and the plane wave carries out of the box. -/
theorem C101_total (h : LitWritten now g cs1 cs2 later name a b tag freq n w4) (ho : objectsOf (simOps cs1) = objs) (hsr : sourcesOf (simOps cs1) = srcs)
    (hwv : incidentOf (simOps cs1) = some (vol, tp)) (p : Scatters g objs srcs vol tp.resp eps sig epsMax sigMax w S J τ M Ms δ) (hn : ((n : ℝ) + 1 / 2) * g.dt ≤ τ) (hin : BoxWithin g vol a b) :
    HoldsBoxFlux w4 g name a b freq (w.lit tp.resp (entry g vol)) (n * g.dt)
      (boxFlowError g (g.toGrid a) (g.toGrid b) (litSize M Ms τ) (n * g.dt) (litError S g vol M Ms epsMax sigMax τ δ n)) := by
  subst ho hsr
  obtain ⟨m0, w1, w2, w3, k0, k1, k2, k3⟩ := h.runs
  have dt0 : 0 < g.dt := by rw [h.lawful.dt]; linarith [h.lawful.dx]
  have n0 : (0 : ℝ) ≤ n := Nat.cast_nonneg n
  have τ0 : 0 ≤ τ := le_trans (by positivity) hn
  have M0 : 0 ≤ M := current_nonneg h.wide h.lawful h.closed p.current τ0
  refine holdsBoxFlux_near h.toBoxReport k0 w1 w2 w3 k1 ⟨_, _, incidentOf (simOps cs1)⟩
    (fun s2 qs q1 q2 => shown_lit k1 h.lights h.advances (fun s hs C i j hd => (p.carries.electric s hs C i j hd).1) q1 q2) k2 k3 _ τ (litSize M Ms τ) _
    (M0.trans (litSize_ge τ0 p.signal).1) (lit_steady τ0 p.signal p.steady) (lit_even τ0 p.signal p.even) (lit_rest p.signal p.rest) (by nlinarith) fun m hm => ?_
  obtain ⟨c, e1, e2⟩ := scattered_close h.wide h.lawful h.closed p hn m hm
  rw [hwv]
  refine ⟨c, _, e1, fun f i j hf => ?_, le_trans (le_of_eq (congrArg _ gap_lit)) e2⟩
  obtain ⟨⟨u1, u2, u3, u4⟩, -⟩ := face_near h.x.2.1 h.y.2.1 f hf
  obtain ⟨r1, r2, r3, r4⟩ := hin
  obtain ⟨z1, z2⟩ := incidentE_inside h.lawful.dx (s := tp.resp) (m := m) (i := i) (j := j) (vol := vol) (g := g) ⟨by omega, by omega, by omega, by omega⟩ (by omega)
  simp only [relit, z1, z2, sub_self, sub_zero, and_self]

/-- **C101**: absorption. If the total field in the box has faded at the end of the program, the number in the file is minus the energy that it gives to the conductors and the sources in
the box: the incident wave brings this energy, but what it carries through the box does not count. -/
theorem C101_absorption (h : LitWritten now g cs1 cs2 later name a b tag freq n w4) (ho : objectsOf (simOps cs1) = objs) (hsr : sourcesOf (simOps cs1) = srcs)
    (hwv : incidentOf (simOps cs1) = some (vol, tp)) (p : Scatters g objs srcs vol tp.resp eps sig epsMax sigMax w S J τ M Ms δ) (hn : ((n : ℝ) + 1 / 2) * g.dt ≤ τ) (hin : BoxWithin g vol a b)
    (hme : Measurable fun z : ℝ × ℝ => eps z.1 z.2) (hS : Pieces S (g.toReal (g.toGrid a)) (g.toReal (g.toGrid b)))
    (hr : w.Regular S (g.toReal (g.toGrid a)) (g.toReal (g.toGrid b)) (n * g.dt)) (η : ℝ)
    (hη : (w.lit tp.resp (entry g vol)).Faded (g.toReal (g.toGrid a)) (g.toReal (g.toGrid b)) (n * g.dt) η) :
    HoldsAbsorption w4 g name a b freq (w.lit tp.resp (entry g vol)) (fun t x y => sig x y * (w.lit tp.resp (entry g vol)).E t x y + J t x y) (n * g.dt) fun f =>
      boxFlowError g (g.toGrid a) (g.toGrid b) (litSize M Ms τ) (n * g.dt) (litError S g vol M Ms epsMax sigMax τ δ n) f +
        remainder (g.toReal (g.toGrid a)) (g.toReal (g.toGrid b)) (2 + epsMax) η (litSize M Ms τ) (n * g.dt) := by
  have dt0 : 0 < g.dt := by rw [h.lawful.dt]; linarith [h.lawful.dx]
  have n0 : (0 : ℝ) ≤ n := Nat.cast_nonneg n
  have τ0 : 0 ≤ τ := le_trans (by positivity) hn
  have M0 : 0 ≤ M := current_nonneg h.wide h.lawful h.closed p.current τ0
  have up : entry g vol < (g.toReal (g.toGrid a)).y := by
    have := entry_below h.lawful.dx (vol := vol) (j := (g.toGrid a).y) hin.2.1.le
    simpa [Grid.toReal, mul_comm] using this
  exact absorbed_close h.toBoxReport (M0.trans (litSize_ge τ0 p.signal).1) (lit_smooth τ0 p.signal p.smooth) (lit_steady τ0 p.signal p.steady) (lit_even τ0 p.signal p.even)
    (lit_driven p.driven) (lit_rest p.signal p.rest) (by nlinarith) (lit_settled p.signal up hS hr hη)
    (fun x y => ⟨(medium_bounds p.medium p.passive p.epsMax x y).1, (medium_bounds p.medium p.passive p.epsMax x y).2.1⟩) hme (C101_total h ho hsr hwv p hn hin)

/-- **C101**: bodies in an incident wave supply no energy. If the box has no source in it, the number in the file is not positive, up to the error. -/
theorem C101_passive (h : LitWritten now g cs1 cs2 later name a b tag freq n w4) (ho : objectsOf (simOps cs1) = objs) (hsr : sourcesOf (simOps cs1) = srcs)
    (hwv : incidentOf (simOps cs1) = some (vol, tp)) (p : Scatters g objs srcs vol tp.resp eps sig epsMax sigMax w S J τ M Ms δ) (hn : ((n : ℝ) + 1 / 2) * g.dt ≤ τ) (hin : BoxWithin g vol a b)
    (hme : Measurable fun z : ℝ × ℝ => eps z.1 z.2) (hS : Pieces S (g.toReal (g.toGrid a)) (g.toReal (g.toGrid b)))
    (hr : w.Regular S (g.toReal (g.toGrid a)) (g.toReal (g.toGrid b)) (n * g.dt)) (η : ℝ)
    (hη : (w.lit tp.resp (entry g vol)).Faded (g.toReal (g.toGrid a)) (g.toReal (g.toGrid b)) (n * g.dt) η)
    (hno : NoCurrent J (g.toReal (g.toGrid a)) (g.toReal (g.toGrid b)) (n * g.dt)) :
    HoldsNoSupply w4 g name freq fun f =>
      boxFlowError g (g.toGrid a) (g.toGrid b) (litSize M Ms τ) (n * g.dt) (litError S g vol M Ms epsMax sigMax τ δ n) f +
        remainder (g.toReal (g.toGrid a)) (g.toReal (g.toGrid b)) (2 + epsMax) η (litSize M Ms τ) (n * g.dt) := by
  have dt0 : 0 < g.dt := by rw [h.lawful.dt]; linarith [h.lawful.dx]
  have n0 : (0 : ℝ) ≤ n := Nat.cast_nonneg n
  have τ0 : 0 ≤ τ := le_trans (by positivity) hn
  have up : entry g vol < (g.toReal (g.toGrid a)).y := by
    have := entry_below h.lawful.dx (vol := vol) (j := (g.toGrid a).y) hin.2.1.le
    simpa [Grid.toReal, mul_comm] using this
  have st := lit_settled p.signal up hS hr hη
  have key := absorption_supply (k := 0) (C101_absorption h ho hsr hwv p hn hin hme hS hr η hη) fun f => by
    obtain ⟨c1, c2, c3⟩ := box_corners h.toBoxReport
    have := work_ge (w := w.lit tp.resp (entry g vol)) (C := fun t x y => sig x y * (w.lit tp.resp (entry g vol)).E t x y + J t x y) (f := f) (T := n * g.dt) c1 c2 st.pieces le_rfl
      fun z hz => by
        have := workAt_conductor (C := fun t x y => sig x y * (w.lit tp.resp (entry g vol)).E t x y + J t x y) (lit_smooth (y0 := entry g vol) τ0 p.signal p.smooth) (by positivity)
          (by nlinarith : n * g.dt ≤ τ) (c3 z.1 z.2 (core_sub hz).1) (core_sub hz).2 (fun t ht => by rw [hno t ht z.1 z.2 (core_sub hz).1, add_zero]) f
        rw [this, neg_zero]
        exact mul_nonneg (medium_bounds p.medium p.passive p.epsMax z.1 z.2).2.2 (re_conj_self _)
    rw [mul_zero] at this
    exact this
  simpa using key

end

end Props
end Qbox
