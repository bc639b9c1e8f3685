import Verif.Props.LitPolarProps
import Verif.Props.LitSpectraProps
import Verif.Props.CrossProps

/-! # What monitors record of the scattering by Debye and Drude bodies (C107) -/

namespace Qbox
open Scalar Spec MeasureTheory
namespace Props

/-- The error of the fields of a program with an incident wave and media with memory after `n` steps (C106). -/
noncomputable def metalError (S : ℝ → ℝ → Prop) (g : Grid ℝ) (vol : Vol ℝ) (M Ms epsMax sigMax q τ δ : ℝ) (n : ℕ) : ℝ :=
  restError S g M (epsMax + q ^ 2) + n * g.dt * polarError S g (2 * M) epsMax sigMax q (δ + inducedError Ms g.dt τ (rows g vol) (epsMax - 1 + sigMax + q)) +
    (incidentError Ms g.dt n (rows g vol) + incidentErrorX Ms g.dt n (rows g vol)) * Real.sqrt (g.Lx * g.Ly)

/-- A scattering problem with media with memory: what C106 asks of a program and of the wave. -/
structure ScattersPolar (g : Grid ℝ) (objs : List (Object ℝ)) (srcs : List (Source ℝ)) (vol : Vol ℝ) (s : ℝ → ℝ) (eps sig : ℝ → ℝ → ℝ) (res : ℝ → ℝ → Response) (epsMax sigMax q : ℝ)
    (w : Spec.Wave) (S : ℝ → ℝ → Prop) (K Kt J : ℝ → ℝ → ℝ → ℝ) (τ M Ms δ : ℝ) : Prop where
  sound : ∀ o ∈ objs, BoxSound o
  clear : ∀ o ∈ objs, ClearOfUnguardedEdges g o
  passive : ∀ o ∈ objs, PassiveKind o.mat.kind
  names : OneMeaning objs
  uncovered : Uncovered g objs
  matter : MatterOf objs eps sig res
  most : MatterAtMost eps sig res epsMax sigMax q
  region : ClearRegion g (g.toGrid vol.a) (g.toGrid vol.b)
  within : AllWithin g vol objs
  signal : SmoothStart s Ms
  bounded : SignalAtMost s τ M
  smooth : w.Smooth S g τ M
  steady : w.Steady g τ M
  even : w.Even g τ M
  driven : w.Driven S eps sig (fun t x y => K t x y + (J t x y + induced eps sig s (entry g vol) t x y)) g τ
  polarized : (w.illumined s (entry g vol)).Polarized K Kt S res g τ M
  current : CurrentAtMost (fun t x y => J t x y + induced eps sig s (entry g vol) t x y) g τ M
  walls : w.Walls g τ
  rest : w.AtRest g
  still : ∀ x y, InDomain g x y → K 0 x y = 0
  fits : ∀ s ∈ srcs, Fits g s
  carries : Spec.Carries g srcs eps sig J τ δ
  outside : OutsideMemory g objs srcs

section
variable {now : ℕ → ℝ} {g : Grid ℝ} {cs1 cs2 later : List (Call ℝ)} {name : String} {a b : V2 ℝ} {sg : Sgn} {tag : DftTag} {freq : List ℝ} {n : ℕ} {w4 : World ℝ}
variable {objs : List (Object ℝ)} {srcs : List (Source ℝ)} {vol : Vol ℝ} {tp : TimeProfile ℝ} {eps sig : ℝ → ℝ → ℝ} {res : ℝ → ℝ → Response} {epsMax sigMax q : ℝ} {w : Spec.Wave}
variable {S : ℝ → ℝ → Prop} {K Kt J : ℝ → ℝ → ℝ → ℝ} {τ M Ms δ : ℝ}

/-- The fields of the steps up to the last one. -/
theorem metal_close (hw : g.Wide) (hl : Lawful g) (hT : g.T = 0) (p : ScattersPolar g objs srcs vol tp.resp eps sig res epsMax sigMax q w S K Kt J τ M Ms δ)
    (hn : ((n : ℝ) + 1 / 2) * g.dt ≤ τ) (m : ℕ) (hm : m ≤ n) : ∃ c, (⟨objs, srcs, some (vol, tp)⟩ : Scene).run g m = .ok c ∧
      Real.sqrt (litGap w vol tp.resp g m c.f (updatedNodes g)) ≤ metalError S g vol M Ms epsMax sigMax q τ δ n := by
  have dt0 : 0 < g.dt := by rw [hl.dt]; linarith [hl.dx]
  obtain ⟨c, e1, e2⟩ := C106_scattering m g hw hl hT objs p.sound p.clear p.passive p.names p.uncovered eps sig res p.matter epsMax sigMax q p.most vol tp p.region p.within Ms p.signal w K Kt J
    S τ M δ p.smooth p.steady p.bounded p.driven p.polarized p.current p.walls p.rest p.still srcs p.fits p.carries p.outside (earlier hm dt0 hn).1
  refine ⟨c, e1, e2.trans ?_⟩
  obtain ⟨k1, k2⟩ := incidentError_mono p.signal.nonneg dt0.le (rows_nonneg p.region) hm
  unfold metalError
  exact add_le_add (add_le_add_right (mul_le_mul_of_nonneg_right (earlier hm dt0 hn).2 (Real.sqrt_nonneg _)) _) (mul_le_mul_of_nonneg_right (add_le_add k1 k2) (Real.sqrt_nonneg _))

/-- Beside the region the fields are those of the scattered wave. -/
theorem metal_beside (hw : g.Wide) (hl : Lawful g) (hT : g.T = 0) (p : ScattersPolar g objs srcs vol tp.resp eps sig res epsMax sigMax q w S K Kt J τ M Ms δ)
    (hn : ((n : ℝ) + 1 / 2) * g.dt ≤ τ) {l h : V2 ℤ} (hb : NodesBeside g vol l h) (m : ℕ) (hm : m ≤ n) : ∃ c F, (⟨objs, srcs, some (vol, tp)⟩ : Scene).run g m = .ok c ∧
      (∀ i j, l.x ≤ i ∧ i ≤ h.x ∧ l.y ≤ j ∧ j ≤ h.y → c.f.Ez.val i j = F.Ez.val i j ∧ c.f.Hx.val i j = F.Hx.val i j ∧ c.f.Hy.val i j = F.Hy.val i j) ∧
      Real.sqrt (gap w g m F (updatedNodes g)) ≤ metalError S g vol M Ms epsMax sigMax q τ δ n := by
  obtain ⟨c, e1, e2⟩ := metal_close hw hl hT p hn m hm
  refine ⟨c, _, e1, fun i j hij => ?_, le_trans (le_of_eq (congrArg _ gap_relit)) e2⟩
  obtain ⟨z1, z2⟩ := incidentE_outside (s := tp.resp) (m := m) (i := i) (j := j) (vol := vol) (g := g) fun hi => by
    obtain ⟨u1, u2, u3, u4⟩ := hi
    unfold NodesBeside at hb
    omega
  simp only [relit, z1, z2, sub_zero, and_self]

/-- In the region the fields are those of the sum of the scattered wave and the plane wave. -/
theorem metal_within (hw : g.Wide) (hl : Lawful g) (hT : g.T = 0) (p : ScattersPolar g objs srcs vol tp.resp eps sig res epsMax sigMax q w S K Kt J τ M Ms δ)
    (hn : ((n : ℝ) + 1 / 2) * g.dt ≤ τ) {l h : V2 ℤ} (hb : NodesWithin g vol l h) (m : ℕ) (hm : m ≤ n) : ∃ c F, (⟨objs, srcs, some (vol, tp)⟩ : Scene).run g m = .ok c ∧
      (∀ i j, l.x ≤ i ∧ i ≤ h.x ∧ l.y ≤ j ∧ j ≤ h.y → c.f.Ez.val i j = F.Ez.val i j ∧ c.f.Hx.val i j = F.Hx.val i j ∧ c.f.Hy.val i j = F.Hy.val i j) ∧
      Real.sqrt (gap (w.lit tp.resp (entry g vol)) g m F (updatedNodes g)) ≤ metalError S g vol M Ms epsMax sigMax q τ δ n := by
  obtain ⟨c, e1, e2⟩ := metal_close hw hl hT p hn m hm
  refine ⟨c, _, e1, fun i j hij => ?_, le_trans (le_of_eq (congrArg _ gap_lit)) e2⟩
  obtain ⟨r1, r2, r3, r4⟩ := hb
  obtain ⟨z1, z2⟩ := incidentE_inside hl.dx (s := tp.resp) (m := m) (i := i) (j := j) (vol := vol) (g := g) ⟨by omega, by omega, by omega, by omega⟩ (by omega)
  simp only [relit, z1, z2, sub_self, sub_zero, and_self]

/-- The polarization current belongs to the total field above the entry of the wave. -/
theorem lit_polarized {s : ℝ → ℝ} {y0 : ℝ} (hτ : 0 ≤ τ) (hs : SmoothStart s Ms) (h : (w.illumined s y0).Polarized K Kt S res g τ M) :
    (w.lit s y0).Polarized K Kt (fun x y => S x y ∧ y0 < y) res g τ (litSize M Ms τ) := by
  have hM := (litSize_ge (M := M) hτ hs).1
  refine ⟨fun t x y t0 t1 d k => ?_, fun x y d k => ?_, fun t x y t0 t1 d => (h.atMost t x y t0 t1 d).trans hM,
    fun t t' x y t0 t1 t2 d => (h.steady t t' x y t0 t1 t2 d).trans (mul_le_mul_of_nonneg_right hM (sub_nonneg.mpr t1))⟩
  · have e := h.law t x y t0 t1 d k.1
    simp only [Wave.illumined, planeE, planeEt, Wave.lit, max_eq_right (by linarith [k.2] : (0 : ℝ) ≤ y - y0)] at e ⊢
    exact e
  · obtain ⟨f2, f3, e⟩ := h.tame x y d k.1
    exact ⟨f2, f3, fun s h1 h2 => let ⟨a, b, c, d, e⟩ := e s h1 h2; ⟨a, b, c, d.trans hM, e.trans hM⟩⟩

/-- **C107**: a box around the region of the incident wave. What the monitor writes as flux is the energy that the wave scattered by the bodies carries away, without the incident wave, up to
the error of the fields (C106), divided by the root of the size of a cell, and terms of first order in it. -/
theorem C107_scattered (h : LitWritten now g cs1 cs2 later name a b tag freq n w4) (ho : objectsOf (simOps cs1) = objs) (hsr : sourcesOf (simOps cs1) = srcs)
    (hwv : incidentOf (simOps cs1) = some (vol, tp)) (p : ScattersPolar g objs srcs vol tp.resp eps sig res epsMax sigMax q w S K Kt J τ M Ms δ) (hn : ((n : ℝ) + 1 / 2) * g.dt ≤ τ)
    (har : BoxAround g vol a b) :
    HoldsBoxFlux w4 g name a b freq w (n * g.dt) (boxFlowError g (g.toGrid a) (g.toGrid b) M (n * g.dt) (metalError S g vol M Ms epsMax sigMax q τ δ n)) := by
  subst ho hsr
  obtain ⟨m0, w1, w2, w3, k0, k1, k2, k3⟩ := h.runs
  have dt0 : 0 < g.dt := by rw [h.lawful.dt]; linarith [h.lawful.dx]
  have n0 : (0 : ℝ) ≤ n := Nat.cast_nonneg n
  refine holdsBoxFlux_near h.toBoxReport k0 w1 w2 w3 k1 ⟨_, _, incidentOf (simOps cs1)⟩
    (fun s2 qs q1 q2 => shown_lit k1 h.lights h.advances (fun s hs C i j hd => (p.carries.electric s hs C i j hd).1) q1 q2) k2 k3 w τ M _
    (current_nonneg h.wide h.lawful h.closed p.current (by nlinarith)) p.steady p.even p.rest (by nlinarith) fun m hm => ?_
  obtain ⟨c, e1, e2⟩ := metal_close h.wide h.lawful h.closed p hn m hm
  rw [hwv]
  refine ⟨c, _, e1, fun f i j hf => ?_, le_trans (le_of_eq (congrArg _ gap_relit)) e2⟩
  obtain ⟨-, k⟩ := face_near h.x.2.1 h.y.2.1 f hf
  obtain ⟨r1, r2, r3, r4⟩ := har
  obtain ⟨z1, z2⟩ := incidentE_outside (s := tp.resp) (m := m) (i := i) (j := j) (vol := vol) (g := g) fun hi => by
    obtain ⟨u1, u2, u3, u4⟩ := hi
    omega
  simp only [relit, z1, z2, sub_zero, and_self]

/-- **C107**: a box inside the region of the incident wave. What the monitor writes is the energy that the sum of the scattered wave and the plane wave carries out of the box. -/
theorem C107_total (h : LitWritten now g cs1 cs2 later name a b tag freq n w4) (ho : objectsOf (simOps cs1) = objs) (hsr : sourcesOf (simOps cs1) = srcs)
    (hwv : incidentOf (simOps cs1) = some (vol, tp)) (p : ScattersPolar g objs srcs vol tp.resp eps sig res epsMax sigMax q w S K Kt J τ M Ms δ) (hn : ((n : ℝ) + 1 / 2) * g.dt ≤ τ)
    (hin : BoxWithin g vol a b) :
    HoldsBoxFlux w4 g name a b freq (w.lit tp.resp (entry g vol)) (n * g.dt)
      (boxFlowError g (g.toGrid a) (g.toGrid b) (litSize M Ms τ) (n * g.dt) (metalError S g vol M Ms epsMax sigMax q τ δ n)) := by
  subst ho hsr
  obtain ⟨m0, w1, w2, w3, k0, k1, k2, k3⟩ := h.runs
  have dt0 : 0 < g.dt := by rw [h.lawful.dt]; linarith [h.lawful.dx]
  have n0 : (0 : ℝ) ≤ n := Nat.cast_nonneg n
  have τ0 : 0 ≤ τ := le_trans (by positivity) hn
  have M0 : 0 ≤ M := current_nonneg h.wide h.lawful h.closed p.current τ0
  refine holdsBoxFlux_near h.toBoxReport k0 w1 w2 w3 k1 ⟨_, _, incidentOf (simOps cs1)⟩
    (fun s2 qs q1 q2 => shown_lit k1 h.lights h.advances (fun s hs C i j hd => (p.carries.electric s hs C i j hd).1) q1 q2) k2 k3 _ τ (litSize M Ms τ) _
    (M0.trans (litSize_ge τ0 p.signal).1) (lit_steady τ0 p.signal p.steady) (lit_even τ0 p.signal p.even) (lit_rest p.signal p.rest) (by nlinarith) fun m hm => ?_
  obtain ⟨c, e1, e2⟩ := metal_close h.wide h.lawful h.closed p hn m hm
  rw [hwv]
  refine ⟨c, _, e1, fun f i j hf => ?_, le_trans (le_of_eq (congrArg _ gap_lit)) e2⟩
  obtain ⟨⟨u1, u2, u3, u4⟩, -⟩ := face_near h.x.2.1 h.y.2.1 f hf
  obtain ⟨r1, r2, r3, r4⟩ := hin
  obtain ⟨z1, z2⟩ := incidentE_inside h.lawful.dx (s := tp.resp) (m := m) (i := i) (j := j) (vol := vol) (g := g) ⟨by omega, by omega, by omega, by omega⟩ (by omega)
  simp only [relit, z1, z2, sub_self, sub_zero, and_self]

/-- **C107**: absorption. If the total field in the box has faded at the end of the program, the number in the file is minus the energy that it gives to conductors, to the currents in the
media with memory and to the sources in the box. -/
theorem C107_absorption (h : LitWritten now g cs1 cs2 later name a b tag freq n w4) (ho : objectsOf (simOps cs1) = objs) (hsr : sourcesOf (simOps cs1) = srcs)
    (hwv : incidentOf (simOps cs1) = some (vol, tp)) (p : ScattersPolar g objs srcs vol tp.resp eps sig res epsMax sigMax q w S K Kt J τ M Ms δ) (hn : ((n : ℝ) + 1 / 2) * g.dt ≤ τ)
    (hin : BoxWithin g vol a b) (hme : Measurable fun z : ℝ × ℝ => eps z.1 z.2) (hS : Pieces S (g.toReal (g.toGrid a)) (g.toReal (g.toGrid b)))
    (hr : w.Regular S (g.toReal (g.toGrid a)) (g.toReal (g.toGrid b)) (n * g.dt)) (η : ℝ)
    (hη : (w.lit tp.resp (entry g vol)).Faded (g.toReal (g.toGrid a)) (g.toReal (g.toGrid b)) (n * g.dt) η) :
    HoldsAbsorption w4 g name a b freq (w.lit tp.resp (entry g vol)) (fun t x y => sig x y * (w.lit tp.resp (entry g vol)).E t x y + (K t x y + J t x y)) (n * g.dt) fun f =>
      boxFlowError g (g.toGrid a) (g.toGrid b) (litSize M Ms τ) (n * g.dt) (metalError S g vol M Ms epsMax sigMax q τ δ n) f +
        remainder (g.toReal (g.toGrid a)) (g.toReal (g.toGrid b)) (2 + epsMax) η (litSize M Ms τ) (n * g.dt) := by
  have dt0 : 0 < g.dt := by rw [h.lawful.dt]; linarith [h.lawful.dx]
  have n0 : (0 : ℝ) ≤ n := Nat.cast_nonneg n
  have τ0 : 0 ≤ τ := le_trans (by positivity) hn
  have M0 : 0 ≤ M := current_nonneg h.wide h.lawful h.closed p.current τ0
  have up : entry g vol < (g.toReal (g.toGrid a)).y := by
    have := entry_below h.lawful.dx (vol := vol) (j := (g.toGrid a).y) hin.2.1.le
    simpa [Grid.toReal, mul_comm] using this
  have dr : w.Driven S eps sig (fun t x y => (K t x y + J t x y) + induced eps sig tp.resp (entry g vol) t x y) g τ := by
    simp only [add_assoc]
    exact p.driven
  exact absorbed_close h.toBoxReport (M0.trans (litSize_ge τ0 p.signal).1) (lit_smooth τ0 p.signal p.smooth) (lit_steady τ0 p.signal p.steady) (lit_even τ0 p.signal p.even)
    (lit_driven (J := fun t x y => K t x y + J t x y) dr) (lit_rest p.signal p.rest) (by nlinarith) (lit_settled p.signal up hS hr hη)
    (fun x y => ⟨(matter_bounds p.matter p.passive x y).1, p.most.eps x y⟩) hme (C107_total h ho hsr hwv p hn hin)

/-- **C107**: bodies with memory in an incident wave supply no energy. If the box has no source in it and the currents in the bodies have faded at the end, the number in the file is not
positive, up to the error. -/
theorem C107_passive (h : LitWritten now g cs1 cs2 later name a b tag freq n w4) (ho : objectsOf (simOps cs1) = objs) (hsr : sourcesOf (simOps cs1) = srcs)
    (hwv : incidentOf (simOps cs1) = some (vol, tp)) (p : ScattersPolar g objs srcs vol tp.resp eps sig res epsMax sigMax q w S K Kt J τ M Ms δ) (hn : ((n : ℝ) + 1 / 2) * g.dt ≤ τ)
    (hin : BoxWithin g vol a b) (hme : Measurable fun z : ℝ × ℝ => eps z.1 z.2) (hS : Pieces S (g.toReal (g.toGrid a)) (g.toReal (g.toGrid b)))
    (hr : w.Regular S (g.toReal (g.toGrid a)) (g.toReal (g.toGrid b)) (n * g.dt)) (η : ℝ) (h0 : 0 ≤ η)
    (hη : (w.lit tp.resp (entry g vol)).Faded (g.toReal (g.toGrid a)) (g.toReal (g.toGrid b)) (n * g.dt) η)
    (hno : NoCurrent J (g.toReal (g.toGrid a)) (g.toReal (g.toGrid b)) (n * g.dt))
    (hfK : ∀ x y, (x, y) ∈ between (g.toReal (g.toGrid a)) (g.toReal (g.toGrid b)) → |K (n * g.dt) x y| ≤ η) :
    HoldsNoSupply w4 g name freq fun f =>
      boxFlowError g (g.toGrid a) (g.toGrid b) (litSize M Ms τ) (n * g.dt) (metalError S g vol M Ms epsMax sigMax q τ δ n) f +
        remainder (g.toReal (g.toGrid a)) (g.toReal (g.toGrid b)) (2 + epsMax + q ^ 2) η (litSize M Ms τ) (n * g.dt) := by
  have dt0 : 0 < g.dt := by rw [h.lawful.dt]; linarith [h.lawful.dx]
  have n0 : (0 : ℝ) ≤ n := Nat.cast_nonneg n
  have τ0 : 0 ≤ τ := le_trans (by positivity) hn
  have M0 : 0 ≤ M := current_nonneg h.wide h.lawful h.closed p.current τ0
  have L0 := M0.trans (litSize_ge (M := M) τ0 p.signal).1
  have up : entry g vol < (g.toReal (g.toGrid a)).y := by
    have := entry_below h.lawful.dx (vol := vol) (j := (g.toGrid a).y) hin.2.1.le
    simpa [Grid.toReal, mul_comm] using this
  have st := lit_settled p.signal up hS hr hη
  have hsm := lit_smooth (y0 := entry g vol) τ0 p.signal p.smooth
  have hK := lit_polarized τ0 p.signal p.polarized
  obtain ⟨c1, c2, c3⟩ := box_corners h.toBoxReport
  obtain ⟨F, k1, k2⟩ := absorption_supply (C107_absorption h ho hsr hwv p hn hin hme hS hr η hη) fun f =>
    work_ge (w := w.lit tp.resp (entry g vol)) (f := f) (T := n * g.dt) c1 c2 st.pieces (k := q ^ 2 * (η * (litSize M Ms τ * (n * g.dt) * (n * g.dt)))) (by positivity) fun z hz => by
      have dm := c3 z.1 z.2 (core_sub hz).1
      refine (response_work L0 hsm (lit_steady τ0 p.signal p.steady) (lit_rest p.signal p.rest) hK p.still (by positivity) (by nlinarith : n * g.dt ≤ τ) dm (core_sub hz).2
        (matter_bounds p.matter p.passive z.1 z.2).2.2 (p.most.res z.1 z.2) (hη z.1 z.2 (core_sub hz).1).1 (hfK z.1 z.2 (core_sub hz).1) f).trans ?_
      refine workAt_memory (sig := sig) hsm (by positivity) (by nlinarith : n * g.dt ≤ τ) dm (core_sub hz).2 (fun t ht => ?_) (matter_bounds p.matter p.passive z.1 z.2).2.1 (fun t ht => ?_) f
      · obtain ⟨f2, f3, k⟩ := hK.tame z.1 z.2 dm (core_sub hz).2
        exact (k t ht.1 (ht.2.trans (by nlinarith))).1.continuousAt.continuousWithinAt
      · rw [hno t ht z.1 z.2 (core_sub hz).1, add_zero]
  refine ⟨F, k1, fun f => (k2 f).trans (le_of_eq ?_)⟩
  unfold remainder
  ring

/-- **C107**: a volume monitor beside the region writes the spectra of the scattered wave. -/
theorem C107_spectra_scattered (h : LitVolume now g cs1 cs2 later name a b tag freq n w4) (ho : objectsOf (simOps cs1) = objs) (hsr : sourcesOf (simOps cs1) = srcs)
    (hwv : incidentOf (simOps cs1) = some (vol, tp)) (p : ScattersPolar g objs srcs vol tp.resp eps sig res epsMax sigMax q w S K Kt J τ M Ms δ) (hn : ((n : ℝ) + 1 / 2) * g.dt ≤ τ)
    (hb : NodesBeside g vol (g.toGrid a) (g.toGrid b)) :
    HoldsSpectra w4 g name a b tag freq w (n * g.dt) (spectralError g M (n * g.dt) (metalError S g vol M Ms epsMax sigMax q τ δ n)) := by
  subst ho hsr
  obtain ⟨w1, w2, w3, k1, k2, k3⟩ := h.runs
  have dt0 : 0 < g.dt := by rw [h.lawful.dt]; linarith [h.lawful.dx]
  have n0 : (0 : ℝ) ≤ n := Nat.cast_nonneg n
  exact spectra_near now g h.lawful h.closed cs1 cs2 later name a b tag freq h.left h.lower h.among w1 w2 w3 w4 k1 h.advances ⟨_, _, incidentOf (simOps cs1)⟩
    (fun s2 qs q1 q2 => shown_lit k1 h.lights h.advances (fun s hs C i j hd => (p.carries.electric s hs C i j hd).1) q1 q2) k2 k3 n h.steps w τ M _
    (current_nonneg h.wide h.lawful h.closed p.current (by nlinarith)) p.steady p.rest (by nlinarith) fun m hm => by
      obtain ⟨c, F, e1, e2, e3⟩ := metal_beside h.wide h.lawful h.closed p hn hb m hm
      rw [hwv]
      exact ⟨c, F, e1, fun i j hij => e2 i j ⟨hij.1.1, hij.1.2, hij.2.1, hij.2.2⟩, e3⟩

/-- **C107**: a volume monitor in the region writes the spectra of the total wave. -/
theorem C107_spectra_total (h : LitVolume now g cs1 cs2 later name a b tag freq n w4) (ho : objectsOf (simOps cs1) = objs) (hsr : sourcesOf (simOps cs1) = srcs)
    (hwv : incidentOf (simOps cs1) = some (vol, tp)) (p : ScattersPolar g objs srcs vol tp.resp eps sig res epsMax sigMax q w S K Kt J τ M Ms δ) (hn : ((n : ℝ) + 1 / 2) * g.dt ≤ τ)
    (hb : NodesWithin g vol (g.toGrid a) (g.toGrid b)) :
    HoldsSpectra w4 g name a b tag freq (w.lit tp.resp (entry g vol)) (n * g.dt)
      (spectralError g (litSize M Ms τ) (n * g.dt) (metalError S g vol M Ms epsMax sigMax q τ δ n)) := by
  subst ho hsr
  obtain ⟨w1, w2, w3, k1, k2, k3⟩ := h.runs
  have dt0 : 0 < g.dt := by rw [h.lawful.dt]; linarith [h.lawful.dx]
  have n0 : (0 : ℝ) ≤ n := Nat.cast_nonneg n
  have τ0 : 0 ≤ τ := le_trans (by positivity) hn
  have M0 : 0 ≤ M := current_nonneg h.wide h.lawful h.closed p.current τ0
  exact spectra_near now g h.lawful h.closed cs1 cs2 later name a b tag freq h.left h.lower h.among w1 w2 w3 w4 k1 h.advances ⟨_, _, incidentOf (simOps cs1)⟩
    (fun s2 qs q1 q2 => shown_lit k1 h.lights h.advances (fun s hs C i j hd => (p.carries.electric s hs C i j hd).1) q1 q2) k2 k3 n h.steps _ τ (litSize M Ms τ) _
    (M0.trans (litSize_ge τ0 p.signal).1) (lit_steady τ0 p.signal p.steady) (lit_rest p.signal p.rest) (by nlinarith) fun m hm => by
      obtain ⟨c, F, e1, e2, e3⟩ := metal_within h.wide h.lawful h.closed p hn hb m hm
      rw [hwv]
      exact ⟨c, F, e1, fun i j hij => e2 i j ⟨hij.1.1, hij.1.2, hij.2.1, hij.2.2⟩, e3⟩

/-- **C107**: a surface monitor beside the region writes the energy that the scattered wave carries through its line. -/
theorem C107_flux_scattered (h : LitLine now g cs1 cs2 later name a b sg tag freq n w4) (ho : objectsOf (simOps cs1) = objs) (hsr : sourcesOf (simOps cs1) = srcs)
    (hwv : incidentOf (simOps cs1) = some (vol, tp)) (p : ScattersPolar g objs srcs vol tp.resp eps sig res epsMax sigMax q w S K Kt J τ M Ms δ) (hn : ((n : ℝ) + 1 / 2) * g.dt ≤ τ)
    (hb : NodesBeside g vol (lineLow g a b) (lineHigh g a b)) :
    HoldsFlux w4 g name a b sg freq w (n * g.dt) (flowError g (cells g a b) M (n * g.dt) (metalError S g vol M Ms epsMax sigMax q τ δ n)) := by
  subst ho hsr
  obtain ⟨s, w1, w2, w3, k0, k1, k2, k3⟩ := h.runs
  have dt0 : 0 < g.dt := by rw [h.lawful.dt]; linarith [h.lawful.dx]
  have n0 : (0 : ℝ) ≤ n := Nat.cast_nonneg n
  exact flux_near now g h.lawful h.fine cs1 cs2 later name a b sg s tag h.records freq k0 h.line h.ax h.ay h.bx h.by' w1 w2 w3 w4 k1 h.advances ⟨_, _, incidentOf (simOps cs1)⟩
    (fun s2 qs q1 q2 => shown_lit k1 h.lights h.advances (fun s hs C i j hd => (p.carries.electric s hs C i j hd).1) q1 q2) k2 k3 n h.steps w τ M _
    (current_nonneg h.wide h.lawful h.closed p.current (by nlinarith)) p.steady p.even p.rest (by nlinarith) fun m hm => by
      obtain ⟨c, F, e1, e2, e3⟩ := metal_beside h.wide h.lawful h.closed p hn hb m hm
      rw [hwv]
      exact ⟨c, F, e1, e2, e3⟩

/-- **C107**: a surface monitor in the region writes the energy that the total wave carries through its line. -/
theorem C107_flux_total (h : LitLine now g cs1 cs2 later name a b sg tag freq n w4) (ho : objectsOf (simOps cs1) = objs) (hsr : sourcesOf (simOps cs1) = srcs)
    (hwv : incidentOf (simOps cs1) = some (vol, tp)) (p : ScattersPolar g objs srcs vol tp.resp eps sig res epsMax sigMax q w S K Kt J τ M Ms δ) (hn : ((n : ℝ) + 1 / 2) * g.dt ≤ τ)
    (hb : NodesWithin g vol (lineLow g a b) (lineHigh g a b)) :
    HoldsFlux w4 g name a b sg freq (w.lit tp.resp (entry g vol)) (n * g.dt)
      (flowError g (cells g a b) (litSize M Ms τ) (n * g.dt) (metalError S g vol M Ms epsMax sigMax q τ δ n)) := by
  subst ho hsr
  obtain ⟨s, w1, w2, w3, k0, k1, k2, k3⟩ := h.runs
  have dt0 : 0 < g.dt := by rw [h.lawful.dt]; linarith [h.lawful.dx]
  have n0 : (0 : ℝ) ≤ n := Nat.cast_nonneg n
  have τ0 : 0 ≤ τ := le_trans (by positivity) hn
  have M0 : 0 ≤ M := current_nonneg h.wide h.lawful h.closed p.current τ0
  exact flux_near now g h.lawful h.fine cs1 cs2 later name a b sg s tag h.records freq k0 h.line h.ax h.ay h.bx h.by' w1 w2 w3 w4 k1 h.advances ⟨_, _, incidentOf (simOps cs1)⟩
    (fun s2 qs q1 q2 => shown_lit k1 h.lights h.advances (fun s hs C i j hd => (p.carries.electric s hs C i j hd).1) q1 q2) k2 k3 n h.steps _ τ (litSize M Ms τ) _
    (M0.trans (litSize_ge τ0 p.signal).1) (lit_steady τ0 p.signal p.steady) (lit_even τ0 p.signal p.even) (lit_rest p.signal p.rest) (by nlinarith) fun m hm => by
      obtain ⟨c, F, e1, e2, e3⟩ := metal_within h.wide h.lawful h.closed p hn hb m hm
      rw [hwv]
      exact ⟨c, F, e1, e2, e3⟩

/-- **C107**, the scattering cross section of bodies with memory: the flux that a box around the region writes divided by the flux that the region writes. -/
theorem C107_scattering_section {cs1' cs2' later' : List (Call ℝ)} (h : LitWritten now g cs1 cs2 later name a b tag freq n w4) (hi : IncidentWritten now g cs1' cs2' later' vol tp n w4)
    (ho : objectsOf (simOps cs1) = objs) (hsr : sourcesOf (simOps cs1) = srcs) (hwv : incidentOf (simOps cs1) = some (vol, tp)) (d : Dft ℝ Unit) (hd : tp.dft = some d) (hf : d.freq = freq)
    (p : ScattersPolar g objs srcs vol tp.resp eps sig res epsMax sigMax q w S K Kt J τ M Ms δ) (hn : ((n : ℝ) + 1 / 2) * g.dt ≤ τ) (har : BoxAround g vol a b) :
    HoldsCrossSection w4 g name a b freq w tp.resp (n * g.dt) (boxFlowError g (g.toGrid a) (g.toGrid b) M (n * g.dt) (metalError S g vol M Ms epsMax sigMax q τ δ n))
      (incidentFlowError g (rows g vol) Ms n) :=
  holds_quotient h.lawful (C107_scattered h ho hsr hwv p hn har) (C104_incident hi freq d hd hf (by have := p.region.y; omega) Ms p.signal)

/-- **C107**, the absorption cross section: the same for a box in the region and the total wave. -/
theorem C107_absorption_section {cs1' cs2' later' : List (Call ℝ)} (h : LitWritten now g cs1 cs2 later name a b tag freq n w4) (hi : IncidentWritten now g cs1' cs2' later' vol tp n w4)
    (ho : objectsOf (simOps cs1) = objs) (hsr : sourcesOf (simOps cs1) = srcs) (hwv : incidentOf (simOps cs1) = some (vol, tp)) (d : Dft ℝ Unit) (hd : tp.dft = some d) (hf : d.freq = freq)
    (p : ScattersPolar g objs srcs vol tp.resp eps sig res epsMax sigMax q w S K Kt J τ M Ms δ) (hn : ((n : ℝ) + 1 / 2) * g.dt ≤ τ) (hin : BoxWithin g vol a b) :
    HoldsCrossSection w4 g name a b freq (w.lit tp.resp (entry g vol)) tp.resp (n * g.dt)
      (boxFlowError g (g.toGrid a) (g.toGrid b) (litSize M Ms τ) (n * g.dt) (metalError S g vol M Ms epsMax sigMax q τ δ n)) (incidentFlowError g (rows g vol) Ms n) :=
  holds_quotient h.lawful (C107_total h ho hsr hwv p hn hin) (C104_incident hi freq d hd hf (by have := p.region.y; omega) Ms p.signal)

end

end Props
end Qbox
