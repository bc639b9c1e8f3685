import Verif.Lemmas.CrossSection
import Verif.Props.LitProps
import Verif.Props.ResultProps

/-!
# C104: the flux of the incident wave, and cross sections
-/

namespace Qbox.Props
open Scalar Spec

/-- The region of `F` frequencies that a line has recorded. -/
theorem recorded_flow (g : Grid ℝ) (hl : Lawful g) (vol : Vol ℝ) (tp : TimeProfile ℝ) (d : Dft ℝ Unit) (hd : tp.dft = some d) (hy : (g.toGrid vol.a).y ≤ (g.toGrid vol.b).y) (Ms : ℝ)
    (hs : SmoothStart tp.resp Ms) (n : ℕ) : ∃ y S, pulses n (Tfsf.make g tp vol g.dt) = .ok y ∧ y.flux = .ok S ∧ ∃ F : ℝ → ℝ, overFreq S.n S.val = d.freq.map F ∧
      ∀ f, |g.dt ^ 2 * F f - planeFlow tp.resp f (n * g.dt)| ≤ incidentFlowError g (rows g vol) Ms n f := by
  have dt0 : 0 < g.dt := by rw [hl.dt]; linarith [hl.dx]
  set R : ℤ := (g.toGrid vol.b).y - (g.toGrid vol.a).y + 1 with hR
  have eN : (Tfsf.make g tp vol g.dt).Nx = R + 4 := by
    simp only [Tfsf.make, Grid.toGridV, IVol.make, hR]
    show |(g.toGrid vol.a).y - (g.toGrid vol.b).y| + 5 = _
    rw [abs_of_nonpos (by omega)]
    omega
  have W := lineWave_exists tp.resp g.dt (N := R + 4) (by omega)
  generalize (fun n => (lineAt tp.resp g.dt (R + 4) n).e) = e at W
  generalize (fun n => (lineAt tp.resp g.dt (R + 4) n).h) = h at W
  obtain ⟨y, S, h1, h2, h3, h4⟩ := C52_flux_partial g vol tp d hd g.dt dt0 e h (by rw [eN]; exact W) n
  refine ⟨y, S, h1, h2, fun f => cosSpec (fun m => (e (m + 1) 2 + e m 2) / 2) f g.dt n * cosSpec (fun m => (h m 2 + h m 1) / 2) f g.dt n +
        sinSpec (fun m => (e (m + 1) 2 + e m 2) / 2) f g.dt n * sinSpec (fun m => (h m 2 + h m 1) / 2) f g.dt n, ?_, fun f => ?_⟩
  · rw [h3]
    unfold overFreq
    refine List.ext_getElem (by simp [intRange]) fun k k1 k2 => ?_
    have k3 : k < d.freq.length := by simpa using k2
    have := h4 k k3
    simpa [intRange] using this
  · have E := near_spectrum hs dt0.le f n (fun m => (e (m + 1) 2 + e m 2) / 2) fun m hm => (line_records (by omega) W dt0.le hs hm).1
    have H := near_spectrum hs dt0.le f n (fun m => (h m 2 + h m 1) / 2) fun m hm => (line_records (by omega) W dt0.le hs hm).2
    have τ0 : 0 ≤ n * g.dt := mul_nonneg (Nat.cast_nonneg n) dt0.le
    have := mul_close (signal_spectrum_le hs τ0 f) E H
    unfold planeFlow incidentFlowError
    have er : n * g.dt * (incidentErrorX Ms g.dt n ((R : ℝ) + 1) + g.dt * (2 * (Ms * (n * g.dt))) + g.dt * (Ms * (n * g.dt) + 2 * Real.pi * |f| * (Ms * (n * g.dt) ^ 2))) =
        incidentSpectrumError g (rows g vol) Ms n f := by
      unfold incidentSpectrumError rows
      ring
    rw [er] at this
    refine le_trans (le_of_eq ?_) this
    congr 1
    ring

/-- A program on a file makes a domain, adds objects and sources and sets an incident wave (`cs1`), takes `n` steps (`cs2`), in between it may do whatever only looks: add monitors, write
fields and results. It then writes the flux of the incident wave, and afterwards it may do anything: `w4` is the file then. -/
structure IncidentWritten (now : ℕ → ℝ) (g : Grid ℝ) (cs1 cs2 later : List (Call ℝ)) (vol : Vol ℝ) (tp : TimeProfile ℝ) (n : ℕ) (w4 : World ℝ) : Prop where
  lawful : Lawful g
  lights : Lights (simOps cs1)
  incident : incidentOf (simOps cs1) = some (vol, tp)
  advances : Advances (simOps cs2)
  steps : n = (simOps cs2).countP isUpdate
  runs : ∃ fn w0 w1 w2 w3, World.make now g fn = .ok w0 ∧ w0.runOk now cs1 = .ok w1 ∧ w1.runOk now cs2 = .ok w2 ∧ w2.step now .tfsfFlux = .ok w3 ∧ w3.run now later = .ok w4

/-- The file has a list of numbers, one per frequency; `dt ^ 2` times the number of frequency `f` differs from the energy of this frequency that the plane wave with the signal `s` carries
through a unit of length up to time `T` by at most `bound f`. -/
def HoldsIncidentFlux (w4 : World ℝ) (g : Grid ℝ) (freq : List ℝ) (s : ℝ → ℝ) (T : ℝ) (bound : ℝ → ℝ) : Prop :=
  ∃ F : ℝ → ℝ, w4.tree.at ["sources", "tfsf", "flux"] = some (.nums (freq.map F)) ∧ ∀ f, |g.dt ^ 2 * F f - planeFlow s f T| ≤ bound f

/-- The region of the simulation before the flux is written. -/
theorem incident_core {now : ℕ → ℝ} {g : Grid ℝ} {cs1 cs2 : List (Call ℝ)} {vol : Vol ℝ} {tp : TimeProfile ℝ} {n : ℕ} {fn : String} {w0 w1 w2 : World ℝ}
    (hl : Lights (simOps cs1)) (hi : incidentOf (simOps cs1) = some (vol, tp)) (ha : Advances (simOps cs2)) (hn : n = (simOps cs2).countP isUpdate)
    (h0 : World.make now g fn = .ok w0) (h1 : w0.runOk now cs1 = .ok w1) (h2 : w1.runOk now cs2 = .ok w2) :
    ∃ y, pulses n (Tfsf.make g tp vol g.dt) = .ok y ∧ w2.sim.core.tfsf = some y := by
  have mk : Core.make g = .ok w0.sim.core := by
    have := World.make_sim h0
    unfold Sim.make at this
    obtain ⟨ck, -, this⟩ := (Except.bind_ok ..).mp this
    obtain ⟨c, hc, this⟩ := (Except.bind_ok ..).mp this
    split at this
    · cases this
    · rw [hc, ← Except.ok.inj this]
  obtain ⟨c, f1, f2, -⟩ := furnished _ hl (World.runOk_sim h1) (w := none) (c0 := w0.sim.core) rfl
  rw [Option.or_none, hi] at f2
  have gc : c.g = g := (insertAll_grid _ f1).trans (make_grid mk)
  have t1 : w1.sim.core.tfsf = some (Tfsf.make g tp vol g.dt) := by
    rw [f2]
    show some (Tfsf.make c.g tp vol c.g.dt) = _
    rw [gc]
  have r := runOk_core _ ha (World.runOk_sim h2)
  rw [← hn] at r
  exact run_tfsf n r t1

/-- **C104.** A total-field region with a signal that starts smoothly, in any program, whatever else is in the domain: what the program writes as flux of the incident wave is, after `n` steps,
the energy of the plane wave that goes through a unit of length, for every requested frequency, up to an error that for a fixed time is of first order in the size of the cells. -/
theorem C104_incident {now : ℕ → ℝ} {g : Grid ℝ} {cs1 cs2 later : List (Call ℝ)} {vol : Vol ℝ} {tp : TimeProfile ℝ} {n : ℕ} {w4 : World ℝ}
    (h : IncidentWritten now g cs1 cs2 later vol tp n w4) (freq : List ℝ) (d : Dft ℝ Unit) (hd : tp.dft = some d) (hf : d.freq = freq)
    (hy : (g.toGrid vol.a).y ≤ (g.toGrid vol.b).y) (Ms : ℝ) (hs : SmoothStart tp.resp Ms) :
    HoldsIncidentFlux w4 g freq tp.resp (n * g.dt) (incidentFlowError g (rows g vol) Ms n) := by
  obtain ⟨fn, w0, w1, w2, w3, h0, h1, h2, h3, h4⟩ := h.runs
  obtain ⟨y, S, p1, p2, F, e1, e2⟩ := recorded_flow g h.lawful vol tp d hd hy Ms hs n
  obtain ⟨y', q1, q2⟩ := incident_core h.lights h.incident h.advances h.steps h0 h1 h2
  obtain rfl := Except.ok.inj (p1.symm.trans q1)
  refine ⟨F, ?_, e2⟩
  unfold World.step at h3
  simp only [q2] at h3
  obtain ⟨S', hS', h3⟩ := tryM_ok h3
  obtain rfl := Except.ok.inj (p2.symm.trans hS')
  obtain ⟨hput, hw⟩ := World.write_ok h3
  have e := Tree.puts_mem _ hput (["sources", "tfsf", "flux"], .nums (overFreq S.n S.val)) (by simp)
  have e3 : w3.tree = _ := congrArg World.tree (Res.ok.inj hw).symm
  dsimp only at e3 e
  rw [← e3, e1, hf] at e
  exact (C62_values now w3 w4 later h4 _ _ e (by simp)).symm ▸ rfl

/-- The error is of first order: for signals of the same smoothness, times up to `T` and regions of a height up to `L`, it is at most a constant times the size of the step. -/
theorem C104_first_order (Ms T L f : ℝ) (hM : 0 ≤ Ms) (hT : 0 ≤ T) (hL : 0 ≤ L) : ∃ C, ∀ (g : Grid ℝ) (R : ℝ) (n : ℕ), 0 ≤ g.dt → g.dt ≤ 1 → n * g.dt ≤ T → 0 ≤ R → R * g.dt ≤ L →
    incidentFlowError g R Ms n f ≤ C * g.dt := by
  set K := 80 * T * (L + 2) + 1 + (L + 1) * (160 * (T + 1) * (L + 2) + 5) with hK
  set Q := T * (Ms * K + (3 * (Ms * T) + 2 * Real.pi * |f| * (Ms * T ^ 2))) with hQ
  have K0 : 0 ≤ K := by positivity
  have Q0 : 0 ≤ Q := by positivity
  refine ⟨Q * (2 * (Ms * T ^ 3) + Q), fun g R n d0 d1 hn R0 hR => ?_⟩
  have a0 : 0 ≤ n * g.dt := by positivity
  have b0 : 0 ≤ R * g.dt := by positivity
  have X : incidentErrorX Ms g.dt n (R + 1) ≤ g.dt * (Ms * K) := by
    have e : incidentErrorX Ms g.dt n (R + 1) = Ms * g.dt ^ 2 * (80 * (n * g.dt) * (R * g.dt + 2 * g.dt) + 1 +
        (R * g.dt + g.dt) * (160 * (n * g.dt + g.dt) * (R * g.dt + 2 * g.dt) + 5)) := by
      unfold incidentErrorX incidentError
      ring
    rw [e]
    have k : 80 * (n * g.dt) * (R * g.dt + 2 * g.dt) + 1 + (R * g.dt + g.dt) * (160 * (n * g.dt + g.dt) * (R * g.dt + 2 * g.dt) + 5) ≤ K := by
      rw [hK]
      gcongr <;> linarith
    calc _ ≤ Ms * g.dt ^ 2 * K := mul_le_mul_of_nonneg_left k (by positivity)
      _ = g.dt * (g.dt * (Ms * K)) := by ring
      _ ≤ g.dt * (Ms * K) := mul_le_mul_of_nonneg_left (mul_le_of_le_one_left (by positivity) d1) d0
  have X0 : 0 ≤ incidentErrorX Ms g.dt n (R + 1) := by
    unfold incidentErrorX incidentError
    positivity
  have E : incidentSpectrumError g R Ms n f ≤ g.dt * Q := by
    unfold incidentSpectrumError
    calc _ ≤ T * (g.dt * (Ms * K) + g.dt * (3 * (Ms * T) + 2 * Real.pi * |f| * (Ms * T ^ 2))) := by gcongr
      _ = g.dt * Q := by rw [hQ]; ring
  have E0 : 0 ≤ incidentSpectrumError g R Ms n f := by
    unfold incidentSpectrumError
    positivity
  unfold incidentFlowError
  calc _ ≤ g.dt * Q * (2 * (Ms * T ^ 3) + Q) := by
        gcongr
        exact E.trans (mul_le_of_le_one_left Q0 d1)
    _ = Q * (2 * (Ms * T ^ 3) + Q) * g.dt := by ring

theorem quotient_close {k x y A P α β : ℝ} (hk : k ≠ 0) (hx : |k * x - A| ≤ α) (hy : |k * y - P| ≤ β) (hP : β < P) : |x / y - A / P| ≤ (α + |A| / P * β) / (P - β) := by
  have b0 : 0 ≤ β := (abs_nonneg _).trans hy
  have P0 : 0 < P := lt_of_le_of_lt b0 hP
  have y1 : P - β ≤ k * y := by have := (abs_le.mp hy).1; linarith
  have y0 : 0 < k * y := by linarith
  rw [show x / y = (k * x) / (k * y) from (mul_div_mul_left x y hk).symm]
  set X := k * x
  set Y := k * y
  have e : X / Y - A / P = ((X - A) - A / P * (Y - P)) / Y := by field_simp; ring
  rw [e, abs_div, abs_of_pos y0]
  have t : |X - A - A / P * (Y - P)| ≤ α + |A| / P * β := by
    refine (abs_sub _ _).trans (add_le_add hx ?_)
    rw [abs_mul, abs_div, abs_of_pos P0]
    exact mul_le_mul_of_nonneg_left hy (by positivity)
  exact div_le_div₀ ((abs_nonneg _).trans t) t (by linarith) y1

/-- The file has a list of numbers for the box and one for the incident wave. Where the energy of the plane wave at the frequency `f` is larger than the error `β f` of what the file
has for it, the quotient of the numbers differs from the quotient of the energies, the length of the incident wave whose energy leaves the box, by at most what the errors `α` and `β` make of it. -/
def HoldsCrossSection (w4 : World ℝ) (g : Grid ℝ) (name : String) (a b : V2 ℝ) (freq : List ℝ) (w : Spec.Wave) (s : ℝ → ℝ) (T : ℝ) (α β : ℝ → ℝ) : Prop :=
  ∃ F G : ℝ → ℝ, w4.tree.at ["monitors", "box_monitor", name, "flux"] = some (.nums (freq.map F)) ∧ w4.tree.at ["sources", "tfsf", "flux"] = some (.nums (freq.map G)) ∧
    ∀ f, β f < planeFlow s f T → |F f / G f - w.boxFlow f T (g.toReal (g.toGrid a)) (g.toReal (g.toGrid b)) / planeFlow s f T| ≤
      (α f + |w.boxFlow f T (g.toReal (g.toGrid a)) (g.toReal (g.toGrid b))| / planeFlow s f T * β f) / (planeFlow s f T - β f)

theorem holds_quotient {w4 : World ℝ} {g : Grid ℝ} {name : String} {a b : V2 ℝ} {freq : List ℝ} {w : Spec.Wave} {s : ℝ → ℝ} {T : ℝ} {α β : ℝ → ℝ} (hl : Lawful g)
    (h1 : HoldsBoxFlux w4 g name a b freq w T α) (h2 : HoldsIncidentFlux w4 g freq s T β) : HoldsCrossSection w4 g name a b freq w s T α β := by
  obtain ⟨F, f1, f2⟩ := h1
  obtain ⟨G, g1, g2⟩ := h2
  have dt0 : 0 < g.dt := by rw [hl.dt]; linarith [hl.dx]
  exact ⟨F, G, f1, g1, fun f hf => quotient_close (pow_ne_zero 2 dt0.ne') (f2 f) (g2 f) hf⟩

section
variable {now : ℕ → ℝ} {g : Grid ℝ} {cs1 cs1' cs2 cs2' later later' : List (Call ℝ)} {name : String} {a b : V2 ℝ} {tag : DftTag} {freq : List ℝ} {n : ℕ} {w4 : World ℝ}
  {objs : List (Object ℝ)} {srcs : List (Source ℝ)} {vol : Vol ℝ} {tp : TimeProfile ℝ} {eps sig : ℝ → ℝ → ℝ} {epsMax sigMax : ℝ} {w : Spec.Wave}
  {S : ℝ → ℝ → Prop} {J : ℝ → ℝ → ℝ → ℝ} {τ M Ms δ : ℝ}

/-- **C104**, the scattering cross section. A scattering problem, a box around the region, and the same frequencies for the monitor and for the region: the flux that the monitor writes
divided by the flux that the region writes is the energy of the scattered wave that leaves the box per energy of the plane wave through a unit of length, up to the errors of both. -/
theorem C104_scattering (h : LitWritten now g cs1 cs2 later name a b tag freq n w4) (hi : IncidentWritten now g cs1' cs2' later' vol tp n w4)
    (ho : objectsOf (simOps cs1) = objs) (hsr : sourcesOf (simOps cs1) = srcs) (hwv : incidentOf (simOps cs1) = some (vol, tp)) (d : Dft ℝ Unit) (hd : tp.dft = some d) (hf : d.freq = freq)
    (p : Scatters g objs srcs vol tp.resp eps sig epsMax sigMax w S J τ M Ms δ) (hn : ((n : ℝ) + 1 / 2) * g.dt ≤ τ) (har : BoxAround g vol a b) :
    HoldsCrossSection w4 g name a b freq w tp.resp (n * g.dt) (boxFlowError g (g.toGrid a) (g.toGrid b) M (n * g.dt) (litError S g vol M Ms epsMax sigMax τ δ n))
      (incidentFlowError g (rows g vol) Ms n) :=
  holds_quotient h.lawful (C101_scattered h ho hsr hwv p hn har) (C104_incident hi freq d hd hf (by have := p.region.y; omega) Ms p.signal)

/-- **C104**, the absorption cross section: the same for a box in the region and the total wave, which carries energy out of the box, or, with the opposite sign, into it. -/
theorem C104_absorption (h : LitWritten now g cs1 cs2 later name a b tag freq n w4) (hi : IncidentWritten now g cs1' cs2' later' vol tp n w4)
    (ho : objectsOf (simOps cs1) = objs) (hsr : sourcesOf (simOps cs1) = srcs) (hwv : incidentOf (simOps cs1) = some (vol, tp)) (d : Dft ℝ Unit) (hd : tp.dft = some d) (hf : d.freq = freq)
    (p : Scatters g objs srcs vol tp.resp eps sig epsMax sigMax w S J τ M Ms δ) (hn : ((n : ℝ) + 1 / 2) * g.dt ≤ τ) (hin : BoxWithin g vol a b) :
    HoldsCrossSection w4 g name a b freq (w.lit tp.resp (entry g vol)) tp.resp (n * g.dt)
      (boxFlowError g (g.toGrid a) (g.toGrid b) (litSize M Ms τ) (n * g.dt) (litError S g vol M Ms epsMax sigMax τ δ n)) (incidentFlowError g (rows g vol) Ms n) :=
  holds_quotient h.lawful (C101_total h ho hsr hwv p hn hin) (C104_incident hi freq d hd hf (by have := p.region.y; omega) Ms p.signal)

end

end Qbox.Props
