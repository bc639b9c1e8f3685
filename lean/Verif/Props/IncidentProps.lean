import Verif.Lemmas.LineError
import Verif.Props.CurrentProps
import Mathlib.Analysis.SpecialFunctions.SmoothTransition

/-!
# C99: the wave in a total-field region is the plane wave
-/

namespace Qbox.Props
open Scalar Spec

theorem wave_run (n : ℕ) (g : Grid ℝ) (hg : g.Wide) (hl : Lawful g) (hT : g.T = 0 ∨ 2 ≤ g.T) (vol : Vol ℝ) (tp : TimeProfile ℝ)
    (hr : ClearRegion g (g.toGrid vol.a) (g.toGrid vol.b)) (e h : ℕ → ℤ → ℝ)
    (W : LineWave tp.resp g.dt ((g.toGrid vol.b).y - (g.toGrid vol.a).y + 5) e h) :
    ∃ c, (⟨[], [], some (vol, tp)⟩ : Scene).run g n = .ok c ∧ FillsOnly c.f (g.toGrid vol.a) (g.toGrid vol.b) (e n) (h n) := by
  obtain ⟨c0, u', m, r, F⟩ := C33_no_leak_new n g hg hl hT vol tp hr e h W
  refine ⟨u', ?_, F⟩
  unfold Scene.run
  rw [m]; simp only [Except.ok_bind]
  rw [show forList ([] : List (Object ℝ)) c0 (fun o c => c.insertObject o) = .ok c0 from rfl]; simp only [Except.ok_bind]
  simp only [r]; rfl

/-- The line in terms of places and times. -/
theorem line_E {g : Grid ℝ} (hl : Lawful g) {vol : Vol ℝ} {s : ℝ → ℝ} {e h : ℕ → ℤ → ℝ} (hr : ClearRegion g (g.toGrid vol.a) (g.toGrid vol.b))
    (W : LineWave s g.dt ((g.toGrid vol.b).y - (g.toGrid vol.a).y + 5) e h) {M : ℝ} (hs : SmoothStart s M) (n : ℕ) {j : ℤ} (j0 : (g.toGrid vol.a).y ≤ j)
    (j1 : j ≤ (g.toGrid vol.b).y) : |e n (j - (g.toGrid vol.a).y + 3) - planeE s (entry g vol) (n * g.dt) (j * g.dx)| ≤ incidentError M g.dt n (rows g vol) := by
  have hy := hr.y
  have hd : 0 ≤ g.dt := by rw [hl.dt]; linarith [hl.dx]
  have := W.close (by omega) hd hs.four hs.before n (k := j - (g.toGrid vol.a).y + 3) (by omega) (by omega)
  unfold planeE entry incidentError rows
  rw [show (n : ℝ) * g.dt - (j * g.dx - ((g.toGrid vol.a).y - 2) * g.dx) = ((n : ℝ) - 2 * ((j - (g.toGrid vol.a).y + 3 : ℤ) - 1)) * g.dt by
    rw [hl.dt]; push_cast; ring]
  refine this.trans (le_of_eq ?_)
  push_cast
  ring

theorem line_step {g : Grid ℝ} (hl : Lawful g) {vol : Vol ℝ} {s : ℝ → ℝ} {e h : ℕ → ℤ → ℝ} (hr : ClearRegion g (g.toGrid vol.a) (g.toGrid vol.b))
    (W : LineWave s g.dt ((g.toGrid vol.b).y - (g.toGrid vol.a).y + 5) e h) {M : ℝ} (hs : SmoothStart s M) (n : ℕ) {j : ℤ} (j0 : (g.toGrid vol.a).y ≤ j)
    (j1 : j ≤ (g.toGrid vol.b).y) :
    |(e (n + 1) (j - (g.toGrid vol.a).y + 3) - e n (j - (g.toGrid vol.a).y + 3)) -
      (planeE s (entry g vol) ((n + 1) * g.dt) (j * g.dx) - planeE s (entry g vol) (n * g.dt) (j * g.dx))| ≤ incidentError M g.dt (n + 1) (rows g vol) * g.dt := by
  have hy := hr.y
  have hd : 0 ≤ g.dt := by rw [hl.dt]; linarith [hl.dx]
  have := W.close_step (by omega) hd hs n (k := j - (g.toGrid vol.a).y + 3) (by omega) (by omega)
  unfold planeE entry incidentError rows
  rw [show (n : ℝ) * g.dt - (j * g.dx - ((g.toGrid vol.a).y - 2) * g.dx) = ((n : ℝ) - 2 * ((j - (g.toGrid vol.a).y + 3 : ℤ) - 1)) * g.dt by
    rw [hl.dt]; push_cast; ring, show ((n : ℝ) + 1) * g.dt - (j * g.dx - ((g.toGrid vol.a).y - 2) * g.dx) =
      ((n : ℝ) + 1 - 2 * ((j - (g.toGrid vol.a).y + 3 : ℤ) - 1)) * g.dt by
    rw [hl.dt]; push_cast; ring]
  refine this.trans (le_of_eq ?_)
  push_cast
  ring

theorem line_X {g : Grid ℝ} (hl : Lawful g) {vol : Vol ℝ} {s : ℝ → ℝ} {e h : ℕ → ℤ → ℝ} (hr : ClearRegion g (g.toGrid vol.a) (g.toGrid vol.b))
    (W : LineWave s g.dt ((g.toGrid vol.b).y - (g.toGrid vol.a).y + 5) e h) {M : ℝ} (hs : SmoothStart s M) (n : ℕ) {j : ℤ} (j0 : (g.toGrid vol.a).y ≤ j)
    (j1 : j + 1 ≤ (g.toGrid vol.b).y) :
    |h n (j - (g.toGrid vol.a).y + 3) - planeE s (entry g vol) ((n + 1 / 2) * g.dt) ((j + 1 / 2) * g.dx)| ≤ incidentErrorX M g.dt n (rows g vol) := by
  have hy := hr.y
  have hd : 0 ≤ g.dt := by rw [hl.dt]; linarith [hl.dx]
  have M0 := hs.nonneg
  set N := (g.toGrid vol.b).y - (g.toGrid vol.a).y + 5 with hN
  obtain ⟨d, hd'⟩ : ∃ d : ℕ, (d : ℤ) = (g.toGrid vol.b).y - j := ⟨((g.toGrid vol.b).y - j).toNat, by omega⟩
  have key := W.close_h (by omega) hd hs n d (by omega)
  rw [show N - 2 - (d : ℤ) = j - (g.toGrid vol.a).y + 3 by omega] at key
  unfold planeE entry
  rw [show ((n : ℝ) + 1 / 2) * g.dt - ((j + 1 / 2) * g.dx - ((g.toGrid vol.a).y - 2) * g.dx) =
      ((n : ℝ) - 2 * ((j - (g.toGrid vol.a).y + 3 : ℤ) - 1) - 1 / 2) * g.dt by rw [hl.dt]; push_cast; ring]
  refine key.trans ?_
  have r : rows g vol = N - 4 := by unfold rows; rw [hN]; push_cast; ring
  have r0 : (0 : ℝ) ≤ N - 3 := by
    have : (0 : ℤ) ≤ N - 3 := by omega
    exact_mod_cast this
  have dr : (d : ℝ) ≤ rows g vol := by
    unfold rows
    have : (d : ℤ) ≤ (g.toGrid vol.b).y - (g.toGrid vol.a).y + 1 := by omega
    exact_mod_cast this
  unfold incidentErrorX incidentError
  rw [show rows g vol + 1 = N - 3 by rw [r]; ring]
  have := mul_le_mul_of_nonneg_right dr (show 0 ≤ 160 * ((n : ℝ) + 1) * ((N - 3) * (M * g.dt ^ 5)) + 5 * (M * g.dt ^ 3) by positivity)
  linarith

/-- **C99** In exact arithmetic, the wave in a total-field region is the plane wave with the signal of the region: for a signal that starts smoothly the fields
after `n` steps differ from those of the plane wave by terms that, for fixed size of the region and time, are of second order in the size of the cells. This
holds at every node of the region and at every step, and also after the wave has left the region. Outside the region there is no field. -/
theorem C99_incident (n : ℕ) (g : Grid ℝ) (hg : g.Wide) (hl : Lawful g) (hT : g.T = 0 ∨ 2 ≤ g.T) (vol : Vol ℝ) (tp : TimeProfile ℝ)
    (hr : ClearRegion g (g.toGrid vol.a) (g.toGrid vol.b)) (M : ℝ) (hs : SmoothStart tp.resp M) :
    ∃ c, (⟨[], [], some (vol, tp)⟩ : Scene).run g n = .ok c ∧ ∀ i j,
      |c.f.Ez.val i j - incidentE g vol tp.resp n i j| ≤ incidentError M g.dt n (rows g vol) ∧
      |c.f.Hx.val i j - incidentX g vol tp.resp n i j| ≤ incidentErrorX M g.dt n (rows g vol) ∧ c.f.Hy.val i j = 0 := by
  have W := lineWave_exists tp.resp g.dt (N := (g.toGrid vol.b).y - (g.toGrid vol.a).y + 5) (by have := hr.y; omega)
  generalize (fun n => (lineAt tp.resp g.dt ((g.toGrid vol.b).y - (g.toGrid vol.a).y + 5) n).e) = e at W
  generalize (fun n => (lineAt tp.resp g.dt ((g.toGrid vol.b).y - (g.toGrid vol.a).y + 5) n).h) = h at W
  obtain ⟨c, hc, F⟩ := wave_run n g hg hl hT vol tp hr e h W
  have hd : 0 ≤ g.dt := by rw [hl.dt]; linarith [hl.dx]
  have M0 := hs.nonneg
  have r0 : 0 ≤ rows g vol := by
    unfold rows
    have : 0 ≤ (g.toGrid vol.b).y - (g.toGrid vol.a).y + 1 := by have := hr.y; omega
    exact_mod_cast this
  refine ⟨c, hc, fun i j => ⟨?_, ?_, F.Hy i j⟩⟩
  · unfold incidentE
    split_ifs with hi
    · rw [F.Ez_in i j hi.1 hi.2.1 hi.2.2.1 hi.2.2.2]
      exact line_E hl hr W hs n hi.2.2.1 hi.2.2.2
    · rw [F.Ez_out i j hi, sub_zero, abs_zero]
      unfold incidentError
      positivity
  · unfold incidentX
    split_ifs with hi
    · rw [F.Hx_in i j hi.1.1 hi.1.2.1 hi.1.2.2.1 hi.2.2.2.2]
      exact line_X hl hr W hs n hi.1.2.2.1 hi.2.2.2.2
    · rw [F.Hx_out i j (fun k => hi ⟨⟨k.1, k.2.1, k.2.2.1, by omega⟩, ⟨k.1, k.2.1, by omega, k.2.2.2⟩⟩), sub_zero, abs_zero]
      unfold incidentErrorX incidentError
      positivity

/-! ## The order -/

theorem rows_height {g : Grid ℝ} (hl : Lawful g) (vol : Vol ℝ) : (rows g vol + 1) * g.dx ≤ vol.b.y - vol.a.y + 3 * g.dx := by
  have hd := hl.dx
  have a := roundAway_abs_sub_le (vol.a.y / g.dx)
  have b := roundAway_abs_sub_le (vol.b.y / g.dx)
  have ea : (g.toGrid vol.a).y = roundAway (vol.a.y / g.dx) := rfl
  have eb : (g.toGrid vol.b).y = roundAway (vol.b.y / g.dx) := rfl
  unfold rows
  rw [ea, eb]
  push_cast
  rw [abs_le] at a b
  have k : ((roundAway (vol.b.y / g.dx) : ℝ) - roundAway (vol.a.y / g.dx)) ≤ vol.b.y / g.dx - vol.a.y / g.dx + 1 := by linarith [a.1, b.2]
  have := mul_le_mul_of_nonneg_right k hd.le
  rw [show (vol.b.y / g.dx - vol.a.y / g.dx + 1) * g.dx = vol.b.y - vol.a.y + g.dx by field_simp] at this
  linarith

/-- **C99** (order). Up to time `T`, in a region of at most the height `H` less three cells, the errors of C99 are at most a number that depends on `T`, `H` and the signal
only, times the square of the size of the cells. -/
theorem C99_order (n : ℕ) (g : Grid ℝ) (hl : Lawful g) (h1 : g.dx ≤ 1) (vol : Vol ℝ) (hy : (g.toGrid vol.a).y ≤ (g.toGrid vol.b).y) (M T H : ℝ) (hM : 0 ≤ M)
    (hT : n * g.dt ≤ T) (hH : vol.b.y - vol.a.y + 3 * g.dx ≤ H) :
    incidentError M g.dt n (rows g vol) ≤ 10 * T * H * M * g.dx ^ 2 ∧
    incidentErrorX M g.dt n (rows g vol) ≤ (10 * T * H + 1 + H * (10 * (T + 1) * H + 1)) * M * g.dx ^ 2 := by
  have hd := hl.dx
  have r0 : 0 ≤ rows g vol := by
    unfold rows
    have : 0 ≤ (g.toGrid vol.b).y - (g.toGrid vol.a).y + 1 := by omega
    exact_mod_cast this
  have rh := (rows_height hl vol).trans hH
  set R := rows g vol
  have n0 : (0 : ℝ) ≤ n * g.dt := by rw [hl.dt]; positivity
  have T0 : 0 ≤ T := n0.trans hT
  have H0 : 0 ≤ H := le_trans (by positivity) rh
  have m2 : 0 ≤ M * g.dx ^ 2 := by positivity
  have hT1 : ((n : ℝ) + 1) * g.dt ≤ T + 1 := by rw [hl.dt] at hT ⊢; linarith
  have e1 : n * g.dt * ((R + 1) * g.dx) ≤ T * H := mul_le_mul hT rh (by positivity) T0
  have e2 : (n + 1) * g.dt * ((R + 1) * g.dx) ≤ (T + 1) * H := mul_le_mul hT1 rh (by positivity) (by linarith)
  have first : incidentError M g.dt n R ≤ 10 * T * H * M * g.dx ^ 2 := by
    unfold incidentError
    have := mul_le_mul_of_nonneg_right e1 m2
    rw [show 80 * (n : ℝ) * ((R + 1) * (M * g.dt ^ 4)) = 10 * (n * g.dt * ((R + 1) * g.dx) * (M * g.dx ^ 2)) by rw [hl.dt]; ring]
    linarith
  refine ⟨first, ?_⟩
  unfold incidentErrorX
  have rH : R * g.dx ≤ H := by linarith
  have in1 : 0 ≤ 10 * ((n + 1) * g.dt * ((R + 1) * g.dx)) + 1 := by rw [hl.dt]; positivity
  have e3 : R * g.dx * (10 * ((n + 1) * g.dt * ((R + 1) * g.dx)) + 1) ≤ H * (10 * ((T + 1) * H) + 1) :=
    mul_le_mul rH (by linarith) in1 H0
  have e4 := mul_le_mul_of_nonneg_right e3 m2
  have e5 : R * (160 * (n + 1) * ((R + 1) * (M * g.dt ^ 5)) + 5 * (M * g.dt ^ 3)) ≤ R * g.dx * (10 * ((n + 1) * g.dt * ((R + 1) * g.dx)) + 1) * (M * g.dx ^ 2) := by
    rw [hl.dt]
    have p : 0 ≤ R * (M * g.dx ^ 3) := by positivity
    have q : 0 ≤ R * ((n + 1) * ((R + 1) * (M * g.dx ^ 5))) := by positivity
    have l1 : R * (160 * (n + 1) * ((R + 1) * (M * (g.dx / 2) ^ 5)) + 5 * (M * (g.dx / 2) ^ 3)) =
      5 * (R * ((n + 1) * ((R + 1) * (M * g.dx ^ 5)))) + 5 / 8 * (R * (M * g.dx ^ 3)) := by ring
    have l2 : R * g.dx * (10 * ((n + 1) * (g.dx / 2) * ((R + 1) * g.dx)) + 1) * (M * g.dx ^ 2) =
      5 * (R * ((n + 1) * ((R + 1) * (M * g.dx ^ 5)))) + R * (M * g.dx ^ 3) := by ring
    rw [l1, l2]
    linarith
  have e6 : M * g.dt ^ 2 ≤ M * g.dx ^ 2 := by rw [hl.dt, div_pow]; linarith
  linarith

/-! ## A signal that starts smoothly -/

theorem iter_zero_of_const {s : ℝ → ℝ} {U : Set ℝ} (hU : IsOpen U) {a : ℝ} (h : ∀ t ∈ U, s t = a) {k : ℕ} (hk : 1 ≤ k) {t : ℝ} (ht : t ∈ U) : iteratedDeriv k s t = 0 := by
  have e : s =ᶠ[nhds t] fun _ => a := Filter.eventuallyEq_of_mem (hU.mem_nhds ht) h
  rw [Filter.EventuallyEq.iteratedDeriv_eq k e, iteratedDeriv_const]
  simp; omega

/-- A signal that rises smoothly from zero to one. -/
theorem smooth_rise : ∃ M, SmoothStart Real.smoothTransition M := by
  have sm : ContDiff ℝ 5 Real.smoothTransition := Real.smoothTransition.contDiff
  have each : ∀ k : ℕ, 1 ≤ k → k ≤ 5 → ∃ M, ∀ t, |iteratedDeriv k Real.smoothTransition t| ≤ M := by
    intro k k1 k5
    have c : Continuous (iteratedDeriv k Real.smoothTransition) := sm.continuous_iteratedDeriv k (by exact_mod_cast k5)
    obtain ⟨M, hM⟩ := (isCompact_Icc (a := (0 : ℝ)) (b := 1)).exists_bound_of_continuousOn c.continuousOn
    refine ⟨max M 0, fun t => ?_⟩
    by_cases h0 : t < 0
    · rw [iter_zero_of_const isOpen_Iio (a := 0) (fun t ht => Real.smoothTransition.zero_of_nonpos (le_of_lt ht)) k1 h0, abs_zero]
      exact le_max_right ..
    · by_cases h1 : 1 < t
      · rw [iter_zero_of_const isOpen_Ioi (a := 1) (fun t ht => Real.smoothTransition.one_of_one_le (le_of_lt ht)) k1 h1, abs_zero]
        exact le_max_right ..
      · exact (hM t ⟨not_lt.mp h0, not_lt.mp h1⟩).trans (le_max_left ..)
  obtain ⟨M2, h2⟩ := each 2 (by norm_num) (by norm_num)
  obtain ⟨M3, h3⟩ := each 3 (by norm_num) (by norm_num)
  obtain ⟨M4, h4⟩ := each 4 (by norm_num) (by norm_num)
  obtain ⟨M5, h5⟩ := each 5 (by norm_num) (by norm_num)
  refine ⟨max (max M2 M3) (max M4 M5), sm, fun t ht => Real.smoothTransition.zero_of_nonpos ht, fun k k2 k5 t => ?_⟩
  have : k = 2 ∨ k = 3 ∨ k = 4 ∨ k = 5 := by omega
  rcases this with rfl | rfl | rfl | rfl
  · exact (h2 t).trans ((le_max_left ..).trans (le_max_left ..))
  · exact (h3 t).trans ((le_max_right ..).trans (le_max_left ..))
  · exact (h4 t).trans ((le_max_left ..).trans (le_max_right ..))
  · exact (h5 t).trans ((le_max_right ..).trans (le_max_right ..))

/-- A case of C99: the region of C33 and this signal. -/
example (n : ℕ) : ∃ M c, (⟨[], [], some (⟨⟨5, 6⟩, ⟨12, 13⟩, ⟨7, 7⟩⟩, ⟨Real.smoothTransition, none, []⟩)⟩ : Scene).run gEx n = .ok c ∧ ∀ i j,
    |c.f.Ez.val i j - incidentE gEx ⟨⟨5, 6⟩, ⟨12, 13⟩, ⟨7, 7⟩⟩ Real.smoothTransition n i j| ≤ incidentError M gEx.dt n (rows gEx ⟨⟨5, 6⟩, ⟨12, 13⟩, ⟨7, 7⟩⟩) := by
  obtain ⟨M, hM⟩ := smooth_rise
  obtain ⟨c, h1, h2⟩ := C99_incident n gEx gEx_wide gEx_lawful (by rw [gEx_T]; norm_num) ⟨⟨5, 6⟩, ⟨12, 13⟩, ⟨7, 7⟩⟩ ⟨Real.smoothTransition, none, []⟩ gEx_region M hM
  exact ⟨M, c, h1, fun i j => (h2 i j).1⟩

end Qbox.Props
