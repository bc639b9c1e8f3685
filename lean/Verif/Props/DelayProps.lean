import Verif.Lemmas.DelayRun
import Verif.Props.NumberProps
import Verif.Props.RestartFalse

/-! # Starting later (C80, C81) -/

namespace Qbox.Props
open Qbox Scalar Spec

/-- **C80** When everything that emits starts `k` steps later, and is silent until then, the fields after `n + k` steps are those that the
original program has after `n` steps. Any objects of any media, any number of point and line sources, any incident wave, any layer. -/
theorem C80_delay {g : Grid ℝ} (hg : g.Wide) (hl : Lawful g) (hT : g.T = 0 ∨ 2 ≤ g.T) {S S' : Scene} (f : S.Fits g) {k : ℕ}
    (h : LaterScene g.dt k S S') (n : ℕ) :
    ∃ c c', S.run g n = .ok c ∧ S'.run g (k + n) = .ok c' ∧
      ∀ i j, c'.f.Ez.val i j = c.f.Ez.val i j ∧ c'.f.Hx.val i j = c.f.Hx.val i j ∧ c'.f.Hy.val i j = c.f.Hy.val i j := by
  obtain ⟨c0, m0, s0, g0, z0⟩ := make_silent hg hl hT
  obtain ⟨c1, m1, s1, g1, z1⟩ := Core.Std.insertAll S.objs s0 z0 (by rw [g0]; exact fun o ho => safe_of_clear hl (f.clear o ho))
  have e : c1.g = g := g1.trans g0
  have f1 : Unstarted c1 := Unstarted.insertAll _ (Unstarted.make m0) m1
  have hw : WaveFits c1.g S.wave := fun w hw => by
    obtain ⟨a1, a2, a3, a4, a5, a6⟩ := f.wave w hw
    rw [e]; exact ⟨a1, a2, a3, a4, a5, a6⟩
  obtain ⟨d, m, d', m', r1, r2, r3⟩ := delayed_run s1 z1 f1 hw (k := k) (o' := S'.wave) (by rw [e]; exact h.wave) (l' := S'.srcs)
    (by rw [e]; exact h.srcs) (by rw [e]; exact f.srcs) n
  have go : ∀ (T : Scene) (q : ℕ) (r : Core ℝ × List (Source ℝ)), T.objs = S.objs → (withWave c1 T.wave).run q T.srcs = .ok r → T.run g q = .ok r.1 := by
    intro T q r h1 h2
    unfold Scene.run
    rw [m0, Except.ok_bind, h1, m1, Except.ok_bind]
    cases hT : T.wave with
    | none =>
      rw [hT] at h2
      simp only
      rw [show c1.run q T.srcs = _ from h2]; rfl
    | some w =>
      rw [hT] at h2
      simp only
      rw [show (c1.setTfsf w.1 w.2).run q T.srcs = _ from h2]; rfl
  exact ⟨d, d', go S n _ rfl r1, go S' (k + n) _ h.objs r2, r3⟩

theorem later_postpone {dt : ℝ} (hd : 0 < dt) (k : ℕ) (S : Scene) : LaterScene dt k S (S.postpone (k * dt)) := by
  have h : ∀ tp : TimeProfile ℝ, Later dt k tp.resp (postpone (k * dt) tp).resp := by
    intro tp
    refine ⟨fun m hm => ?_, fun m hm => ?_⟩
    · simp only [postpone]
      rw [if_pos (mul_le_mul_of_nonneg_right (by exact_mod_cast hm) hd.le)]
    · simp only [postpone]
      rw [if_neg]
      · congr 1; push_cast; ring
      · have : (1 : ℝ) ≤ m := by exact_mod_cast hm
        push_cast
        nlinarith
  refine ⟨rfl, ?_, ?_⟩
  · show List.Forall₂ _ S.srcs (S.srcs.map _)
    rw [List.forall₂_map_right_iff, List.forall₂_same]
    exact fun s _ => ⟨rfl, h _⟩
  · show Option.Rel _ S.wave (S.wave.map _)
    cases S.wave with
    | none => exact .none
    | some w => exact .some ⟨rfl, h _⟩

/-- The same for signals that are shifted and cut off before they start. -/
theorem C80_postponed {g : Grid ℝ} (hg : g.Wide) (hl : Lawful g) (hT : g.T = 0 ∨ 2 ≤ g.T) {S : Scene} (f : S.Fits g) (k n : ℕ) :
    ∃ c c', S.run g n = .ok c ∧ (S.postpone (k * g.dt)).run g (k + n) = .ok c' ∧
      ∀ i j, c'.f.Ez.val i j = c.f.Ez.val i j ∧ c'.f.Hx.val i j = c.f.Hx.val i j ∧ c'.f.Hy.val i j = c.f.Hy.val i j :=
  C80_delay hg hl hT f (later_postpone (by rw [hl.dt]; have := hl.dx; positivity) k S) n

/-- Before that there is no field. -/
theorem C80_quiet {g : Grid ℝ} (hg : g.Wide) (hl : Lawful g) (hT : g.T = 0 ∨ 2 ≤ g.T) {S : Scene} (f : S.Fits g) {k : ℕ}
    (hs : ∀ s ∈ S.srcs, ∀ m : ℕ, m ≤ k → s.tp.resp (m * g.dt) = 0) (hw : ∀ w, S.wave = some w → ∀ m : ℕ, m ≤ k → w.2.resp (m * g.dt) = 0) :
    ∃ c, S.run g k = .ok c ∧ ∀ i j, c.f.Ez.val i j = 0 ∧ c.f.Hx.val i j = 0 ∧ c.f.Hy.val i j = 0 := by
  -- the scene whose signals are those after step `k`
  let early : TimeProfile ℝ → TimeProfile ℝ := fun tp => { tp with resp := fun t => tp.resp (t + k * g.dt) }
  let S0 : Scene := ⟨S.objs, S.srcs.map fun s => { s with tp := early s.tp }, S.wave.map fun w => (w.1, early w.2)⟩
  have f0 : S0.Fits g := by
    refine ⟨f.clear, f.box, ?_, ?_⟩
    · intro s hs
      obtain ⟨q, hq, rfl⟩ := List.mem_map.mp hs
      exact fits_kind rfl (f.srcs q hq)
    · intro w hw
      obtain ⟨q, hq, rfl⟩ := Option.map_eq_some_iff.mp hw
      exact f.wave q hq
  have hlater : ∀ tp : TimeProfile ℝ, (∀ m : ℕ, m ≤ k → tp.resp (m * g.dt) = 0) → Later g.dt k (early tp).resp tp.resp := by
    intro tp h
    refine ⟨h, fun m _ => ?_⟩
    show tp.resp _ = tp.resp (m * g.dt + k * g.dt)
    congr 1; push_cast; ring
  have hL : LaterScene g.dt k S0 S := by
    refine ⟨rfl, ?_, ?_⟩
    · show List.Forall₂ _ (S.srcs.map _) S.srcs
      rw [List.forall₂_map_left_iff, List.forall₂_same]
      exact fun s h => ⟨rfl, hlater _ (hs s h)⟩
    · show Option.Rel _ (S.wave.map _) S.wave
      cases e : S.wave with
      | none => exact .none
      | some w => exact .some ⟨rfl, hlater _ (hw w e)⟩
  obtain ⟨c, c', h1, h2, h3⟩ := C80_delay hg hl hT f0 hL 0
  refine ⟨c', h2, fun i j => ?_⟩
  obtain ⟨c0, m0, s0, g0, z0⟩ := make_silent hg hl hT
  obtain ⟨c1, m1, s1, g1, z1⟩ := Core.Std.insertAll S0.objs s0 z0 (by rw [g0]; exact fun o ho => safe_of_clear hl (f0.clear o ho))
  have ec : c.f = c1.f := by
    unfold Scene.run at h1
    rw [m0, Except.ok_bind, m1, Except.ok_bind] at h1
    cases hT : S0.wave with
    | none => rw [hT] at h1; rw [← Except.ok.inj h1]
    | some w => rw [hT] at h1; rw [← Except.ok.inj h1]; rfl
  obtain ⟨a1, a2, a3⟩ := h3 i j
  rw [a1, a2, a3, ec]
  exact ⟨z1.Ez i j, z1.Hx i j, z1.Hy i j⟩

/-! ## The parameter `T0` of `gaussian_time` -/

/-- What one might expect of the parameter `T0` of `gaussian_time`: a pulse with a larger `T0` is the same pulse, later, and makes the same
fields, later. -/
def C81_statement : Prop :=
  ∀ (g : Grid ℝ) (_ : g.Wide) (_ : Lawful g) (_ : 2 ≤ g.T) (C : Fields) (p : V2 ℝ) (f sig T0 : ℝ) (k n : ℕ) (c c' : Core ℝ),
    (⟨[], [⟨"s", .point C p, .gaussian f sig T0⟩], none⟩ : Scene).Fits g →
    (⟨[], [⟨"s", .point C p, .gaussian f sig T0⟩], none⟩ : Scene).run g n = .ok c →
    (⟨[], [⟨"s", .point C p, .gaussian f sig (T0 + k * g.dt)⟩], none⟩ : Scene).run g (k + n) = .ok c' →
    ∀ i j, c'.f.Ez.val i j = c.f.Ez.val i j

/-- The signal of `gaussian_time`. -/
theorem gaussianResp_real (f sig T0 t : ℝ) : gaussianResp f sig T0 t =
    Real.sin (2 * Real.pi * f * t) * Real.exp (-((t - T0) * sig * 2 * Real.pi) ^ 2) := by
  unfold gaussianResp
  simp only [ofInt_real, npow_real, sin_real, exp_real, pi_real]
  push_cast
  rw [show (-1 : ℝ) * ((t - T0) * sig * 2 * Real.pi) ^ 2 = -((t - T0) * sig * 2 * Real.pi) ^ 2 by ring]

/-- **C81** (what holds) The signal is delayed exactly if the delay is a whole number of periods of the carrier, because only the envelope moves
with `T0`. -/
theorem C81_partial (f sig T0 τ : ℝ) :
    (∀ t, gaussianResp f sig (T0 + τ) (t + τ) = gaussianResp f sig T0 t) ↔ ∃ m : ℤ, f * τ = m := by
  constructor
  · intro h
    by_cases hf : f = 0
    · exact ⟨0, by simp [hf]⟩
    · have h1 := h (1 / (4 * f))
      rw [gaussianResp_real, gaussianResp_real, show (1 / (4 * f) + τ - (T0 + τ)) = 1 / (4 * f) - T0 by ring] at h1
      have h2 := mul_right_cancel₀ (Real.exp_ne_zero _) h1
      rw [show 2 * Real.pi * f * (1 / (4 * f) + τ) = f * τ * (2 * Real.pi) + Real.pi / 2 by field_simp; ring,
        show 2 * Real.pi * f * (1 / (4 * f)) = Real.pi / 2 by field_simp; ring, Real.sin_add_pi_div_two, Real.sin_pi_div_two,
        Real.cos_eq_one_iff] at h2
      obtain ⟨m, hm⟩ := h2
      exact ⟨m, mul_right_cancel₀ (by positivity : (2 * Real.pi) ≠ 0) hm.symm⟩
  · rintro ⟨m, hm⟩ t
    rw [gaussianResp_real, gaussianResp_real, show (t + τ - (T0 + τ)) = t - T0 by ring,
      show 2 * Real.pi * f * (t + τ) = 2 * Real.pi * f * t + m * (2 * Real.pi) by rw [← hm]; ring, Real.sin_add_int_mul_two_pi]

/-- The pulse is not silent before it starts later: a larger `T0` moves nothing at the first step. -/
theorem C81_false : ¬ C81_statement := by
  intro h
  set s : Source ℝ := ⟨"s", .point .Ez ⟨((10 : ℤ) : ℝ), ((10 : ℤ) : ℝ)⟩, .gaussian (1 / 2) 1 0⟩ with hs
  set s' : Source ℝ := ⟨"s", .point .Ez ⟨((10 : ℤ) : ℝ), ((10 : ℤ) : ℝ)⟩, .gaussian (1 / 2) 1 (0 + (1 : ℕ) * gEx.dt)⟩ with hs'
  have hT : gEx.T = 0 ∨ 2 ≤ gEx.T := by rw [gEx_T]; norm_num
  have fs : Fits gEx s := gEx_fits (by simp [Fields.IsComp]) (by norm_num) (by norm_num) (by norm_num) (by norm_num) _
  have fs' : Fits gEx s' := gEx_fits (by simp [Fields.IsComp]) (by norm_num) (by norm_num) (by norm_num) (by norm_num) _
  have F : (⟨[], [s], none⟩ : Scene).Fits gEx := ⟨by simp, by simp, by simpa using fs, by simp⟩
  obtain ⟨c, m0, st, hg, hz⟩ := gEx_std
  have ht : c.t = 0 := (Unstarted.make m0).t
  obtain ⟨c', l', E2, E3, E4, f, u, S⟩ := Core.update_step st [s'] (by rw [hg]; simpa using fs')
  have r0 : (⟨[], [s], none⟩ : Scene).run gEx 0 = .ok c := by
    unfold Scene.run
    rw [m0, Except.ok_bind]; rfl
  have r1 : (⟨[], [s'], none⟩ : Scene).run gEx (1 + 0) = .ok c' := by
    unfold Scene.run
    rw [m0, Except.ok_bind, show (forList ([] : List (Object ℝ)) c fun o c => c.insertObject o) = .ok c from rfl, Except.ok_bind]
    simp only
    rw [show c.run (1 + 0) [s'] = .ok (c', l') by
      show (do let (c, l) ← c.update [s']; Core.run 0 c l) = _
      rw [u]; rfl]
    rfl
  have key := h gEx gEx_wide gEx_lawful (by rw [gEx_T]; norm_num) .Ez _ (1 / 2) 1 0 1 0 c c' F r0 r1 10 10
  rw [hz.Ez, S.eE, S.fE, silent_step st hz S, hz.tfsf, hg, ht] at key
  simp only [tfEz, zero_add, totalContrib, List.map_cons, List.map_nil, List.sum_cons, List.sum_nil, add_zero, contrib, gEx_dt] at key
  rw [if_pos (show Drives gEx s' .Ez ⟨10, 10⟩ from ⟨rfl, (gEx_node 10 10).symm⟩)] at key
  rw [show s'.tp.resp (1 / 2) = gaussianResp (1 / 2) 1 (0 + (1 : ℕ) * gEx.dt) (1 / 2) from rfl, gaussianResp_real,
    show 2 * Real.pi * (1 / 2) * (1 / 2) = Real.pi / 2 by ring, Real.sin_pi_div_two, one_mul] at key
  exact Real.exp_ne_zero _ key

/-! ## Non-trivial cases -/

/-- C80: a glass cylinder, a metal block and a Gaussian pulse that is switched on after 30 steps. -/
example (n : ℕ) : ∃ c c', (glassMetal ⟨1, 0, 0⟩).run gEx n = .ok c ∧ ((glassMetal ⟨1, 0, 0⟩).postpone ((30 : ℕ) * gEx.dt)).run gEx (30 + n) = .ok c' ∧
    ∀ i j, c'.f.Ez.val i j = c.f.Ez.val i j ∧ c'.f.Hx.val i j = c.f.Hx.val i j ∧ c'.f.Hy.val i j = c.f.Hy.val i j :=
  C80_postponed gEx_wide gEx_lawful (by rw [gEx_T]; norm_num) (glassMetal_fits (v := ⟨1, 0, 0⟩) gEx_lawful one_pos gEx_dx (le_refl 0) (le_refl 0)
    (by rw [gEx_Nx]; norm_num) (by rw [gEx_Ny]; norm_num)) 30 n

/-- C80: an incident wave on a region inside the example grid. -/
example (tp : TimeProfile ℝ) : (⟨[], [], some (⟨⟨((5 : ℤ) : ℝ), ((6 : ℤ) : ℝ)⟩, ⟨((12 : ℤ) : ℝ), ((13 : ℤ) : ℝ)⟩, ⟨7, 7⟩⟩, tp)⟩ : Scene).Fits gEx := by
  refine ⟨by simp, by simp, by simp, ?_⟩
  intro w hw
  cases hw
  rw [gEx_node 5 6, gEx_node 12 13, gEx_Nx, gEx_Ny]
  norm_num

/-- C81: with a carrier of frequency one, a delay of three is a delay. -/
example (sig T0 t : ℝ) : gaussianResp 1 sig (T0 + 3) (t + 3) = gaussianResp 1 sig T0 t := (C81_partial 1 sig T0 3).mpr ⟨3, by norm_num⟩ t

end Qbox.Props
