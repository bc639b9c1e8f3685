import Verif.Props.SafetyProps

/-!
# C87: when one monitor is subtracted from another
-/

namespace Qbox.Props
open Qbox Scalar Spec

set_option linter.unusedSectionVars false

variable {K P : Type} [Scalar K] [DecidableEq P]

/-- A component that `d -= o` can subtract: `o` has it, at the same positions and for as many frequencies. -/
def Agrees (d o : Dft K P) (q : String × Acc K P) : Prop :=
  ∃ b, accFind q.1 o.acc = some b ∧ q.2.pos = b.pos ∧ d.freq.length = o.freq.length

/-- Component by component, the second list holds the data of the first less those of `o`. -/
def Less (o : Dft K P) (l l' : List (String × Acc K P)) : Prop :=
  List.Forall₂ (fun q q' => q'.1 = q.1 ∧ q'.2.pos = q.2.pos ∧ ∃ b, accFind q.1 o.acc = some b ∧
    ∀ p k, q'.2.re p k = q.2.re p k - b.re p k ∧ q'.2.im p k = q.2.im p k - b.im p k) l l'

theorem accSub_less (d o : Dft K P) : ∀ (l : List (String × Acc K P)), (∀ q ∈ l, Agrees d o q) → ∀ r,
    (accSub d.freq.length o (l ++ r) = (accSub d.freq.length o r).map fun r' => (l.map fun q => (q.1, match accFind q.1 o.acc with
      | some b => q.2.sub b | none => q.2)) ++ r') ∧ accSubLeft o (l ++ r) = (l.map fun q => (q.1, match accFind q.1 o.acc with
      | some b => q.2.sub b | none => q.2)) ++ accSubLeft o r
  | [], _, r => by
    constructor
    · simp only [List.nil_append, List.map_nil]
      cases accSub d.freq.length o r <;> rfl
    · rfl
  | (n, a) :: l, h, r => by
    obtain ⟨b, b1, b2, b3⟩ := h (n, a) (by simp)
    obtain ⟨h1, h2⟩ := accSub_less d o l (fun q hq => h q (by simp [hq])) r
    have hg : o.get n = .ok b := Dft.get_ok_iff.mpr b1
    simp only at b1 b2
    constructor
    · rw [List.cons_append, accSub, hg, Except.ok_bind, if_pos ⟨b2, b3⟩, h1]
      cases accSub d.freq.length o r <;> simp [b1, Except.map]
    · rw [List.cons_append, accSubLeft, hg]
      simp only [h2, List.map_cons, b1, List.cons_append]

theorem less_map (d o : Dft K P) (l : List (String × Acc K P)) (h : ∀ q ∈ l, Agrees d o q) :
    Less o l (l.map fun q => (q.1, match accFind q.1 o.acc with | some b => q.2.sub b | none => q.2)) := by
  unfold Less
  rw [List.forall₂_map_right_iff]
  refine List.forall₂_same.mpr fun q hq => ?_
  obtain ⟨b, b1, -, -⟩ := h q hq
  refine ⟨rfl, ?_, b, b1, ?_⟩ <;> simp only [b1]
  · rfl
  · exact fun p k => ⟨rfl, rfl⟩

/-- **C87** (transforms, what `-=` does): the first component on which the two sides do not agree decides. If there is none everything is subtracted;
if the right side lacks it, `-=` throws, and what comes before it is subtracted and the rest is not; if it has another shape, the behaviour is
undefined. -/
theorem C87_outcomes (d o : Dft K P) :
    ((∀ q ∈ d.acc, Agrees d o q) ∧ ∃ e, d.sub o = .ok e ∧ e.freq = d.freq ∧ e.t = d.t ∧ Less o d.acc e.acc) ∨
    ∃ l q r, d.acc = l ++ q :: r ∧ (∀ x ∈ l, Agrees d o x) ∧ ¬ Agrees d o q ∧
      ((accFind q.1 o.acc = none ∧ d.sub o = .error (.exn "map::at") ∧ ∃ l', Less o l l' ∧ d.subLeft o = { d with acc := l' ++ q :: r }) ∨
        ((accFind q.1 o.acc).isSome ∧ d.sub o = .error (.ub .oob))) := by
  by_cases h : ∀ q ∈ d.acc, Agrees d o q
  · refine .inl ⟨h, { d with acc := d.acc.map fun q => (q.1, match accFind q.1 o.acc with | some b => q.2.sub b | none => q.2) }, ?_, rfl, rfl,
      less_map d o d.acc h⟩
    obtain ⟨e, -⟩ := accSub_less d o d.acc h []
    unfold Dft.sub
    rw [List.append_nil] at e
    rw [e]
    simp [accSub, Except.map]
  · refine .inr ?_
    have split : ∀ (k : List (String × Acc K P)), ¬ (∀ q ∈ k, Agrees d o q) → ∃ l q r, k = l ++ q :: r ∧ (∀ x ∈ l, Agrees d o x) ∧ ¬ Agrees d o q := by
      intro k
      induction k with
      | nil => intro h; exact absurd (by simp) h
      | cons x k ih =>
        intro h
        by_cases hx : Agrees d o x
        · obtain ⟨l, q, r, h1, h2, h3⟩ := ih (fun hk => h fun q hq => by
            rcases List.mem_cons.mp hq with rfl | hq
            · exact hx
            · exact hk q hq)
          refine ⟨x :: l, q, r, by rw [h1]; rfl, fun y hy => ?_, h3⟩
          rcases List.mem_cons.mp hy with rfl | hy
          · exact hx
          · exact h2 y hy
        · exact ⟨[], x, k, rfl, by simp, hx⟩
    obtain ⟨l, ⟨n, a⟩, r, h1, h2, h3⟩ := split d.acc h
    refine ⟨l, (n, a), r, h1, h2, h3, ?_⟩
    obtain ⟨e1, e2⟩ := accSub_less d o l h2 ((n, a) :: r)
    cases hb : accFind n o.acc with
    | none =>
      have hg : o.get n = .error (.exn "map::at") := by unfold Dft.get; rw [hb]
      refine .inl ⟨rfl, ?_, _, less_map d o l h2, ?_⟩
      · unfold Dft.sub
        rw [h1, e1, accSub, hg]; rfl
      · unfold Dft.subLeft
        rw [h1, e2, accSubLeft, hg]
    | some b =>
      have hg : o.get n = .ok b := Dft.get_ok_iff.mpr hb
      refine .inr ⟨rfl, ?_⟩
      unfold Dft.sub
      rw [h1, e1, accSub, hg, Except.ok_bind, if_neg fun h => h3 ⟨b, hb, h.1, h.2⟩]
      rfl

/-- **C87** (surface monitors of a simulation). -/
theorem C87_partial (now : ℕ → ℝ) (s : Sim K) (i : ℕ) (m o : SurfMon K) (hi : s.mons[i]? = some (.surf m))
    (h : ∀ q ∈ m.fourier.acc, Agrees m.fourier o.fourier q) : ∃ m' : SurfMon K,
      s.step now (.subtract i (.surf o)) = .ok { s with mons := s.mons.set i (.surf m') } ∧ m'.name = m.name ∧ m'.surf = m.surf ∧ m'.tag = m.tag ∧
      m'.length = m.length ∧ m'.prevE = m.prevE ∧ m'.fourier.freq = m.fourier.freq ∧ m'.fourier.t = m.fourier.t ∧
      Less o.fourier m.fourier.acc m'.fourier.acc := by
  rcases C87_outcomes m.fourier o.fourier with ⟨-, e, e1, e2, e3, e4⟩ | ⟨l, q, r, h1, -, h3, -⟩
  · refine ⟨{ m with fourier := e }, ?_, rfl, rfl, rfl, rfl, rfl, e2, e3, e4⟩
    unfold Sim.step
    simp only [hi, Monitor.sub, SurfMon.sub, e1, Except.ok_bind, Except.pure_eq, tryM]
  · exact absurd (h q (by rw [h1]; simp)) h3

/-! ## Subtraction does not check that the monitors agree -/

/-- A horizontal line in the grid of the examples, and a monitor attached to it. -/
theorem line : ∃ (s : Surf ℝ) (n : ℤ) (is : ISurf), 0 < n ∧ is.dim.x ≠ 0 ∧ (∀ tag freq, MonitorInside False gEx (.surf (.make "m" s tag freq))) ∧
    ∀ tag freq, (SurfMon.make "m" s tag freq).setF gEx = .ok ⟨"m", s, tag, n, .const n 0,
      (Dft.make freq : Dft ℝ ℤ).addAll (intRange 0 n) (surfKeys tag is)⟩ := by
  obtain ⟨s, hs⟩ := boxFace_make (⟨((4 : ℤ) : ℝ), ((4 : ℤ) : ℝ)⟩ : V2 ℝ) ⟨((9 : ℤ) : ℝ), ((12 : ℤ) : ℝ)⟩ 0
  have n := gEx_node
  have hne : gEx.toGrid (⟨((4 : ℤ) : ℝ), ((4 : ℤ) : ℝ)⟩ : V2 ℝ) ≠ gEx.toGrid ⟨((9 : ℤ) : ℝ), ((4 : ℤ) : ℝ)⟩ := by
    rw [n, n]; intro h; exact absurd (congrArg V2.x h) (by norm_num)
  obtain ⟨is, hi, k1, k2, -⟩ := toGridS_make gEx _ _ _ s hs hne
  have inn : ∀ i j : ℤ, 1 ≤ i → i < 20 → 1 ≤ j → j < 20 → InnerNode gEx (gEx.toGrid ⟨(i : ℝ), (j : ℝ)⟩) := by
    intro i j h1 h2 h3 h4
    rw [n]
    refine ⟨?_, ?_, ?_, ?_⟩
    · rw [gEx_dx]; exact_mod_cast h1
    · rw [gEx_dx]; exact_mod_cast h3
    · rw [gEx_Nx]; exact h2
    · rw [gEx_Ny]; exact h4
  refine ⟨s, is.dim.inorm, is, ?_, ?_, fun tag freq => .surf _ _ _ _ _ _ _ hs hne (inn 4 4 (by norm_num) (by norm_num) (by norm_num) (by norm_num))
    (inn 9 4 (by norm_num) (by norm_num) (by norm_num) (by norm_num)), fun tag freq => surf_setF gEx "m" s tag freq is hi _ rfl⟩
  · rw [k1]
    show 0 < |(gEx.toGrid ⟨((4 : ℤ) : ℝ), ((4 : ℤ) : ℝ)⟩).x - (gEx.toGrid ⟨((9 : ℤ) : ℝ), ((4 : ℤ) : ℝ)⟩).x| +
      |(gEx.toGrid ⟨((4 : ℤ) : ℝ), ((4 : ℤ) : ℝ)⟩).y - (gEx.toGrid ⟨((9 : ℤ) : ℝ), ((4 : ℤ) : ℝ)⟩).y|
    rw [n, n]; decide
  · rw [k2]
    show |(gEx.toGrid ⟨((4 : ℤ) : ℝ), ((4 : ℤ) : ℝ)⟩).x - (gEx.toGrid ⟨((9 : ℤ) : ℝ), ((4 : ℤ) : ℝ)⟩).x| ≠ 0
    rw [n, n]; decide

/-- The simulation with one monitor attached. -/
theorem one_monitor (now : ℕ → ℝ) {s : Surf ℝ} {tag : DftTag} {freq : List ℝ} {m : SurfMon ℝ} (h : (SurfMon.make "m" s tag freq).setF gEx = .ok m) :
    ∃ s0 s1, Sim.make now gEx "out.h5" = .ok s0 ∧ s0.runOk now [.addMonitor (.surf (.make "m" s tag freq))] = .ok s1 ∧ s1.mons[0]? = some (.surf m) := by
  obtain ⟨s0, h0, hs⟩ := make_safe now False gEx gEx_wide "out.h5" (by decide)
  refine ⟨s0, { s0 with mons := s0.mons ++ [.surf m] }, h0, ?_, ?_⟩
  · have : s0.step now (.addMonitor (.surf (.make "m" s tag freq))) = .ok { s0 with mons := s0.mons ++ [.surf m] } := by
      show tryM (Monitor.setF s0.core.g _) s0 _ = _
      rw [hs.grid]
      have e : Monitor.setF gEx (.surf (.make "m" s tag freq)) = .ok (.surf m) := by
        show (do let m ← SurfMon.setF gEx _; pure (Monitor.surf m)) = _
        rw [h]; rfl
      rw [e]; rfl
    unfold Sim.runOk
    rw [this]; rfl
  · have := make_kept h0
    unfold Sim.Kept at this
    rw [List.forall₂_nil_left_iff.mp this]; rfl

/-- A monitor as attached, but with the data `v` in all its components. -/
def holding (v : ℝ) (m : SurfMon ℝ) : SurfMon ℝ :=
  { m with fourier := { m.fourier with acc := m.fourier.acc.map fun q => (q.1, { q.2 with re := fun _ _ => v, im := fun _ _ => v }) } }

/-- **C87** is false: a monitor of all components is attached to a line, and one that has recorded only `Ez` on the same line is subtracted. The call
throws, but afterwards `Ez` is subtracted and `Hx` and `Hy` are not. -/
theorem C87_false (now : ℕ → ℝ) (freq : List ℝ) (v : ℝ) : ∃ s s0 s1 m o s2 m',
    MonitorInside False gEx (.surf (.make "m" s .all freq)) ∧ (SurfMon.make "m" s .all freq).setF gEx = .ok m ∧
    (SurfMon.make "m" s .Ez freq).setF gEx = .ok o ∧ Sim.make now gEx "out.h5" = .ok s0 ∧
    s0.runOk now [.addMonitor (.surf (.make "m" s .all freq))] = .ok s1 ∧ s1.mons[0]? = some (.surf m) ∧
    s1.step now (.subtract 0 (.surf (holding v o))) = .threw "map::at" s2 ∧ s2.mons[0]? = some (.surf m') ∧
    (∃ a, m.fourier.get "Ez" = .ok a ∧ ∀ p k, a.re p k = 0) ∧ (∃ a p, m'.fourier.get "Ez" = .ok a ∧ p ∈ a.pos ∧ ∀ k, a.re p k = -v) ∧
    (∃ a, m'.fourier.get "Hx" = .ok a ∧ m.fourier.get "Hx" = .ok a) ∧ ∃ a, m'.fourier.get "Hy" = .ok a ∧ m.fourier.get "Hy" = .ok a := by
  obtain ⟨s, n, is, hn, -, hin, hs⟩ := line
  obtain ⟨s0, s1, h0, h1, h2⟩ := one_monitor now (hs .all freq)
  obtain ⟨a1, a2, -, -⟩ := addAll_acc (K := ℝ) freq (intRange 0 n) (surfKeys .all is) (surfKeys_mem .all is)
  obtain ⟨b1, b2, -, -⟩ := addAll_acc (K := ℝ) freq (intRange 0 n) (surfKeys .Ez is) (surfKeys_mem .Ez is)
  have hD := hs .all freq
  generalize (Dft.make freq : Dft ℝ ℤ).addAll (intRange 0 n) (surfKeys .all is) = D at *
  have hO := hs .Ez freq
  generalize hO' : (Dft.make freq : Dft ℝ ℤ).addAll (intRange 0 n) (surfKeys .Ez is) = O at *
  generalize ho : (⟨"m", s, .Ez, n, .const n 0, O⟩ : SurfMon ℝ) = o at *
  simp only [surfKeys, List.map_cons, List.map_nil] at a1 b1
  have c1 : (holding v o).fourier.acc = [("Ez", ⟨intRange 0 n, fun _ _ => v, fun _ _ => v⟩)] := by
    subst ho
    simp only [holding, b1, List.map_cons, List.map_nil]
  have c2 : (holding v o).fourier.freq = freq := by
    subst ho
    exact b2
  have e1 : D.sub (holding v o).fourier = .error (.exn "map::at") := by
    unfold Dft.sub
    rw [a1]
    simp [accSub, Dft.get, c1, accFind, a2, c2]
  have e2 : (D.subLeft (holding v o).fourier).acc = [("Ez", ⟨intRange 0 n, fun _ _ => 0 - v, fun _ _ => 0 - v⟩),
      ("Hx", ⟨intRange 0 n, fun _ _ => 0, fun _ _ => 0⟩), ("Hy", ⟨intRange 0 n, fun _ _ => 0, fun _ _ => 0⟩)] := by
    unfold Dft.subLeft
    rw [a1]
    simp [accSubLeft, Dft.get, c1, accFind, Acc.sub]
  have e3 : s1.step now (.subtract 0 (.surf (holding v o))) = .threw "map::at" { s1 with
      mons := s1.mons.set 0 (.surf (SurfMon.subLeft ⟨"m", s, .all, n, .const n 0, D⟩ (holding v o))) } := by
    unfold Sim.step
    simp only [h2, Monitor.sub, SurfMon.sub, e1, tryM, Monitor.subLeft]
    rfl
  refine ⟨s, s0, s1, _, o, _, SurfMon.subLeft ⟨"m", s, .all, n, .const n 0, D⟩ (holding v o), hin .all freq, hD, hO, h0, h1, h2, e3, ?_, ⟨⟨intRange 0 n, fun _ _ => 0, fun _ _ => 0⟩, ?_, fun _ _ => rfl⟩, ⟨⟨intRange 0 n, fun _ _ => 0 - v, fun _ _ => 0 - v⟩, 0, ?_, ?_,
    fun k => ?_⟩, ⟨⟨intRange 0 n, fun _ _ => 0, fun _ _ => 0⟩, ?_, ?_⟩, ⟨intRange 0 n, fun _ _ => 0, fun _ _ => 0⟩, ?_, ?_⟩
  · have : 0 < s1.mons.length := by
      by_contra hl
      rw [List.getElem?_eq_none (by omega)] at h2
      cases h2
    show (s1.mons.set 0 _)[0]? = _
    rw [List.getElem?_set_self this]
  · simp [Dft.get, a1, accFind]
  · simp [Dft.get, SurfMon.subLeft, e2, accFind]
  · exact mem_intRange.mpr ⟨le_rfl, hn⟩
  · exact zero_sub v
  · simp [Dft.get, SurfMon.subLeft, e2, accFind]
  · simp [Dft.get, a1, accFind]
  · simp [Dft.get, SurfMon.subLeft, e2, accFind]
  · simp [Dft.get, a1, accFind]

/-- So a call that throws does not leave the simulation as it was. -/
theorem C87_not_atomic (now : ℕ → ℝ) : ¬ ∀ (s s' : Sim ℝ) (i : ℕ) (o : Monitor ℝ) (w : String), s.step now (.subtract i o) = .threw w s' → s' = s := by
  intro h
  obtain ⟨s, s0, s1, m, o, s2, m', -, -, -, -, -, k2, k3, k4, ⟨b, b1, b2⟩, ⟨a, p, a1, -, a3⟩, -⟩ := C87_false now [1] 1
  have := h _ _ _ _ _ k3
  subst this
  rw [k2] at k4
  obtain rfl : m = m' := by simpa using k4
  rw [a1] at b1
  obtain rfl := Except.ok.inj b1
  have := a3 0
  rw [b2] at this
  norm_num at this

/-- **C87** is false: a monitor is subtracted from one with the same number of other frequencies, without complaint. -/
theorem C87_other_frequencies (now : ℕ → ℝ) (freq freq' : List ℝ) (hl : freq.length = freq'.length) (v : ℝ) : ∃ s s0 s1 m o s2 m',
    MonitorInside False gEx (.surf (.make "m" s .all freq)) ∧ (SurfMon.make "m" s .all freq).setF gEx = .ok m ∧
    (SurfMon.make "m" s .all freq').setF gEx = .ok o ∧ Sim.make now gEx "out.h5" = .ok s0 ∧
    s0.runOk now [.addMonitor (.surf (.make "m" s .all freq))] = .ok s1 ∧ s1.mons[0]? = some (.surf m) ∧
    s1.step now (.subtract 0 (.surf (holding v o))) = .ok s2 ∧ s2.mons[0]? = some (.surf m') ∧ m'.fourier.freq = freq ∧
    o.fourier.freq = freq' ∧ ∃ a, m'.fourier.get "Ez" = .ok a ∧ 0 ∈ a.pos ∧ ∀ p k, a.re p k = -v := by
  obtain ⟨s, n, is, hn, -, hin, hs⟩ := line
  obtain ⟨s0, s1, h0, h1, h2⟩ := one_monitor now (hs .all freq)
  obtain ⟨a1, a2, -, -⟩ := addAll_acc (K := ℝ) freq (intRange 0 n) (surfKeys .all is) (surfKeys_mem .all is)
  obtain ⟨b1, b2, -, -⟩ := addAll_acc (K := ℝ) freq' (intRange 0 n) (surfKeys .all is) (surfKeys_mem .all is)
  have hD := hs .all freq
  have hO := hs .all freq'
  generalize (Dft.make freq : Dft ℝ ℤ).addAll (intRange 0 n) (surfKeys .all is) = D at *
  generalize (Dft.make freq' : Dft ℝ ℤ).addAll (intRange 0 n) (surfKeys .all is) = O at *
  generalize ho : (⟨"m", s, .all, n, .const n 0, O⟩ : SurfMon ℝ) = o at *
  simp only [surfKeys, List.map_cons, List.map_nil] at a1 b1
  have c1 : (holding v o).fourier.acc = [("Ez", ⟨intRange 0 n, fun _ _ => v, fun _ _ => v⟩), ("Hx", ⟨intRange 0 n, fun _ _ => v, fun _ _ => v⟩),
      ("Hy", ⟨intRange 0 n, fun _ _ => v, fun _ _ => v⟩)] := by
    subst ho
    simp only [holding, b1, List.map_cons, List.map_nil]
  have c2 : (holding v o).fourier.freq = freq' := by
    subst ho
    exact b2
  obtain ⟨m', k1, k2, k3, k4, k5, k6, k7, k8, k9⟩ := C87_partial now s1 0 _ (holding v o) h2 (by
    intro q hq
    rw [a1] at hq
    unfold Agrees
    rw [c1, c2]
    simp only [a2, hl, and_true]
    simp only [List.mem_cons, List.not_mem_nil, or_false] at hq
    rcases hq with rfl | rfl | rfl
    · exact ⟨_, rfl, rfl⟩
    · exact ⟨_, rfl, rfl⟩
    · exact ⟨_, rfl, rfl⟩)
  refine ⟨s, s0, s1, _, o, _, m', hin .all freq, hD, hO, h0, h1, h2, k1, ?_, k7.trans a2, by subst ho; exact b2, ?_⟩
  · have : 0 < s1.mons.length := by
      by_contra hl
      rw [List.getElem?_eq_none (by omega)] at h2
      cases h2
    show (s1.mons.set 0 _)[0]? = _
    rw [List.getElem?_set_self this]
  · unfold Less at k9
    rw [a1] at k9
    simp only [List.forall₂_cons_left_iff, List.forall₂_nil_left_iff] at k9
    obtain ⟨⟨x, a⟩, u, ⟨e1, e2, b, e3, e4⟩, -, hu⟩ := k9
    simp only at e1 e2 e3 e4
    subst e1
    refine ⟨a, by simp [Dft.get, hu, accFind], by rw [e2]; exact mem_intRange.mpr ⟨le_rfl, hn⟩, fun p k => ?_⟩
    rw [c1] at e3
    simp only [accFind, if_true, Option.some.injEq] at e3
    subst e3
    rw [(e4 p k).1, zero_sub]

/-- **C87** is false: with another number of frequencies the arrays have other dimensions, and the behaviour is undefined; nothing is refused. -/
theorem C87_undefined (now : ℕ → ℝ) (freq freq' : List ℝ) (hl : freq.length ≠ freq'.length) : ∃ s s0 s1 o,
    MonitorInside False gEx (.surf (.make "m" s .all freq)) ∧ (SurfMon.make "m" s .all freq').setF gEx = .ok o ∧ Sim.make now gEx "out.h5" = .ok s0 ∧
    s0.runOk now [.addMonitor (.surf (.make "m" s .all freq))] = .ok s1 ∧ s1.step now (.subtract 0 (.surf o)) = .ub .oob := by
  obtain ⟨s, n, is, hn, -, hin, hs⟩ := line
  obtain ⟨s0, s1, h0, h1, h2⟩ := one_monitor now (hs .all freq)
  obtain ⟨a1, a2, -, -⟩ := addAll_acc (K := ℝ) freq (intRange 0 n) (surfKeys .all is) (surfKeys_mem .all is)
  obtain ⟨b1, b2, -, -⟩ := addAll_acc (K := ℝ) freq' (intRange 0 n) (surfKeys .all is) (surfKeys_mem .all is)
  refine ⟨s, s0, s1, _, hin .all freq, hs .all freq', h0, h1, ?_⟩
  generalize (Dft.make freq : Dft ℝ ℤ).addAll (intRange 0 n) (surfKeys .all is) = D at *
  generalize (Dft.make freq' : Dft ℝ ℤ).addAll (intRange 0 n) (surfKeys .all is) = O at *
  have e1 : D.sub O = .error (.ub .oob) := by
    unfold Dft.sub
    rw [a1, a2]
    simp [surfKeys, accSub, Dft.get, b1, accFind, b2, hl]
  unfold Sim.step
  simp only [h2, Monitor.sub, SurfMon.sub, e1, tryM]
  rfl

example (now : ℕ → ℝ) := C87_undefined now [1] [1, 2] (by simp)
example (now : ℕ → ℝ) := C87_other_frequencies now [1] [2] rfl 1

end Qbox.Props
