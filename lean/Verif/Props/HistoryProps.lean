import Verif.Lemmas.SimCore
import Verif.Lemmas.NodeRecord
import Verif.Props.InstantProps

/-!
# C36, C40: what monitors of a simulation hold after any history

`Watch now s ops qs s'` (`Spec/WatchSpec.lean`) lists the fields and times that the updates of the history `ops` show to the monitors.
-/

namespace Qbox.Props
open Qbox Scalar Spec

/-! ## Histories -/

/-- A history in which a monitor is attached and left alone. -/
structure Attaches (now : ℕ → ℝ) (g : Grid ℝ) (ops1 : List (Op ℝ)) (m : Monitor ℝ) (ops2 : List (Op ℝ)) (s1 s' : Sim ℝ) : Prop where
  wide : g.Wide
  dx : 0 < g.dx
  dt : 0 < g.dt
  start : ∃ fn s0, fn ≠ "" ∧ Sim.make now g fn = .ok s0 ∧ s0.runOk now ops1 = .ok s1
  run : s1.runOk now (.addMonitor m :: ops2) = .ok s'
  inside : Inside False g [] (ops1 ++ .addMonitor m :: ops2)
  leaves : ∀ op ∈ ops2, Leaves s1.mons.length op

/-- What becomes of the monitor. -/
theorem attaches {now : ℕ → ℝ} {g : Grid ℝ} {ops1 : List (Op ℝ)} {m : Monitor ℝ} {ops2 : List (Op ℝ)} {s1 s' : Sim ℝ}
    (h : Attaches now g ops1 m ops2 s1 s') : ∃ s2 qs m1 m2, s1.step now (.addMonitor m) = .ok s2 ∧ Watch now s2 ops2 qs s' ∧
      qs.length = ops2.countP isUpdate ∧ (∀ q ∈ qs, q.1.Dims g.Nx g.Ny) ∧ m.setF g = .ok m1 ∧ m1.Ready False g ∧
      Monitor.runs g qs m1 = .ok m2 ∧ s'.mons[s1.mons.length]? = some m2 ∧
      ((∀ op ∈ ops2, isClear op = false) → List.IsChain (fun a b : ℝ => eqb a b = false) (0 :: qs.map Prod.snd)) := by
  obtain ⟨fn, s0, hf, h0, h1⟩ := h.start
  obtain ⟨s0', h0', hs0⟩ := make_safe now False g h.wide fn hf
  rw [h0] at h0'
  cases h0'
  obtain ⟨objs1, hi1, hs1⟩ := runOk_safe now h.wide h.dx ops1 _ [] s0 s1 h.inside hs0 h1
  obtain ⟨hm, hi2⟩ := hi1
  obtain ⟨m1, e1, r1⟩ := attached (B := False) g h.dx hm
  have hstep : s1.step now (.addMonitor m) = .ok { s1 with mons := s1.mons ++ [m1] } := by
    show tryM (m.setF s1.core.g) s1 _ = _
    rw [hs1.grid, e1]
    rfl
  have hrun := h.run
  unfold Sim.runOk at hrun
  simp only [hstep] at hrun
  have hs2 := step_keeps now h.wide h.dx objs1 (.addMonitor m) ops2 ⟨hm, hi2⟩ hs1
  rw [hstep] at hs2
  obtain ⟨objs2, hi3, hs3⟩ := hs2
  obtain ⟨qs, w, hw⟩ := runOk_watch now h.wide h.dx ops2 objs2 _ s' hi3 hs3 hrun
  obtain ⟨m2, e2, k2⟩ := hw s1.mons.length m1 (by simp) h.leaves
  refine ⟨_, qs, m1, m2, hstep, w, w.length, ?_, e1, r1, e2, k2, fun hc => ?_⟩
  · have := w.grid.2
    rw [hs3.grid] at this
    exact this
  · have ht : 0 ≤ s1.core.t := by
      have hg0 : s0.core.g = g := hs0.grid
      obtain ⟨s, e, -, -, -, t0, -⟩ := make_named now (g := g) (by have := h.wide.nx; omega) (by have := h.wide.ny; omega) hf
      rw [h0] at e
      cases e
      exact runOk_time now ops1 s0 s1 (by rw [hg0]; exact h.dt) (le_of_eq t0.symm) h1
    refine w.distinct hc (by rw [hs3.grid]; exact h.dt) 0 ?_
    show 0 < s1.core.t + s1.core.g.dt
    rw [hs1.grid]
    have := h.dt
    linarith

/-! ## Snapshots -/

/-- The value that was read. -/
noncomputable def readVal : M ℝ → ℝ
  | .ok v => v
  | .error _ => 0

theorem readVal_ok {x : M ℝ} (h : ∃ v, x = .ok v) : x = .ok (readVal x) := by
  obtain ⟨v, rfl⟩ := h; rfl

/-- Readings that all exist find a snapshot. -/
theorem finds_all {n : ℤ} {names : List String} {reads : Flds ℝ × ℝ → (ℤ → M ℝ) × (String → ℤ → M ℝ) × ℝ} (ht : ∀ q, (reads q).2.2 = q.2)
    (qs : List (Flds ℝ × ℝ)) (h : ∀ q ∈ qs, ∀ i, 0 ≤ i → i < n → (∃ v, (reads q).1 i = .ok v) ∧
      ∀ x ∈ names, x ≠ "Ez" → ∃ v, (reads q).2.1 x i = .ok v) :
    ∃ ss : List (Snap ℝ), List.Forall₂ (fun q s => Finds n names (reads q) s) qs ss ∧ ss.map (·.t) = qs.map Prod.snd := by
  refine ⟨qs.map fun q => ⟨q.2, fun i => readVal ((reads q).1 i), fun x i => readVal ((reads q).2.1 x i)⟩, ?_, by simp⟩
  rw [List.forall₂_map_right_iff]
  refine List.forall₂_same.mpr fun q hq => ⟨ht q, fun i h0 h1 => readVal_ok (h q hq i h0 h1).1, fun x hx hne i h0 h1 => readVal_ok ((h q hq i h0 h1).2 x hx hne)⟩

theorem surfKeys_cases {tag : DftTag} {is : ISurf} {x : String} (h : x ∈ surfKeys tag is) : x = "Ez" ∨ x = "Hx" ∨ x = "Hy" := by
  cases tag <;> simp [surfKeys] at h <;> (try split_ifs at h) <;> (try simp at h) <;> tauto

/-- A surface monitor inside the domain finds a snapshot in every field. -/
theorem surf_finds (g : Grid ℝ) (hg : 0 < g.dx) (a b : V2 ℝ) (sg : Sgn) (s : Surf ℝ) (hs : Surf.make a b sg = .ok s)
    (hne : g.toGrid a ≠ g.toGrid b) (ha : InnerNode g (g.toGrid a)) (hb : InnerNode g (g.toGrid b)) (is : ISurf) (hi : g.toGridS s = .ok is)
    (tag : DftTag) (qs : List (Flds ℝ × ℝ)) (hq : ∀ q ∈ qs, q.1.Dims g.Nx g.Ny) :
    ∃ ss : List (Snap ℝ), List.Forall₂ (fun q r => Finds (cells g a b) (surfKeys tag is) (surfReads g s is q) r) qs ss ∧
      ss.map (·.t) = qs.map Prod.snd := by
  refine finds_all (fun _ => rfl) qs fun q hm i h0 h1 => ?_
  obtain ⟨r1, r2, r3⟩ := surfPoint_reads g hg a b sg s hs hne ha hb is hi q.1 (dims_field (hq q hm)) i h0 h1
  refine ⟨r1, fun x hx hE => ?_⟩
  unfold surfReads
  rcases surfKeys_cases hx with rfl | rfl | rfl
  · exact (hE rfl).elim
  · exact r2
  · exact r3

/-! ## Runs of each kind of monitor -/

theorem runs_surf {g : Grid ℝ} : ∀ (qs : List (Flds ℝ × ℝ)) (m : SurfMon ℝ), Monitor.runs g qs (.surf m) = (SurfMon.runs g qs m).map .surf
  | [], m => rfl
  | (f, t) :: qs, m => by
    unfold Monitor.runs SurfMon.runs Monitor.update
    cases e : m.update g f t with
    | error e => simp only [e]; rfl
    | ok m1 => simp only [e, Except.ok_bind, Except.pure_eq]; exact runs_surf qs m1

theorem runs_box {g : Grid ℝ} : ∀ (qs : List (Flds ℝ × ℝ)) (m : BoxMon ℝ), Monitor.runs g qs (.box m) = (boxRuns g qs m).map .box
  | [], m => rfl
  | (f, t) :: qs, m => by
    unfold Monitor.runs boxRuns Monitor.update
    cases e : m.update g f t with
    | error e => simp only [e]; rfl
    | ok m1 => simp only [e, Except.ok_bind, Except.pure_eq]; exact runs_box qs m1

theorem runs_vol {g : Grid ℝ} : ∀ (qs : List (Flds ℝ × ℝ)) (m : VolMon ℝ), Monitor.runs g qs (.vol m) = (VolMon.runs g qs m).map .vol
  | [], m => rfl
  | (f, t) :: qs, m => by
    unfold Monitor.runs VolMon.runs Monitor.update
    cases e : m.update g f t with
    | error e => simp only [e]; rfl
    | ok m1 => simp only [e, Except.ok_bind, Except.pure_eq]; exact runs_vol qs m1

theorem runs_cyl {g : Grid ℝ} : ∀ (qs : List (Flds ℝ × ℝ)) (m : CylMon ℝ), Monitor.runs g qs (.cyl m) = (CylMon.runs g qs m).map .cyl
  | [], m => rfl
  | (f, t) :: qs, m => by
    unfold Monitor.runs CylMon.runs Monitor.update
    cases e : m.update g f t with
    | error e => simp only [e]; rfl
    | ok m1 => simp only [e, Except.ok_bind, Except.pure_eq]; exact runs_cyl qs m1

/-! ## C36 -/

/-- **C36** for surface monitors: after a history without `clear_fields` every component holds one sample per update, at the times of the
updates. Missing: histories in which `clear_fields` puts the clock back (`C36_false`). -/
theorem C36_surface_partial (now : ℕ → ℝ) (g : Grid ℝ) (ops1 ops2 : List (Op ℝ)) (name : String) (a b : V2 ℝ) (sg : Sgn) (s : Surf ℝ) (tag : DftTag)
    (freq : List ℝ) (hs : Surf.make a b sg = .ok s) (hne : g.toGrid a ≠ g.toGrid b) (ha : InnerNode g (g.toGrid a)) (hb : InnerNode g (g.toGrid b))
    (s1 s' : Sim ℝ) (h : Attaches now g ops1 (.surf (.make name s tag freq)) ops2 s1 s') (hc : ∀ op ∈ ops2, isClear op = false) :
    ∃ s2 qs is ss m, s1.step now (.addMonitor (.surf (.make name s tag freq))) = .ok s2 ∧ Watch now s2 ops2 qs s' ∧
      qs.length = ops2.countP isUpdate ∧ g.toGridS s = .ok is ∧
      List.Forall₂ (fun q r => Finds (cells g a b) (surfKeys tag is) (surfReads g s is q) r) qs ss ∧
      s'.mons[s1.mons.length]? = some (.surf m) ∧ m.surf = s ∧ m.fourier.freq = freq ∧
      ∀ x ∈ surfKeys tag is, ∃ acc, m.fourier.get x = .ok acc ∧ acc.pos = intRange 0 (cells g a b) ∧ Holds acc freq x (midway (fun _ => 0) ss) := by
  obtain ⟨s2, qs, m1, m2, e0, w, hl, hq, e1, -, e2, hm, hd⟩ := attaches h
  obtain ⟨is, hi, k2, -, -⟩ := toGridS_make g a b sg s hs hne
  have hn : is.dim.inorm = (cells g a b : ℤ) := by rw [k2]; simp only [cells]; push_cast; rfl
  obtain ⟨ss, hf, ht⟩ := surf_finds g h.dx a b sg s hs hne ha hb is hi tag qs hq
  obtain ⟨M1, M, r1, r2, r3, -, -, -, r4, r5⟩ := surf_record g name s tag freq is hi _ hn qs ss hf
  have : m1 = .surf M1 := by
    unfold Monitor.setF at e1
    simp only [r1, Except.ok_bind] at e1
    exact (Except.ok.inj e1).symm
  subst this
  rw [runs_surf, r2] at e2
  obtain rfl : m2 = .surf M := (Except.ok.inj e2).symm
  refine ⟨s2, qs, is, ss, M, e0, w, hl, hi, hf, hm, r3, r4, fun x hx => ?_⟩
  obtain ⟨acc, a1, a2, a3⟩ := r5 x hx
  rw [averaged_midway ss 0 _ (by rw [ht]; exact hd hc)] at a3
  exact ⟨acc, a1, a2, a3⟩

/-- **C36** for box monitors, partial in the same way: every face holds one sample per update. -/
theorem C36_box_partial (now : ℕ → ℝ) (g : Grid ℝ) (ops1 ops2 : List (Op ℝ)) (name : String) (a b : V2 ℝ) (tag : DftTag) (freq : List ℝ) (m0 : BoxMon ℝ)
    (hm0 : BoxMon.make name (Vol.make a b) tag freq = .ok m0) (hx : (g.toGrid a).x < (g.toGrid b).x) (hy : (g.toGrid a).y < (g.toGrid b).y)
    (ha : InnerNode g (g.toGrid a)) (hb : InnerNode g (g.toGrid b))
    (s1 s' : Sim ℝ) (h : Attaches now g ops1 (.box m0) ops2 s1 s') (hc : ∀ op ∈ ops2, isClear op = false) :
    ∃ s2 qs m, s1.step now (.addMonitor (.box m0)) = .ok s2 ∧ Watch now s2 ops2 qs s' ∧
      qs.length = ops2.countP isUpdate ∧ s'.mons[s1.mons.length]? = some (.box m) ∧
      ∃ M : Fin 4 → SurfMon ℝ, m.faces = [M 0, M 1, M 2, M 3] ∧ ∀ f, ∃ s is ss,
        Surf.make (boxFace a b f).1 (boxFace a b f).2.1 (boxFace a b f).2.2 = .ok s ∧ g.toGridS s = .ok is ∧
        List.Forall₂ (fun q r => Finds (cells g (boxFace a b f).1 (boxFace a b f).2.1) (surfKeys tag is) (surfReads g s is q) r) qs ss ∧
        (M f).surf = s ∧ (M f).fourier.freq = freq ∧ ∀ x ∈ surfKeys tag is, ∃ acc, (M f).fourier.get x = .ok acc ∧
          acc.pos = intRange 0 (cells g (boxFace a b f).1 (boxFace a b f).2.1) ∧ Holds acc freq x (midway (fun _ => 0) ss) := by
  obtain ⟨s2, qs, m1, m2, e0, w, hl, hq, e1, -, e2, hm, hd⟩ := attaches h
  have hgf : ∀ f, g.toGrid (boxFace a b f).1 ≠ g.toGrid (boxFace a b f).2.1 := by
    intro f e
    have e1 := congrArg V2.x e
    have e2 := congrArg V2.y e
    simp only [Grid.toGrid, roundI_real] at hx hy e1 e2
    fin_cases f <;> simp [boxFace] at e1 e2 <;> omega
  have h1 : ∀ f, InnerNode g (g.toGrid (boxFace a b f).1) := by
    intro f
    obtain ⟨a1, a2, a3, a4⟩ := ha
    obtain ⟨b1, b2, b3, b4⟩ := hb
    fin_cases f <;> refine ⟨?_, ?_, ?_, ?_⟩ <;> assumption
  have h2 : ∀ f, InnerNode g (g.toGrid (boxFace a b f).2.1) := by
    intro f
    obtain ⟨a1, a2, a3, a4⟩ := ha
    obtain ⟨b1, b2, b3, b4⟩ := hb
    fin_cases f <;> refine ⟨?_, ?_, ?_, ?_⟩ <;> assumption
  choose s hs using boxFace_make a b
  choose is hi k2 _ _ using fun f => toGridS_make g _ _ _ (s f) (hs f) (hgf f)
  have hn : ∀ f, (is f).dim.inorm = (cells g (boxFace a b f).1 (boxFace a b f).2.1 : ℤ) := by
    intro f; rw [k2]; simp only [cells]; push_cast; rfl
  choose ss hf ht using fun f => surf_finds g h.dx _ _ _ (s f) (hs f) (hgf f) (h1 f) (h2 f) (is f) (hi f) tag qs hq
  let nm : Fin 4 → String := ![name ++ "_1", name ++ "_2", name ++ "_3", name ++ "_4"]
  choose M1 M r1 r2 r3 _ _ _ r4 r5 using fun f => surf_record g (nm f) (s f) tag freq (is f) (hi f) _ (hn f) qs (ss f) (hf f)
  have hm0' : m0 = ⟨name, Vol.make a b, freq.length, [SurfMon.make (nm 0) (s 0) tag freq, SurfMon.make (nm 1) (s 1) tag freq,
      SurfMon.make (nm 2) (s 2) tag freq, SurfMon.make (nm 3) (s 3) tag freq], Dft.make freq⟩ := by
    have e0 : (Vol.make a b).getSurface .y_bottom = .ok (s 0) := hs 0
    have e1 : (Vol.make a b).getSurface .x_top = .ok (s 1) := hs 1
    have e2 : (Vol.make a b).getSurface .y_top = .ok (s 2) := hs 2
    have e3 : (Vol.make a b).getSurface .x_bottom = .ok (s 3) := hs 3
    unfold BoxMon.make at hm0
    simp only [e0, e1, e2, e3, Except.ok_bind] at hm0
    exact (Except.ok.inj hm0).symm
  have e1' : (Monitor.box m0).setF g = .ok (.box ⟨name, Vol.make a b, freq.length, [M1 0, M1 1, M1 2, M1 3], Dft.make freq⟩) := by
    unfold Monitor.setF BoxMon.setF
    rw [hm0']
    simp only [mapM'_four (SurfMon.setF g) (fun f => SurfMon.make (nm f) (s f) tag freq) M1 r1, Except.ok_bind]
    rfl
  rw [e1] at e1'
  obtain rfl := Except.ok.inj e1'
  rw [runs_box, boxRuns_faces g qs _ M1 M rfl r2] at e2
  obtain rfl := (Except.ok.inj e2).symm
  refine ⟨s2, qs, _, e0, w, hl, hm, M, rfl, fun f => ⟨s f, is f, ss f, hs f, hi f, hf f, r3 f, r4 f, fun x hx => ?_⟩⟩
  obtain ⟨acc, a1, a2, a3⟩ := r5 f x hx
  rw [averaged_midway (ss f) 0 _ (by rw [ht]; exact hd hc)] at a3
  exact ⟨acc, a1, a2, a3⟩

/-- **C36** for cylinder monitors, partial in the same way. -/
theorem C36_cylinder_partial (now : ℕ → ℝ) (g : Grid ℝ) (ops1 ops2 : List (Op ℝ)) (name : String) (surf : CylSurf ℝ) (tag : DftTag) (freq : List ℝ)
    (n : ℤ) (hn : ceilI (ofInt 2 * Scalar.pi * surf.radius / g.dx) = n)
    (s1 s' : Sim ℝ) (h : Attaches now g ops1 (.cyl (.make name surf tag freq)) ops2 s1 s') (hc : ∀ op ∈ ops2, isClear op = false) :
    ∃ s2 qs ss m, s1.step now (.addMonitor (.cyl (.make name surf tag freq))) = .ok s2 ∧ Watch now s2 ops2 qs s' ∧
      qs.length = ops2.countP isUpdate ∧
      List.Forall₂ (fun q r => Finds n (cylKeys tag) (cylReads g surf n q) r) qs ss ∧
      s'.mons[s1.mons.length]? = some (.cyl m) ∧ m.surf = surf ∧ m.fourier.freq = freq ∧
      ∀ x ∈ cylKeys tag, ∃ acc, m.fourier.get x = .ok acc ∧ acc.pos = intRange 0 n ∧ Holds acc freq x (midway (fun _ => 0) ss) := by
  obtain ⟨s2, qs, m1, m2, e0, w, hl, hq, e1, r, e2, hm, hd⟩ := attaches h
  obtain rfl := Except.ok.inj e1
  obtain ⟨ss, hf, ht⟩ : ∃ ss : List (Snap ℝ), List.Forall₂ (fun q r => Finds n (cylKeys tag) (cylReads g surf n q) r) qs ss ∧
      ss.map (·.t) = qs.map Prod.snd := by
    refine finds_all (fun _ => rfl) qs fun q hmem i h0 h1 => ?_
    obtain ⟨⟨v1, q1⟩, ⟨v2, q2⟩, v3, q3⟩ := r.reads q.1 (hq q hmem) i h0 (by
      show i < ceilI (ofInt 2 * Scalar.pi * surf.radius / g.dx)
      rw [hn]; exact h1)
    change q.1.interpolate g .Ez (surf.position (cylTheta (ceilI (ofInt 2 * Scalar.pi * surf.radius / g.dx)) i)) = _ at q1
    change q.1.interpolate g .Hx (surf.position (cylTheta (ceilI (ofInt 2 * Scalar.pi * surf.radius / g.dx)) i)) = _ at q2
    change q.1.interpolate g .Hy (surf.position (cylTheta (ceilI (ofInt 2 * Scalar.pi * surf.radius / g.dx)) i)) = _ at q3
    rw [hn] at q1 q2 q3
    refine ⟨⟨_, q1⟩, fun x hx hE => ?_⟩
    have hx' : x = "Ez" ∨ x = "Hp" ∨ x = "Hr" := by
      cases tag <;> simp [cylKeys] at hx <;> tauto
    rcases hx' with rfl | rfl | rfl
    · exact (hE rfl).elim
    · simp only [cylReads, if_true, q2, q3, Except.ok_bind, Except.pure_eq]
      exact ⟨_, rfl⟩
    · have c : "Hr" ≠ "Hp" := by decide
      simp only [cylReads, if_neg c, if_true, q2, q3, Except.ok_bind, Except.pure_eq]
      exact ⟨_, rfl⟩
  obtain ⟨M, r2, r3, -, -, -, r4, r5⟩ := cyl_record g name surf tag freq n hn qs ss hf
  rw [runs_cyl, r2] at e2
  obtain rfl := (Except.ok.inj e2).symm
  refine ⟨s2, qs, ss, M, e0, w, hl, hf, hm, r3, r4, fun x hx => ?_⟩
  obtain ⟨acc, a1, a2, a3⟩ := r5 x hx
  rw [averaged_midway ss 0 _ (by rw [ht]; exact hd hc)] at a3
  exact ⟨acc, a1, a2, a3⟩

/-! ## Volume monitors -/

theorem counted_all {P : Type} : ∀ (l : List (Sample ℝ P)) (t0 : ℝ), List.IsChain (fun a b => eqb a b = false) (t0 :: l.map (·.t)) → counted t0 l = l
  | [], _, _ => rfl
  | s :: l, t0, h => by
    rw [List.map_cons, List.isChain_cons_cons] at h
    simp only [counted, h.1, Bool.false_eq_true, if_false, counted_all l s.t h.2]

theorem vol_holds {now : ℕ → ℝ} {g : Grid ℝ} {ops1 ops2 : List (Op ℝ)} {name : String} {a b : V2 ℝ} {tag : DftTag} {freq : List ℝ}
    {s1 s' : Sim ℝ} (h : Attaches now g ops1 (.vol (.make name (Vol.make a b) tag freq)) ops2 s1 s') :
    ∃ s2 qs m, s1.step now (.addMonitor (.vol (.make name (Vol.make a b) tag freq))) = .ok s2 ∧ Watch now s2 ops2 qs s' ∧
      qs.length = ops2.countP isUpdate ∧
      ((∀ op ∈ ops2, isClear op = false) → List.IsChain (fun a b : ℝ => eqb a b = false) (0 :: qs.map Prod.snd)) ∧
      s'.mons[s1.mons.length]? = some (.vol m) ∧ m.fourier.freq = freq ∧
      ∀ x ∈ volKeys tag, ∃ acc, m.fourier.get x = .ok acc ∧
        acc.pos = pos2 (|(g.toGrid a).x - (g.toGrid b).x| + 1) (|(g.toGrid a).y - (g.toGrid b).y| + 1) ∧
        Holds acc freq x (counted 0 (qs.map (volSnap (g.toGrid a)))) := by
  obtain ⟨s2, qs, m1, m2, e0, w, hl, hq, e1, r, e2, hm, hd⟩ := attaches h
  obtain rfl := Except.ok.inj e1
  obtain ⟨d, f1, f2, f3⟩ := feed_holds freq (pos2 (|(g.toGrid a).x - (g.toGrid b).x| + 1) (|(g.toGrid a).y - (g.toGrid b).y| + 1)) (nodup_pos2 _ _)
    (volKeys tag) (volKeys_mem tag) (qs.map (volSnap (g.toGrid a)))
  have hrun := VolMon.runs_feed g qs hq ((VolMon.make name (Vol.make a b) tag freq).setF g) r (by
    intro x hx
    change x ∈ ((Dft.make freq : Dft ℝ (ℤ × ℤ)).addAll (pos2 _ _) (volKeys tag)).acc at hx
    rw [(addAll_acc freq _ _ (volKeys_mem tag)).1, List.mem_map] at hx
    obtain ⟨n, -, rfl⟩ := hx
    exact nodup_pos2 _ _)
  change _ = (feed ((Dft.make freq : Dft ℝ (ℤ × ℤ)).addAll (pos2 (|(g.toGrid a).x - (g.toGrid b).x| + 1) (|(g.toGrid a).y - (g.toGrid b).y| + 1))
    (volKeys tag)) (qs.map (volSnap (g.toGrid a)))).map _ at hrun
  rw [f1] at hrun
  rw [runs_vol, hrun] at e2
  obtain rfl := (Except.ok.inj e2).symm
  exact ⟨s2, qs, _, e0, w, hl, hd, hm, f2, f3⟩

/-- **C36** for volume monitors, partial in the same way. -/
theorem C36_volume_partial (now : ℕ → ℝ) (g : Grid ℝ) (ops1 ops2 : List (Op ℝ)) (name : String) (a b : V2 ℝ) (tag : DftTag) (freq : List ℝ)
    (s1 s' : Sim ℝ) (h : Attaches now g ops1 (.vol (.make name (Vol.make a b) tag freq)) ops2 s1 s') (hc : ∀ op ∈ ops2, isClear op = false) :
    ∃ s2 qs m, s1.step now (.addMonitor (.vol (.make name (Vol.make a b) tag freq))) = .ok s2 ∧ Watch now s2 ops2 qs s' ∧
      qs.length = ops2.countP isUpdate ∧ s'.mons[s1.mons.length]? = some (.vol m) ∧ m.fourier.freq = freq ∧
      ∀ x ∈ volKeys tag, ∃ acc, m.fourier.get x = .ok acc ∧ Holds acc freq x
        (qs.map fun q => ⟨q.2, fun n p => nodeVal q.1 n ((g.toGrid a).x + p.1) ((g.toGrid a).y + p.2)⟩) := by
  obtain ⟨s2, qs, m, h1, h2, h3, h4, h5, h6, h7⟩ := vol_holds h
  refine ⟨s2, qs, m, h1, h2, h3, h5, h6, fun x hx => ?_⟩
  obtain ⟨acc, a1, -, a3⟩ := h7 x hx
  rw [counted_all _ _ (by rw [List.map_map]; exact h4 hc)] at a3
  exact ⟨acc, a1, a3⟩

/-- **C40** for boxes given lower corner first: a volume monitor has one entry per node of the box, and entry `(i, j)` is the transform of the
component at node `a + (i, j)` as the updates showed it (an update at the time of the one before it does not count, see `C36_false`). Missing:
boxes given with the corners in another order, `C40_reversed_false`. -/
theorem C40_nodes_partial (now : ℕ → ℝ) (g : Grid ℝ) (ops1 ops2 : List (Op ℝ)) (name : String) (a b : V2 ℝ) (tag : DftTag) (freq : List ℝ)
    (hx : (g.toGrid a).x ≤ (g.toGrid b).x) (hy : (g.toGrid a).y ≤ (g.toGrid b).y)
    (s1 s' : Sim ℝ) (h : Attaches now g ops1 (.vol (.make name (Vol.make a b) tag freq)) ops2 s1 s') :
    ∃ s2 qs m, s1.step now (.addMonitor (.vol (.make name (Vol.make a b) tag freq))) = .ok s2 ∧ Watch now s2 ops2 qs s' ∧
      s'.mons[s1.mons.length]? = some (.vol m) ∧ m.fourier.freq = freq ∧
      ∀ x ∈ volKeys tag, ∃ acc, m.fourier.get x = .ok acc ∧ acc.pos.Nodup ∧
        (∀ q : V2 ℤ, ((g.toGrid a).x ≤ q.x ∧ q.x ≤ (g.toGrid b).x ∧ (g.toGrid a).y ≤ q.y ∧ q.y ≤ (g.toGrid b).y) ↔
          ∃ p ∈ acc.pos, q = ⟨(g.toGrid a).x + p.1, (g.toGrid a).y + p.2⟩) ∧
        Holds acc freq x (counted 0 (qs.map fun q => ⟨q.2, fun n p => nodeVal q.1 n ((g.toGrid a).x + p.1) ((g.toGrid a).y + p.2)⟩)) := by
  obtain ⟨s2, qs, m, h1, h2, -, -, h5, h6, h7⟩ := vol_holds h
  refine ⟨s2, qs, m, h1, h2, h5, h6, fun x hx' => ?_⟩
  obtain ⟨acc, a1, a2, a3⟩ := h7 x hx'
  refine ⟨acc, a1, by rw [a2]; exact nodup_pos2 _ _, fun q => ?_, a3⟩
  rw [a2, abs_of_nonpos (by omega), abs_of_nonpos (by omega)]
  constructor
  · rintro ⟨q1, q2, q3, q4⟩
    refine ⟨(q.x - (g.toGrid a).x, q.y - (g.toGrid a).y), mem_pos2.mpr (by dsimp only; omega), ?_⟩
    ext <;> simp
  · rintro ⟨p, hp, rfl⟩
    rw [mem_pos2] at hp
    dsimp only
    omega

/-! ## C36 is false when `clear_fields` is called -/

/-- Histories inside the domain without output can be run. -/
theorem attaches_exists (now : ℕ → ℝ) (g : Grid ℝ) (hw : g.Wide) (hd : 0 < g.dx) (ht : 0 < g.dt) (ops1 : List (Op ℝ)) (m : Monitor ℝ)
    (ops2 : List (Op ℝ)) (hi : Inside False g [] (ops1 ++ .addMonitor m :: ops2)) (hn : ∀ op ∈ ops1 ++ .addMonitor m :: ops2, NoOutput op)
    (hl : ∀ k, ∀ op ∈ ops2, Leaves k op) : ∃ s1 s', Attaches now g ops1 m ops2 s1 s' := by
  obtain ⟨s0, h0, hs0⟩ := make_safe now False g hw "out.h5" (by decide)
  obtain ⟨s, e, -, -, -, -, -, -, -, -, t0, -, ck⟩ := make_named now (g := g) (by have := hw.nx; omega) (by have := hw.ny; omega) (fn := "out.h5") (by decide)
  rw [h0] at e
  cases e
  obtain ⟨s', _, e', -⟩ := runOk_plain now hw hd _ _ s0 hi hs0 ck.idle t0 hn
  rw [runOk_append] at e'
  obtain ⟨s1, e1, e2⟩ := (Except.bind_ok ..).mp e'
  exact ⟨s1, s', hw, hd, ht, ⟨_, s0, by decide, h0, e1⟩, e2, hi, hl _⟩

/-- The history of `C36_false`. -/
noncomputable def restart : List (Op ℝ) := [.update, .clearFields, .addSource ⟨"s", .point .Hx ⟨((10 : ℤ) : ℝ), ((10 : ℤ) : ℝ)⟩, .continuous (1 / 2)⟩, .update]

/-- **C36** is false: after `clear_fields` the clock starts again, and if the next update happens at the time of the last one before, its sample is
dropped: here the second of the two updates shows the value `1`, which the monitor does not hold. -/
theorem C36_false (now : ℕ → ℝ) : ∃ m s1 s' s2 q1 q2 M acc, Attaches now gEx [] m restart s1 s' ∧ s1.step now (.addMonitor m) = .ok s2 ∧
    Watch now s2 restart [q1, q2] s' ∧ q2.1.Hx.val 10 10 = 1 ∧ s'.mons[s1.mons.length]? = some (.vol M) ∧ M.fourier.freq = [0] ∧
    M.fourier.get "Hx" = .ok acc ∧ acc.pos = [(0, 0)] ∧ acc.re (0, 0) 0 = q1.1.Hx.val 10 10 := by
  have n := gEx_node
  have i : ∀ i j : ℤ, 0 ≤ i → i < 20 → 0 ≤ j → j < 20 → InGrid gEx (gEx.toGrid ⟨(i : ℝ), (j : ℝ)⟩) := by
    intro i j h1 h2 h3 h4
    rw [n]
    exact ⟨h1, by rw [gEx_Nx]; exact h2, h3, by rw [gEx_Ny]; exact h4⟩
  have i10 := i 10 10 (by norm_num) (by norm_num) (by norm_num) (by norm_num)
  obtain ⟨s1, s', h⟩ := attaches_exists now gEx gEx_wide (by rw [gEx_dx]; norm_num) (by rw [gEx_dt]; norm_num) []
    (.vol (.make "m" (Vol.make ⟨((10 : ℤ) : ℝ), ((10 : ℤ) : ℝ)⟩ ⟨((10 : ℤ) : ℝ), ((10 : ℤ) : ℝ)⟩) .Hx [0])) restart
    ⟨.vol _ _ _ _ _ i10 i10 le_rfl le_rfl, ⟨by simp [Fields.IsComp], i10⟩, trivial⟩
    (by simp [restart, NoOutput]) (by simp [restart, Leaves])
  obtain ⟨s2, qs, M, e0, w, -, -, hm, hfr, hk⟩ := vol_holds h
  obtain ⟨acc, a1, a2, a3⟩ := hk "Hx" (by simp [volKeys])
  rw [n] at a3
  have h' := h
  obtain ⟨-, -, -, ⟨fn, s0, hfn, h0, h1⟩, -, -, -⟩ := h'
  obtain rfl := Except.ok.inj h1
  obtain ⟨s, e, -, g0, -, t0, -, -, src0, -⟩ := make_named now (g := gEx) (by have := gEx_wide.nx; omega) (by have := gEx_wide.ny; omega) hfn
  rw [h0] at e
  cases e
  have e0' := e0
  unfold Sim.step at e0'
  obtain ⟨m1, -, e0'⟩ := tryM_ok e0'
  have c2 : s2.core = s0.core := by cases e0'; rfl
  have r2 : s2.srcs = [] := by cases e0'; exact src0
  have w' := w
  unfold restart at w'
  rcases w' with _ | @⟨_, s3, _, _, qs1, q1, u1, v1, w'⟩ | ⟨ho, _, _⟩
  swap
  · cases ho
  rcases w' with _ | _ | @⟨_, s4, _, _, _, _, -, u2, w'⟩
  rcases w' with _ | _ | @⟨_, s5, _, _, _, _, -, u3, w'⟩
  rcases w' with _ | @⟨_, s6, _, _, qs2, q2, u4, v4, w'⟩ | ⟨ho, _, _⟩
  swap
  · cases ho
  cases w'
  have r3 : s3.srcs = [] := by
    obtain ⟨c, r, U⟩ := Sim.update_parts u1
    have := U.srcs
    rw [← U.pulse, r2] at this
    exact this
  have t3 : s3.core.t = 1 / 2 ∧ s3.core.g = gEx := by
    have := step_time now s2 .update
    rw [u1] at this
    obtain ⟨k1, -, k2⟩ := this
    simp only [isClear, isUpdate, Bool.false_eq_true, if_false, if_true] at k2
    rw [k2, k1, c2, t0, g0, gEx_dt]
    exact ⟨by norm_num, rfl⟩
  obtain rfl : s4 = { s3 with core := s3.core.clearFields } := by cases u2; rfl
  obtain rfl : s5 = { s3 with core := s3.core.clearFields, srcs := s3.srcs ++ [⟨"s", .point .Hx ⟨((10 : ℤ) : ℝ), ((10 : ℤ) : ℝ)⟩, .continuous (1 / 2)⟩] } := by
    cases u3; rfl
  have t6 : s'.core.t = 1 / 2 := by
    have := step_time now { s3 with core := s3.core.clearFields, srcs := s3.srcs ++ [⟨"s", .point .Hx ⟨((10 : ℤ) : ℝ), ((10 : ℤ) : ℝ)⟩, .continuous (1 / 2)⟩] } .update
    rw [u4] at this
    obtain ⟨k1, -, k2⟩ := this
    simp only [isClear, isUpdate, Bool.false_eq_true, if_false, if_true] at k2
    rw [k2]
    show (0 : ℝ) + s3.core.g.dt = _
    rw [t3.2, gEx_dt]; norm_num
  have hv : q2.1.Hx.val 10 10 = 1 := by
    rw [v4.hx, t6, r3]
    show (0 : ℝ) + totalContrib s3.core.g (1 / 2) ([] ++ [_]) .Hx ⟨10, 10⟩ = 1
    rw [t3.2]
    simp only [totalContrib, List.nil_append, List.map_cons, List.map_nil, List.sum_cons, List.sum_nil, contrib]
    rw [if_pos ⟨rfl, (n 10 10).symm⟩]
    simp only [TimeProfile.continuous, ofInt_real, pi_real]
    show (0 : ℝ) + (Real.sin _ + 0) = 1
    rw [show ((2 : ℤ) : ℝ) * Real.pi * (1 / 2) * (1 / 2) = Real.pi / 2 by push_cast; ring, Real.sin_pi_div_two]
    norm_num
  have hp : acc.pos = [(0, 0)] := by rw [a2]; simp [pos2, intRange]
  refine ⟨_, _, _, s2, q1, q2, M, acc, h, e0, w, hv, hm, hfr, a1, hp, ?_⟩
  have := a3.re (0, 0) (by rw [hp]; simp) 0 (by simp)
  simp only [Nat.cast_zero] at this
  rw [this]
  have et : q1.2 = 1 / 2 := by rw [v1.time, t3.1]
  have et2 : q2.2 = 1 / 2 := by rw [v4.time, t6]
  simp [counted, volSnap, et, et2, cosSum, nodeVal]

/-- ... so the samples it holds are not those of all updates. -/
theorem C36_dropped (now : ℕ → ℝ) : ∃ m s1 s' s2 q1 q2 M acc, Attaches now gEx [] m restart s1 s' ∧ s1.step now (.addMonitor m) = .ok s2 ∧
    Watch now s2 restart [q1, q2] s' ∧ s'.mons[s1.mons.length]? = some (.vol M) ∧ M.fourier.get "Hx" = .ok acc ∧
    ¬ Holds acc [0] "Hx" [⟨q1.2, fun n p => nodeVal q1.1 n (10 + p.1) (10 + p.2)⟩, ⟨q2.2, fun n p => nodeVal q2.1 n (10 + p.1) (10 + p.2)⟩] := by
  obtain ⟨m, s1, s', s2, q1, q2, M, acc, h1, h2, h3, h4, h5, -, h7, h8, h9⟩ := C36_false now
  refine ⟨m, s1, s', s2, q1, q2, M, acc, h1, h2, h3, h5, h7, fun hh => ?_⟩
  have := hh.re (0, 0) (by rw [h8]; simp) 0 (by simp)
  simp only [Nat.cast_zero] at this
  rw [h9] at this
  simp [cosSum, nodeVal, h4] at this

/-! ## C40: the order of the corners matters -/

/-- **C40** is false for a box given upper corner first: the entries belong to nodes above the box. Here the box has its corners at nodes (12, 12) and
(10, 10), and entry (2, 2) is the value at node (14, 14). -/
theorem C40_reversed_false (f : Flds ℝ) (hf : f.Dims 20 20) (t : ℝ) (ht : t ≠ 0) :
    ∃ m acc, VolMon.runs gEx [(f, t)] ((VolMon.make "m" (Vol.make ⟨((12 : ℤ) : ℝ), ((12 : ℤ) : ℝ)⟩ ⟨((10 : ℤ) : ℝ), ((10 : ℤ) : ℝ)⟩) .Ez [0]).setF gEx) = .ok m ∧
      m.fourier.get "Ez" = .ok acc ∧ (2, 2) ∈ acc.pos ∧ acc.re (2, 2) 0 = f.Ez.val 14 14 := by
  have n := gEx_node
  have hpos : pos2 (|(gEx.toGrid ⟨((12 : ℤ) : ℝ), ((12 : ℤ) : ℝ)⟩).x - (gEx.toGrid ⟨((10 : ℤ) : ℝ), ((10 : ℤ) : ℝ)⟩).x| + 1)
      (|(gEx.toGrid ⟨((12 : ℤ) : ℝ), ((12 : ℤ) : ℝ)⟩).y - (gEx.toGrid ⟨((10 : ℤ) : ℝ), ((10 : ℤ) : ℝ)⟩).y| + 1) = pos2 3 3 := by
    rw [n, n]; rfl
  obtain ⟨d, f1, f2, f3⟩ := feed_holds [0] (pos2 3 3) (nodup_pos2 _ _) (volKeys .Ez) (volKeys_mem _) [volSnap ⟨12, 12⟩ (f, t)]
  have hrun := VolMon.runs_feed gEx [(f, t)] (by intro q hq; rw [List.mem_singleton.mp hq, gEx_Nx, gEx_Ny]; exact hf)
    ((VolMon.make "m" (Vol.make ⟨((12 : ℤ) : ℝ), ((12 : ℤ) : ℝ)⟩ ⟨((10 : ℤ) : ℝ), ((10 : ℤ) : ℝ)⟩) .Ez [0]).setF gEx) ⟨by
      intro e he
      change e ∈ ((Dft.make [0] : Dft ℝ (ℤ × ℤ)).addAll (pos2 _ _) (volKeys .Ez)).layout at he
      rw [layout_addAll _ _ (volKeys_mem _), List.mem_map] at he
      obtain ⟨x, hx, rfl⟩ := he
      refine ⟨by simp [volKeys] at hx; exact Or.inl hx, fun q hq => ?_⟩
      have hq : q ∈ pos2 3 3 := by rw [← hpos]; exact hq
      rw [mem_pos2] at hq
      show 0 ≤ (gEx.toGrid ⟨((12 : ℤ) : ℝ), ((12 : ℤ) : ℝ)⟩).x + q.1 ∧ (gEx.toGrid ⟨((12 : ℤ) : ℝ), ((12 : ℤ) : ℝ)⟩).x + q.1 < gEx.Nx ∧
        0 ≤ (gEx.toGrid ⟨((12 : ℤ) : ℝ), ((12 : ℤ) : ℝ)⟩).y + q.2 ∧ (gEx.toGrid ⟨((12 : ℤ) : ℝ), ((12 : ℤ) : ℝ)⟩).y + q.2 < gEx.Ny
      rw [n, gEx_Nx, gEx_Ny]
      dsimp only
      omega⟩ (by
    intro x hx
    change x ∈ ((Dft.make [0] : Dft ℝ (ℤ × ℤ)).addAll (pos2 _ _) (volKeys .Ez)).acc at hx
    rw [(addAll_acc _ _ _ (volKeys_mem _)).1, List.mem_map] at hx
    obtain ⟨y, -, rfl⟩ := hx
    exact nodup_pos2 _ _)
  change _ = (feed ((Dft.make [0] : Dft ℝ (ℤ × ℤ)).addAll (pos2 (|(gEx.toGrid ⟨((12 : ℤ) : ℝ), ((12 : ℤ) : ℝ)⟩).x - (gEx.toGrid ⟨((10 : ℤ) : ℝ), ((10 : ℤ) : ℝ)⟩).x| + 1)
      (|(gEx.toGrid ⟨((12 : ℤ) : ℝ), ((12 : ℤ) : ℝ)⟩).y - (gEx.toGrid ⟨((10 : ℤ) : ℝ), ((10 : ℤ) : ℝ)⟩).y| + 1)) (volKeys .Ez))
    ([(f, t)].map (volSnap (gEx.toGrid ⟨((12 : ℤ) : ℝ), ((12 : ℤ) : ℝ)⟩)))).map _ at hrun
  rw [hpos, n] at hrun
  change _ = (feed ((Dft.make [0] : Dft ℝ (ℤ × ℤ)).addAll (pos2 3 3) (volKeys .Ez)) [volSnap ⟨12, 12⟩ (f, t)]).map _ at hrun
  rw [f1] at hrun
  obtain ⟨acc, a1, a2, a3⟩ := f3 "Ez" (by simp [volKeys])
  refine ⟨_, acc, hrun, a1, by rw [a2, mem_pos2]; norm_num, ?_⟩
  have := a3.re (2, 2) (by rw [a2, mem_pos2]; norm_num) 0 (by simp)
  simp only [Nat.cast_zero] at this
  rw [this]
  simp [counted, volSnap, Ne.symm ht, cosSum, nodeVal]

/-- ... and when the box touches the upper edge of the grid, updating the monitor reads outside the arrays. -/
theorem C40_reversed_oob (f : Flds ℝ) (hf : f.Dims 20 20) (t : ℝ) (ht : t ≠ 0) :
    ((VolMon.make "m" (Vol.make ⟨((19 : ℤ) : ℝ), ((19 : ℤ) : ℝ)⟩ ⟨((18 : ℤ) : ℝ), ((19 : ℤ) : ℝ)⟩) .Ez [0]).setF gEx).update gEx f t = .error (.ub .oob) := by
  have n := gEx_node
  have hset : (VolMon.make "m" (Vol.make ⟨((19 : ℤ) : ℝ), ((19 : ℤ) : ℝ)⟩ ⟨((18 : ℤ) : ℝ), ((19 : ℤ) : ℝ)⟩) .Ez [0]).setF gEx =
      { VolMon.make "m" (Vol.make ⟨((19 : ℤ) : ℝ), ((19 : ℤ) : ℝ)⟩ ⟨((18 : ℤ) : ℝ), ((19 : ℤ) : ℝ)⟩) .Ez [0] with
        fourier := (Dft.make [0] : Dft ℝ (ℤ × ℤ)).addAll [(0, 0), (1, 0)] ["Ez"] } := by
    have hpos : pos2 (|(gEx.toGrid ⟨((19 : ℤ) : ℝ), ((19 : ℤ) : ℝ)⟩).x - (gEx.toGrid ⟨((18 : ℤ) : ℝ), ((19 : ℤ) : ℝ)⟩).x| + 1)
        (|(gEx.toGrid ⟨((19 : ℤ) : ℝ), ((19 : ℤ) : ℝ)⟩).y - (gEx.toGrid ⟨((18 : ℤ) : ℝ), ((19 : ℤ) : ℝ)⟩).y| + 1) = [(0, 0), (1, 0)] := by
      rw [n, n]; rfl
    exact congrArg (fun p => ({ VolMon.make "m" (Vol.make ⟨((19 : ℤ) : ℝ), ((19 : ℤ) : ℝ)⟩ ⟨((18 : ℤ) : ℝ), ((19 : ℤ) : ℝ)⟩) .Ez [0] with
      fourier := (Dft.make [0] : Dft ℝ (ℤ × ℤ)).addAll p ["Ez"] } : VolMon ℝ)) hpos
  rw [hset]
  have h0 : eqb (0 : ℝ) t = false := by simpa using Ne.symm ht
  have e1 : volSample f (gEx.toGridV (Vol.make ⟨((19 : ℤ) : ℝ), ((19 : ℤ) : ℝ)⟩ ⟨((18 : ℤ) : ℝ), ((19 : ℤ) : ℝ)⟩)) "Ez" (0, 0) () =
      .ok (f.Ez.val 19 19, ()) := by
    show (do let v ← f.Ez.rd ((gEx.toGrid ⟨((19 : ℤ) : ℝ), ((19 : ℤ) : ℝ)⟩).x + 0) ((gEx.toGrid ⟨((19 : ℤ) : ℝ), ((19 : ℤ) : ℝ)⟩).y + 0); pure (v, ()) : M (ℝ × Unit)) = _
    rw [n, Tensor.rd_in (by norm_num) (by rw [hf.Ez.1]; norm_num) (by norm_num) (by rw [hf.Ez.2]; norm_num)]
    rfl
  have e2 : volSample f (gEx.toGridV (Vol.make ⟨((19 : ℤ) : ℝ), ((19 : ℤ) : ℝ)⟩ ⟨((18 : ℤ) : ℝ), ((19 : ℤ) : ℝ)⟩)) "Ez" (1, 0) () =
      .error (.ub .oob) := by
    show (do let v ← f.Ez.rd ((gEx.toGrid ⟨((19 : ℤ) : ℝ), ((19 : ℤ) : ℝ)⟩).x + 1) ((gEx.toGrid ⟨((19 : ℤ) : ℝ), ((19 : ℤ) : ℝ)⟩).y + 0); pure (v, ()) : M (ℝ × Unit)) = _
    rw [n, Tensor.rd_out (by rintro ⟨-, h, -⟩; rw [hf.Ez.1] at h; norm_num at h)]
    rfl
  unfold VolMon.update Dft.update
  change (if eqb (0 : ℝ) t = true then _ else _) >>= _ = _
  rw [h0]
  simp only [Dft.addAll, List.foldl, Dft.add, accAdd, Dft.make, VolMon.make, accLoop, forList_cons, accPoint, e1, e2, Except.ok_bind, Except.error_bind,
    Except.pure_eq, Bool.false_eq_true, if_false]

/-! ## A non-trivial case -/

/-- Calls before a monitor is added: a source, an incident wave, an object, an update. -/
noncomputable def scene : List (Op ℝ) :=
  [.addSource ⟨"a", .point .Ez ⟨((15 : ℤ) : ℝ), ((10 : ℤ) : ℝ)⟩, .continuous 1⟩,
    .setTfsf ⟨⟨((5 : ℤ) : ℝ), ((5 : ℤ) : ℝ)⟩, ⟨((15 : ℤ) : ℝ), ((15 : ℤ) : ℝ)⟩, ⟨10, 10⟩⟩ (.continuous 1), .addObject (disc water 5 5), .update]

/-- Calls after it: updates, the object is moved. -/
noncomputable def sequel : List (Op ℝ) := [.update, .update, .pose 0 (.setPosition ⟨12, 12⟩), .updateMaterialGrid, .update]

theorem scene_attaches (now : ℕ → ℝ) (m : Monitor ℝ) (hm : MonitorInside False gEx m) : ∃ s1 s', Attaches now gEx scene m sequel s1 s' := by
  have n := gEx_node
  refine attaches_exists now gEx gEx_wide (by rw [gEx_dx]; norm_num) (by rw [gEx_dt]; norm_num) _ _ _ ⟨⟨by simp [Fields.IsComp], ?_⟩, ?_, ?_, hm, ?_, trivial⟩
    (by simp [scene, sequel, NoOutput]) (by simp [sequel, Leaves])
  · show InGrid gEx (gEx.toGrid _)
    rw [n]
    exact ⟨by norm_num, by rw [gEx_Nx]; norm_num, by norm_num, by rw [gEx_Ny]; norm_num⟩
  · constructor <;> simp only [n, gEx_Nx, gEx_Ny] <;> norm_num
  · exact safe_of_clear gEx_lawful (disc_clear water (by norm_num) (by norm_num))
  · intro o ho
    simp only [List.nil_append, List.modify_zero_cons, List.mem_singleton] at ho
    rw [ho]
    exact safe_of_clear gEx_lawful (disc_clear water (x := 12) (y := 12) (by norm_num) (by norm_num))

theorem inner (i j : ℤ) (h1 : 1 ≤ i) (h2 : i < 20) (h3 : 1 ≤ j) (h4 : j < 20) : InnerNode gEx (gEx.toGrid ⟨(i : ℝ), (j : ℝ)⟩) := by
  rw [gEx_node]
  refine ⟨?_, ?_, ?_, ?_⟩
  · rw [gEx_dx]; exact_mod_cast h1
  · rw [gEx_dx]; exact_mod_cast h3
  · rw [gEx_Nx]; exact h2
  · rw [gEx_Ny]; exact h4

/-- A surface monitor in that scene has three samples. -/
example (now : ℕ → ℝ) : ∃ s s1 s' s2 qs, Attaches now gEx scene (.surf (.make "s" s .all [1, 2])) sequel s1 s' ∧ Watch now s2 sequel qs s' ∧ qs.length = 3 := by
  obtain ⟨s, hs⟩ : ∃ s, Surf.make (⟨((4 : ℤ) : ℝ), ((4 : ℤ) : ℝ)⟩ : V2 ℝ) ⟨((9 : ℤ) : ℝ), ((4 : ℤ) : ℝ)⟩ .Negative = .ok s :=
    boxFace_make (⟨((4 : ℤ) : ℝ), ((4 : ℤ) : ℝ)⟩ : V2 ℝ) ⟨((9 : ℤ) : ℝ), ((12 : ℤ) : ℝ)⟩ 0
  have hne : gEx.toGrid ⟨((4 : ℤ) : ℝ), ((4 : ℤ) : ℝ)⟩ ≠ gEx.toGrid ⟨((9 : ℤ) : ℝ), ((4 : ℤ) : ℝ)⟩ := by
    intro h
    rw [gEx_node, gEx_node] at h
    exact absurd (congrArg V2.x h) (by norm_num)
  have h1 := inner 4 4 (by norm_num) (by norm_num) (by norm_num) (by norm_num)
  have h2 := inner 9 4 (by norm_num) (by norm_num) (by norm_num) (by norm_num)
  obtain ⟨s1, s', h⟩ := scene_attaches now (.surf (.make "s" s .all [1, 2])) (.surf _ _ _ _ _ _ _ hs hne h1 h2)
  obtain ⟨s2, qs, _, _, _, -, w, l, -⟩ := C36_surface_partial now gEx scene sequel "s" _ _ _ s .all [1, 2] hs hne h1 h2 s1 s' h (by simp [sequel, isClear])
  exact ⟨s, s1, s', s2, qs, h, w, by rw [l]; rfl⟩

/-- Box, volume and cylinder monitors can be put there too. -/
example (now : ℕ → ℝ) : (∃ m s1 s', BoxMon.make "b" (Vol.make (⟨((3 : ℤ) : ℝ), ((2 : ℤ) : ℝ)⟩ : V2 ℝ) ⟨((16 : ℤ) : ℝ), ((17 : ℤ) : ℝ)⟩) .all [1] = .ok m ∧
      Attaches now gEx scene (.box m) sequel s1 s') ∧
    (∃ s1 s', Attaches now gEx scene (.vol (.make "v" (Vol.make ⟨((2 : ℤ) : ℝ), ((3 : ℤ) : ℝ)⟩ ⟨((7 : ℤ) : ℝ), ((3 : ℤ) : ℝ)⟩) .all [1, 2])) sequel s1 s') ∧
    ∃ s1 s', Attaches now gEx scene (.cyl (.make "c" ⟨⟨10, 10⟩, 5⟩ .all [1, 2])) sequel s1 s' := by
  refine ⟨?_, scene_attaches now _ (.vol _ _ _ _ _ ?_ ?_ ?_ ?_), scene_attaches now _ (.cyl _ _ _ _ ?_ ?_ ?_ ?_ ?_)⟩
  · choose t ht using boxFace_make (⟨((3 : ℤ) : ℝ), ((2 : ℤ) : ℝ)⟩ : V2 ℝ) ⟨((16 : ℤ) : ℝ), ((17 : ℤ) : ℝ)⟩
    have e0 : (Vol.make (⟨((3 : ℤ) : ℝ), ((2 : ℤ) : ℝ)⟩ : V2 ℝ) ⟨((16 : ℤ) : ℝ), ((17 : ℤ) : ℝ)⟩).getSurface .y_bottom = .ok (t 0) := ht 0
    have e1 : (Vol.make (⟨((3 : ℤ) : ℝ), ((2 : ℤ) : ℝ)⟩ : V2 ℝ) ⟨((16 : ℤ) : ℝ), ((17 : ℤ) : ℝ)⟩).getSurface .x_top = .ok (t 1) := ht 1
    have e2 : (Vol.make (⟨((3 : ℤ) : ℝ), ((2 : ℤ) : ℝ)⟩ : V2 ℝ) ⟨((16 : ℤ) : ℝ), ((17 : ℤ) : ℝ)⟩).getSurface .y_top = .ok (t 2) := ht 2
    have e3 : (Vol.make (⟨((3 : ℤ) : ℝ), ((2 : ℤ) : ℝ)⟩ : V2 ℝ) ⟨((16 : ℤ) : ℝ), ((17 : ℤ) : ℝ)⟩).getSurface .x_bottom = .ok (t 3) := ht 3
    have hb : ∃ m, BoxMon.make "b" (Vol.make (⟨((3 : ℤ) : ℝ), ((2 : ℤ) : ℝ)⟩ : V2 ℝ) ⟨((16 : ℤ) : ℝ), ((17 : ℤ) : ℝ)⟩) .all [1] = .ok m := by
      unfold BoxMon.make
      simp only [e0, e1, e2, e3, Except.ok_bind]
      exact ⟨_, rfl⟩
    obtain ⟨m, hb⟩ := hb
    obtain ⟨s1, s', h⟩ := scene_attaches now (.box m) (.box _ _ _ _ _ _ hb (by simp only [gEx_node]; norm_num) (by simp only [gEx_node]; norm_num)
      (inner 3 2 (by norm_num) (by norm_num) (by norm_num) (by norm_num)) (inner 16 17 (by norm_num) (by norm_num) (by norm_num) (by norm_num)))
    exact ⟨m, s1, s', hb, h⟩
  all_goals simp only [gEx_node, gEx_dx, gEx_Nx, gEx_Ny]
  · exact ⟨by norm_num, by rw [gEx_Nx]; norm_num, by norm_num, by rw [gEx_Ny]; norm_num⟩
  · exact ⟨by norm_num, by rw [gEx_Nx]; norm_num, by norm_num, by rw [gEx_Ny]; norm_num⟩
  all_goals norm_num

end Qbox.Props
