import Verif.Props.FileFalse
import Verif.Props.HistoryProps

/-!
# C67: writing a monitor stores what it has recorded
-/

namespace Qbox.Props
open Qbox Scalar Spec

section
variable {K : Type} [Scalar K]

theorem accFind_entry {P : Type} {x : String} {a : Acc K P} : ∀ {l : List (String × Acc K P)}, accFind x l = some a → (x, a) ∈ l
  | [], h => by cases h
  | (n, b) :: l, h => by
    unfold accFind at h
    split_ifs at h with c
    · cases h; rw [c]; simp
    · exact List.mem_cons_of_mem _ (accFind_entry h)

theorem get_entry {P : Type} [DecidableEq P] {x : String} {a : Acc K P} {d : Dft K P} (h : d.get x = .ok a) (p : Path) :
    (p ++ [x], .cxs (a.values d.nfreq)) ∈ d.entries p := by
  unfold Dft.get at h
  split at h
  · next b hb =>
    cases h
    exact List.mem_map_of_mem (f := fun e : String × Acc K P => (p ++ [e.1], H5Obj.cxs (e.2.values d.nfreq))) (accFind_entry hb)
  · cases h

omit [Scalar K] in
theorem freq_map {α : Type} (freq : List K) (F : ℤ → α) (G : K → α) (h : ∀ (k : ℕ) (hk : k < freq.length), F k = G freq[k]) :
    (intRange 0 freq.length).map F = freq.map G := by
  have e : (intRange 0 (freq.length : ℤ)) = (List.range freq.length).map (fun k : ℕ => (k : ℤ)) := by simp [intRange]
  rw [e, List.map_map]
  apply List.ext_getElem
  · simp
  · intro n h1 h2
    simp only [List.getElem_map, List.getElem_range, Function.comp]
    exact h n (by simpa using h1)

theorem values_table {P : Type} {a : Acc K P} {d : Dft K P} {freq : List K} {x : String} {l : List (Sample K P)} (hf : d.freq = freq)
    (h : Holds a freq x l) : a.values d.nfreq = table a.pos freq x l := by
  unfold Acc.values table Dft.nfreq
  rw [hf]
  have : ∀ q ∈ a.pos, ((intRange 0 freq.length).map fun k => (⟨a.re q k, a.im q k⟩ : Cx K)) =
      freq.map fun f => ⟨cosSum f x q 0 l, sinSum f x q 0 l⟩ := fun q hq =>
    freq_map freq _ _ fun k hk => by rw [h.re q hq k hk, h.im q hq k hk]
  rw [List.flatMap_def, List.flatMap_def, List.map_congr_left this]

theorem Monitor.update_path {g : Grid K} {f : Flds K} {t : K} {m m' : Monitor K} (h : m.update g f t = .ok m') :
    m'.path = m.path ∧ ∀ b b', m = .box b → m' = .box b' → b'.fourier = b.fourier ∧ b'.vol = b.vol := by
  cases m with
  | surf m =>
    obtain ⟨m1, h1, h⟩ := (Except.bind_ok ..).mp h
    cases h
    unfold SurfMon.update at h1
    obtain ⟨is, -, h1⟩ := (Except.bind_ok ..).mp h1
    obtain ⟨d, -, h1⟩ := (Except.bind_ok ..).mp h1
    cases h1; exact ⟨rfl, fun _ _ h => by cases h⟩
  | box m =>
    obtain ⟨m1, h1, h⟩ := (Except.bind_ok ..).mp h
    cases h
    unfold BoxMon.update at h1
    obtain ⟨l, h2, h1⟩ := (Except.bind_ok ..).mp h1
    cases h1; exact ⟨rfl, fun _ _ h h' => by cases h; cases h'; exact ⟨rfl, rfl⟩⟩
  | vol m =>
    obtain ⟨m1, h1, h⟩ := (Except.bind_ok ..).mp h
    cases h
    unfold VolMon.update at h1
    obtain ⟨l, h2, h1⟩ := (Except.bind_ok ..).mp h1
    cases h1; exact ⟨rfl, fun _ _ h => by cases h⟩
  | point m =>
    obtain ⟨m1, h1, h⟩ := (Except.bind_ok ..).mp h
    cases h
    unfold PointMon.update PointMon.updateWith at h1
    obtain ⟨l, h2, h1⟩ := (Except.bind_ok ..).mp h1
    cases h1; exact ⟨rfl, fun _ _ h => by cases h⟩
  | cyl m =>
    obtain ⟨m1, h1, h⟩ := (Except.bind_ok ..).mp h
    cases h
    unfold CylMon.update at h1
    obtain ⟨l, h2, h1⟩ := (Except.bind_ok ..).mp h1
    cases h1; exact ⟨rfl, fun _ _ h => by cases h⟩

theorem Monitor.runs_path {g : Grid K} : ∀ (l : List (Flds K × K)) {m m' : Monitor K}, Monitor.runs g l m = .ok m' → m'.path = m.path
  | [], _, _, h => by cases h; rfl
  | (f, t) :: l, m, m', h => by
    obtain ⟨m1, h1, h⟩ := (Except.bind_ok ..).mp h
    rw [Monitor.runs_path l h, (Monitor.update_path h1).1]

theorem boxRuns_fourier {g : Grid K} : ∀ (l : List (Flds K × K)) {m m' : BoxMon K}, boxRuns g l m = .ok m' → m'.fourier = m.fourier
  | [], _, _, h => by cases h; rfl
  | (f, t) :: l, m, m', h => by
    obtain ⟨m1, h1, h⟩ := (Except.bind_ok ..).mp h
    unfold BoxMon.update at h1
    obtain ⟨x, -, h1⟩ := (Except.bind_ok ..).mp h1
    rw [boxRuns_fourier l h]
    cases h1
    rfl

theorem spectra_stored {now : ℕ → ℝ} {w w' : World K} {i : ℕ} {m : Monitor K} (hm : w.sim.mons[i]? = some m)
    (h : w.step now (.writeSpectra i) = .ok w') {e : Path × H5Obj K} (he : e ∈ m.spectra) : w'.tree.at e.1 = some e.2 := by
  unfold World.step at h
  simp only [hm] at h
  obtain ⟨hp, h⟩ := World.write_ok h
  cases h
  exact Tree.puts_mem _ hp e he

end

/-- A monitor is added by a program on a file, and the program goes on. -/
structure Watched (now : ℕ → ℝ) (g : Grid ℝ) (cs1 : List (Call ℝ)) (m : Monitor ℝ) (cs2 : List (Call ℝ)) (w1 w2 : World ℝ) : Prop where
  wide : g.Wide
  dx : 0 < g.dx
  dt : 0 < g.dt
  start : ∃ fn w0, fn ≠ "" ∧ World.make now g fn = .ok w0 ∧ w0.runOk now cs1 = .ok w1
  run : w1.runOk now (.op (.addMonitor m) :: cs2) = .ok w2
  inside : Inside False g [] (simOps cs1 ++ .addMonitor m :: simOps cs2)
  leaves : ∀ op ∈ simOps cs2, Leaves w1.sim.mons.length op

theorem Watched.attaches {now : ℕ → ℝ} {g : Grid ℝ} {cs1 : List (Call ℝ)} {m : Monitor ℝ} {cs2 : List (Call ℝ)} {w1 w2 : World ℝ}
    (h : Watched now g cs1 m cs2 w1 w2) : Attaches now g (simOps cs1) m (simOps cs2) w1.sim w2.sim := by
  obtain ⟨fn, w0, hf, h0, h1⟩ := h.start
  exact ⟨h.wide, h.dx, h.dt, ⟨fn, w0.sim, hf, World.make_sim h0, World.runOk_sim h1⟩, World.runOk_sim h.run, h.inside, h.leaves⟩

theorem Watched.path {now : ℕ → ℝ} {g : Grid ℝ} {cs1 : List (Call ℝ)} {m m' : Monitor ℝ} {cs2 : List (Call ℝ)} {w1 w2 : World ℝ}
    (h : Watched now g cs1 m cs2 w1 w2) (hm : w2.sim.mons[w1.sim.mons.length]? = some m') : m'.path = m.path := by
  obtain ⟨s2, qs, m1, m2, -, -, -, -, e1, -, e2, k, -⟩ := Qbox.Props.attaches h.attaches
  rw [hm] at k
  rw [Option.some.inj k, Monitor.runs_path qs e2, Monitor.setF_path e1]

theorem Watched.grid {now : ℕ → ℝ} {g : Grid ℝ} {cs1 : List (Call ℝ)} {m : Monitor ℝ} {cs2 : List (Call ℝ)} {w1 w2 : World ℝ}
    (h : Watched now g cs1 m cs2 w1 w2) : w2.sim.core.g = g := by
  obtain ⟨fn, w0, hf, h0, h1⟩ := h.start
  obtain ⟨s0, e0, hs0⟩ := make_safe now False g h.wide fn hf
  rw [World.make_sim h0] at e0
  cases e0
  have hr : w0.sim.runOk now (simOps cs1 ++ .addMonitor m :: simOps cs2) = .ok w2.sim := by
    rw [runOk_append, World.runOk_sim h1]
    exact World.runOk_sim h.run
  obtain ⟨objs, -, hs⟩ := runOk_safe now h.wide h.dx _ [] [] w0.sim w2.sim (by rw [List.append_nil]; exact h.inside) hs0 hr
  exact hs.grid

/-- **C67 for surface monitors.** After `write()` the file has, for every component the monitor records, the Fourier sums of what the updates showed:
one row per cell, one column per frequency. `later` is whatever the program does then. Missing, here and below: box monitors (`C67_false`), and
programs that put back the clock after the monitor was added (`C36_false`). -/
theorem C67_surface_partial (now : ℕ → ℝ) (g : Grid ℝ) (cs1 cs2 later : List (Call ℝ)) (name : String) (a b : V2 ℝ) (sg : Sgn) (s : Surf ℝ) (tag : DftTag)
    (freq : List ℝ) (hs : Surf.make a b sg = .ok s) (hne : g.toGrid a ≠ g.toGrid b) (ha : InnerNode g (g.toGrid a)) (hb : InnerNode g (g.toGrid b))
    (w1 w2 w3 w4 : World ℝ) (h : Watched now g cs1 (.surf (.make name s tag freq)) cs2 w1 w2) (hc : ∀ op ∈ simOps cs2, isClear op = false)
    (hw : w2.step now (.writeSpectra w1.sim.mons.length) = .ok w3) (hl : w3.run now later = .ok w4) :
    ∃ s2 qs is ss, w1.sim.step now (.addMonitor (.surf (.make name s tag freq))) = .ok s2 ∧ Watch now s2 (simOps cs2) qs w2.sim ∧
      qs.length = (simOps cs2).countP isUpdate ∧ g.toGridS s = .ok is ∧
      List.Forall₂ (fun q r => Finds (cells g a b) (surfKeys tag is) (surfReads g s is q) r) qs ss ∧
      ∀ x ∈ surfKeys tag is, w4.tree.at ["monitors", "surface_monitor", name, x] =
        some (.cxs (table (intRange 0 (cells g a b)) freq x (midway (fun _ => 0) ss))) := by
  obtain ⟨s2, qs, is, ss, m, k1, k2, k3, k4, k5, k6, k7, k8, k9⟩ := C36_surface_partial now g _ _ name a b sg s tag freq hs hne ha hb _ _ h.attaches hc
  refine ⟨s2, qs, is, ss, k1, k2, k3, k4, k5, fun x hx => ?_⟩
  obtain ⟨acc, a1, a2, a3⟩ := k9 x hx
  have e := spectra_stored k6 hw (List.mem_append_right _ (get_entry a1 (Monitor.surf m).path))
  rw [values_table k8 a3, a2, h.path k6] at e
  exact C62_values now w3 w4 later hl _ _ e (by simp)

/-- **C67 for cylinder monitors.** -/
theorem C67_cylinder_partial (now : ℕ → ℝ) (g : Grid ℝ) (cs1 cs2 later : List (Call ℝ)) (name : String) (surf : CylSurf ℝ) (tag : DftTag)
    (freq : List ℝ) (n : ℤ) (hn : ceilI (ofInt 2 * Scalar.pi * surf.radius / g.dx) = n)
    (w1 w2 w3 w4 : World ℝ) (h : Watched now g cs1 (.cyl (.make name surf tag freq)) cs2 w1 w2) (hc : ∀ op ∈ simOps cs2, isClear op = false)
    (hw : w2.step now (.writeSpectra w1.sim.mons.length) = .ok w3) (hl : w3.run now later = .ok w4) :
    ∃ s2 qs ss, w1.sim.step now (.addMonitor (.cyl (.make name surf tag freq))) = .ok s2 ∧ Watch now s2 (simOps cs2) qs w2.sim ∧
      qs.length = (simOps cs2).countP isUpdate ∧ List.Forall₂ (fun q r => Finds n (cylKeys tag) (cylReads g surf n q) r) qs ss ∧
      ∀ x ∈ cylKeys tag, w4.tree.at ["monitors", "cylinder_monitor", name, x] =
        some (.cxs (table (intRange 0 n) freq x (midway (fun _ => 0) ss))) := by
  obtain ⟨s2, qs, ss, m, k1, k2, k3, k5, k6, k7, k8, k9⟩ := C36_cylinder_partial now g _ _ name surf tag freq n hn _ _ h.attaches hc
  refine ⟨s2, qs, ss, k1, k2, k3, k5, fun x hx => ?_⟩
  obtain ⟨acc, a1, a2, a3⟩ := k9 x hx
  have e := spectra_stored k6 hw (List.mem_append_right _ (get_entry a1 (Monitor.cyl m).path))
  rw [values_table k8 a3, a2, h.path k6] at e
  exact C62_values now w3 w4 later hl _ _ e (by simp)

/-- **C67 for volume monitors.** One row per node of the box, in the order of the columns of the box. -/
theorem C67_volume_partial (now : ℕ → ℝ) (g : Grid ℝ) (cs1 cs2 later : List (Call ℝ)) (name : String) (a b : V2 ℝ) (tag : DftTag) (freq : List ℝ)
    (w1 w2 w3 w4 : World ℝ) (h : Watched now g cs1 (.vol (.make name (Vol.make a b) tag freq)) cs2 w1 w2) (hc : ∀ op ∈ simOps cs2, isClear op = false)
    (hw : w2.step now (.writeSpectra w1.sim.mons.length) = .ok w3) (hl : w3.run now later = .ok w4) :
    ∃ s2 qs, w1.sim.step now (.addMonitor (.vol (.make name (Vol.make a b) tag freq))) = .ok s2 ∧ Watch now s2 (simOps cs2) qs w2.sim ∧
      qs.length = (simOps cs2).countP isUpdate ∧
      ∀ x ∈ volKeys tag, w4.tree.at ["monitors", "volume_monitor", name, x] =
        some (.cxs (table (pos2 (|(g.toGrid a).x - (g.toGrid b).x| + 1) (|(g.toGrid a).y - (g.toGrid b).y| + 1)) freq x
          (qs.map fun q => ⟨q.2, fun n p => nodeVal q.1 n ((g.toGrid a).x + p.1) ((g.toGrid a).y + p.2)⟩))) := by
  obtain ⟨s2, qs, m, k1, k2, k3, k4, k6, k8, k9⟩ := vol_holds h.attaches
  refine ⟨s2, qs, k1, k2, k3, fun x hx => ?_⟩
  obtain ⟨acc, a1, a2, a3⟩ := k9 x hx
  rw [counted_all _ _ (by rw [List.map_map]; exact k4 hc)] at a3
  have e := spectra_stored k6 hw (List.mem_append_right _ (get_entry a1 (Monitor.vol m).path))
  rw [values_table k8 a3, a2, h.path k6] at e
  exact C62_values now w3 w4 later hl _ _ e (by simp)

/-- The flux of a surface monitor, written to the file. -/
theorem C67_flux_partial (now : ℕ → ℝ) (g : Grid ℝ) (cs1 cs2 later : List (Call ℝ)) (name : String) (a b : V2 ℝ) (sg : Sgn) (s : Surf ℝ) (tag : DftTag)
    (ht : tag = .all ∨ tag = .tangent)
    (freq : List ℝ) (hs : Surf.make a b sg = .ok s) (hne : g.toGrid a ≠ g.toGrid b) (ha : InnerNode g (g.toGrid a)) (hb : InnerNode g (g.toGrid b))
    (w1 w2 w3 w4 : World ℝ) (h : Watched now g cs1 (.surf (.make name s tag freq)) cs2 w1 w2) (hc : ∀ op ∈ simOps cs2, isClear op = false)
    (hw : w2.step now (.report w1.sim.mons.length .flux) = .ok w3) (hl : w3.run now later = .ok w4) :
    ∃ s2 qs is ss, w1.sim.step now (.addMonitor (.surf (.make name s tag freq))) = .ok s2 ∧ Watch now s2 (simOps cs2) qs w2.sim ∧
      qs.length = (simOps cs2).countP isUpdate ∧ g.toGridS s = .ok is ∧
      List.Forall₂ (fun q r => Finds (cells g a b) (surfKeys tag is) (surfReads g s is q) r) qs ss ∧
      w4.tree.at ["monitors", "surface_monitor", name, "flux"] =
        some (.nums (freq.map fun f => ∑ i ∈ Finset.range (cells g a b), (phasors f i (midway (fun _ => 0) ss)).outflow (lineNormal a b sg) * g.dx)) := by
  obtain ⟨s2, qs, m1, m2, e0, w, hl', hq, e1, -, e2, hm, hd⟩ := Qbox.Props.attaches h.attaches
  obtain ⟨is, hi, -, -, -⟩ := toGridS_make g a b sg s hs hne
  obtain ⟨ss, hf, ht'⟩ := surf_finds g h.dx a b sg s hs hne ha hb is hi tag qs hq
  obtain ⟨M1, M, r1, r2, r3, r4, -, r6, -⟩ := surf_recorded g name a b sg s hs hne tag ht freq qs ss is hi hf
  obtain ⟨S, r5, r7⟩ := C41_flux g M a b sg (by rw [r3]; exact hs) _ _ _ r6
  rw [averaged_midway ss 0 _ (by rw [ht']; exact hd hc)] at r7
  have : m1 = .surf M1 := by
    unfold Monitor.setF at e1
    simp only [r1, Except.ok_bind] at e1
    exact (Except.ok.inj e1).symm
  subst this
  rw [runs_surf, r2] at e2
  obtain rfl : m2 = .surf M := (Except.ok.inj e2).symm
  refine ⟨s2, qs, is, ss, e0, w, hl', hi, hf, ?_⟩
  have hp := h.path hm
  unfold World.step at hw
  simp only [hm, Monitor.compute, h.grid, r5] at hw
  obtain ⟨v, hv, hw⟩ := tryM_ok hw
  have hv : v = .nums (overFreq M.fourier.nfreq S) := (Except.ok.inj hv).symm
  obtain ⟨hput, hw⟩ := World.write_ok hw
  have e := Tree.puts_mem _ hput ((Monitor.surf M).path ++ ["flux"], v) (List.mem_append_right _ (List.mem_singleton.mpr rfl))
  have e3 : w3.tree = _ := congrArg World.tree (Res.ok.inj hw).symm
  dsimp only at e3 e
  change Tree.at (w2.tree.puts ((Monitor.surf M).groups ++ [((Monitor.surf M).path ++ ["flux"], v)])).1 _ = _ at e
  change w3.tree = (w2.tree.puts ((Monitor.surf M).groups ++ [((Monitor.surf M).path ++ ["flux"], v)])).1 at e3
  rw [← e3, hp, hv] at e
  have hS : overFreq M.fourier.nfreq S =
      freq.map fun f => ∑ i ∈ Finset.range (cells g a b), (phasors f i (midway (fun _ => 0) ss)).outflow (lineNormal a b sg) * g.dx := by
    unfold overFreq Dft.nfreq
    rw [r4]
    exact freq_map freq _ _ fun k hk => by rw [r7 k hk]; simp only [lineField, getD_lt freq hk]
  rw [hS] at e
  exact C62_values now w3 w4 later hl _ _ e (by simp)

/-- A box monitor has no transforms of its own. -/
theorem Watched.box {now : ℕ → ℝ} {g : Grid ℝ} {cs1 : List (Call ℝ)} {cs2 : List (Call ℝ)} {w1 w2 : World ℝ} {name : String} {v : Vol ℝ} {tag : DftTag}
    {freq : List ℝ} {m0 : BoxMon ℝ} (hm0 : BoxMon.make name v tag freq = .ok m0) (h : Watched now g cs1 (.box m0) cs2 w1 w2) {m2 : Monitor ℝ}
    (hm : w2.sim.mons[w1.sim.mons.length]? = some m2) : m2.spectra = groups3 "monitors" "box_monitor" name := by
  obtain ⟨s2, qs, m1, m', e0, w, hl', hq, e1, -, e2, hm', hd⟩ := Qbox.Props.attaches h.attaches
  have hp := h.path hm
  rw [hm] at hm'
  obtain rfl := Option.some.inj hm'
  obtain ⟨M1, f1, e1⟩ := (Except.bind_ok ..).mp e1
  cases e1
  rw [runs_box] at e2
  have hn : m0.name = name ∧ m0.fourier.acc = [] := by
    unfold BoxMon.make at hm0
    obtain ⟨x1, -, hm0⟩ := (Except.bind_ok ..).mp hm0
    obtain ⟨x2, -, hm0⟩ := (Except.bind_ok ..).mp hm0
    obtain ⟨x3, -, hm0⟩ := (Except.bind_ok ..).mp hm0
    obtain ⟨x4, -, hm0⟩ := (Except.bind_ok ..).mp hm0
    cases hm0
    exact ⟨rfl, rfl⟩
  cases e3 : boxRuns g qs M1 with
  | error x => rw [e3] at e2; cases e2
  | ok M =>
    rw [e3] at e2
    obtain rfl : m2 = .box M := (Except.ok.inj e2).symm
    have hf : M.fourier.acc = [] := by
      rw [boxRuns_fourier qs e3]
      unfold BoxMon.setF at f1
      obtain ⟨l, -, f1⟩ := (Except.bind_ok ..).mp f1
      cases f1
      exact hn.2
    have hname : M.name = name := by
      rw [← hn.1]
      exact (List.cons.inj (List.cons.inj (List.cons.inj hp).2).2).1
    unfold Monitor.spectra Dft.entries
    simp only [hf, List.map_nil, List.append_nil]
    show groups3 "monitors" "box_monitor" M.name = _
    rw [hname]

/-- Box monitors: `write()` writes nothing. -/
theorem C67_box_nothing (now : ℕ → ℝ) (g : Grid ℝ) (cs1 cs2 : List (Call ℝ)) (name : String) (v : Vol ℝ) (tag : DftTag) (freq : List ℝ) (m0 : BoxMon ℝ)
    (hm0 : BoxMon.make name v tag freq = .ok m0) (w1 w2 w3 : World ℝ) (h : Watched now g cs1 (.box m0) cs2 w1 w2)
    (hw : w2.step now (.writeSpectra w1.sim.mons.length) = .ok w3) (p : Path) : w3.tree.at p = w2.tree.at p ∨ w3.tree.at p = some .group := by
  obtain ⟨-, -, -, m2, -, -, -, -, -, -, -, hm, -⟩ := Qbox.Props.attaches h.attaches
  have hs := h.box hm0 hm
  unfold World.step at hw
  simp only [hm, hs] at hw
  obtain ⟨hp, hw⟩ := World.write_ok hw
  cases hw
  dsimp only
  cases e : ((w2.tree.puts (groups3 "monitors" "box_monitor" name)).1.at p) with
  | none =>
    left
    cases e' : w2.tree.at p with
    | none => rfl
    | some x => rw [Tree.puts_keep _ e'] at e; cases e
  | some x =>
    rcases Tree.puts_new _ e with h' | ⟨-, h'⟩
    · left; rw [h']
    · right
      simp only [groups3, List.mem_cons, List.not_mem_nil, or_false] at h'
      rcases h' with h' | h' | h' <;> cases h' <;> rfl

theorem box_entries_Ez {K : Type} [Scalar K] (M : BoxMon K) (n : String) : ∀ e ∈ (Monitor.box M).entries, e.1 ≠ ["monitors", "box_monitor", n, "Ez"] := by
  intro e he
  simp only [Monitor.entries, List.mem_append, List.mem_flatMap, SurfMon.entries, Monitor.groups, groups3, Monitor.path, Monitor.sub_group, Monitor.name,
    Surf.entries, Vol.entries, freqEntry, List.mem_cons, List.not_mem_nil, or_false, List.cons_append, List.nil_append] at he
  casesm* _ ∨ _, Exists _, _ ∧ _ <;> subst_vars <;> simp

/-- **C67, as one would like it**: after `write()` the group of a monitor that records everything has the transform of `Ez`. -/
def C67_statement : Prop := ∀ (now : ℕ → ℝ) (g : Grid ℝ) (cs1 cs2 : List (Call ℝ)) (m : Monitor ℝ) (w1 w2 w3 : World ℝ),
  ((∃ name s freq, m = .surf (.make name s .all freq)) ∨ (∃ name v freq, m = .vol (.make name v .all freq)) ∨
    (∃ name s freq, m = .cyl (.make name s .all freq)) ∨ ∃ name v freq b, BoxMon.make name v .all freq = .ok b ∧ m = .box b) →
  Watched now g cs1 m cs2 w1 w2 → w2.step now (.writeSpectra w1.sim.mons.length) = .ok w3 → ∃ v, w3.tree.at (m.path ++ ["Ez"]) = some (.cxs v)

theorem box_watched (now : ℕ → ℝ) : ∃ m w1 w2, BoxMon.make "b" (Vol.make (⟨((3 : ℤ) : ℝ), ((2 : ℤ) : ℝ)⟩ : V2 ℝ) ⟨((16 : ℤ) : ℝ), ((17 : ℤ) : ℝ)⟩) .all [1] = .ok m ∧
    World.make now gEx "out" = .ok w1 ∧ Watched now gEx [] (.box m) [.op .update] w1 w2 := by
  choose t ht using boxFace_make (⟨((3 : ℤ) : ℝ), ((2 : ℤ) : ℝ)⟩ : V2 ℝ) ⟨((16 : ℤ) : ℝ), ((17 : ℤ) : ℝ)⟩
  have e0 : (Vol.make (⟨((3 : ℤ) : ℝ), ((2 : ℤ) : ℝ)⟩ : V2 ℝ) ⟨((16 : ℤ) : ℝ), ((17 : ℤ) : ℝ)⟩).getSurface .y_bottom = .ok (t 0) := ht 0
  have e1 : (Vol.make (⟨((3 : ℤ) : ℝ), ((2 : ℤ) : ℝ)⟩ : V2 ℝ) ⟨((16 : ℤ) : ℝ), ((17 : ℤ) : ℝ)⟩).getSurface .x_top = .ok (t 1) := ht 1
  have e2 : (Vol.make (⟨((3 : ℤ) : ℝ), ((2 : ℤ) : ℝ)⟩ : V2 ℝ) ⟨((16 : ℤ) : ℝ), ((17 : ℤ) : ℝ)⟩).getSurface .y_top = .ok (t 2) := ht 2
  have e3 : (Vol.make (⟨((3 : ℤ) : ℝ), ((2 : ℤ) : ℝ)⟩ : V2 ℝ) ⟨((16 : ℤ) : ℝ), ((17 : ℤ) : ℝ)⟩).getSurface .x_bottom = .ok (t 3) := ht 3
  obtain ⟨m, hb, hn⟩ : ∃ m, BoxMon.make "b" (Vol.make (⟨((3 : ℤ) : ℝ), ((2 : ℤ) : ℝ)⟩ : V2 ℝ) ⟨((16 : ℤ) : ℝ), ((17 : ℤ) : ℝ)⟩) .all [1] = .ok m ∧
      (claims (.op (.addMonitor (.box m)))).Nodup := by
    unfold BoxMon.make
    simp only [e0, e1, e2, e3, Except.ok_bind]
    refine ⟨_, rfl, ?_⟩
    simp only [claims, SurfMon.make, List.map_cons, List.map_nil, List.cons_append, List.nil_append]
    decide
  have hi : Inside False gEx [] [.addMonitor (.box m), .update] :=
    ⟨.box _ _ _ _ _ _ hb (by simp only [gEx_node]; norm_num) (by simp only [gEx_node]; norm_num)
      (inner 3 2 (by norm_num) (by norm_num) (by norm_num) (by norm_num)) (inner 16 17 (by norm_num) (by norm_num) (by norm_num) (by norm_num)), trivial⟩
  obtain ⟨w1, w2, h0, h⟩ := C66_completes now gEx gEx_wide (by rw [gEx_dx]; norm_num) "out" (by simp) [.op (.addMonitor (.box m)), .op .update] hi trivial
    (by unfold DistinctNames; simpa [claims] using hn) (by simp [PlainNames]) (by simp [NoResults])
  exact ⟨m, w1, w2, hb, h0, gEx_wide, by rw [gEx_dx]; norm_num, by rw [gEx_dt]; norm_num, ⟨"out", w1, by simp, h0, rfl⟩, h, hi, by simp [simOps, Leaves]⟩

/-- **C67 is false**: box monitors. -/
theorem C67_false : ¬ C67_statement := by
  intro H
  obtain ⟨m, w1, w2, hb, h0, h⟩ := box_watched (fun _ => 0)
  obtain ⟨s2, qs, m1, m2, -, -, -, -, e1, -, e2, hm, -⟩ := Qbox.Props.attaches h.attaches
  have hp2 := h.path hm
  have hpm : (Monitor.box m).path = ["monitors", "box_monitor", "b"] := by
    unfold BoxMon.make at hb
    obtain ⟨x1, -, hb⟩ := (Except.bind_ok ..).mp hb
    obtain ⟨x2, -, hb⟩ := (Except.bind_ok ..).mp hb
    obtain ⟨x3, -, hb⟩ := (Except.bind_ok ..).mp hb
    obtain ⟨x4, -, hb⟩ := (Except.bind_ok ..).mp hb
    cases hb
    rfl
  -- the tree before the call
  obtain ⟨wa, ha, hu⟩ := runOk_cons h.run
  have kept := C62_kept _ _ _ _ (World.runOk_run hu)
  obtain ⟨wb, hu, he⟩ := runOk_cons hu
  cases he
  have t2 : w2.tree = wa.tree := by
    change wa.lift (wa.sim.step (fun _ => 0) .update) = _ at hu
    cases e : wa.sim.step (fun _ => 0) .update with
    | ok s => rw [e] at hu; cases hu; rfl
    | threw x s => rw [e] at hu; cases hu
    | ub u => rw [e] at hu; cases hu
  unfold World.step at ha
  obtain ⟨m3, f1, ha⟩ := tryM_ok ha
  obtain ⟨hp, ha⟩ := World.write_ok ha
  have ta : wa.tree = (w1.tree.puts m3.entries).1 := congrArg World.tree (Res.ok.inj ha).symm
  obtain ⟨M, g1, f1⟩ := (Except.bind_ok ..).mp f1
  have f1 : Monitor.box M = m3 := Except.ok.inj f1
  subst f1
  have hM : (Monitor.box M).path = ["monitors", "box_monitor", "b"] := by
    rw [← hpm]
    exact Monitor.setF_path (g := w1.sim.core.g) (by show (do let m ← m.setF w1.sim.core.g; pure (Monitor.box m)) = _; rw [g1]; rfl)
  have hname : M.name = "b" := by
    have := hM
    unfold Monitor.path at this
    exact (List.cons.inj (List.cons.inj (List.cons.inj this).2).2).1
  -- the groups are there
  have grp : ∀ e ∈ (groups3 "monitors" "box_monitor" "b" : List (Path × H5Obj ℝ)), e.2 = .group ∧ w2.tree.at e.1 = some .group := by
    intro e he
    have h1 : e ∈ (Monitor.box M).entries := by
      refine List.mem_append_left _ (List.mem_append_left _ (List.mem_append_right _ ?_))
      show e ∈ groups3 "monitors" "box_monitor" M.name
      rw [hname]; exact he
    have h2 := Tree.puts_mem _ hp e h1
    have h3 : e.2 = .group := by
      simp only [groups3, List.mem_cons, List.not_mem_nil, or_false] at he
      rcases he with rfl | rfl | rfl <;> rfl
    rw [← ta, ← t2, h3] at h2
    exact ⟨h3, h2⟩
  -- nothing is at `Ez`
  have none : w2.tree.at ["monitors", "box_monitor", "b", "Ez"] = none := by
    rw [t2, ta]
    rw [Tree.puts_ne]
    · unfold World.make at h0
      obtain ⟨s, -, h0⟩ := (Except.bind_ok ..).mp h0
      dsimp only at h0
      split_ifs at h0
      cases h0
      dsimp only
      rw [Tree.puts_ne]
      · rfl
      · simp [Grid.entries]
    · exact box_entries_Ez M "b"
  -- the call
  have hs := h.box hb hm
  have hw : w2.step (fun _ => 0) (.writeSpectra w1.sim.mons.length) = .ok w2 := by
    unfold World.step
    simp only [hm, hs]
    unfold World.write
    rw [Tree.puts_open _ grp]
    rfl
  obtain ⟨v, hv⟩ := H _ gEx [] [.op .update] (.box m) w1 w2 w2 (.inr (.inr (.inr ⟨_, _, _, m, hb, rfl⟩))) h hw
  rw [hpm] at hv
  change w2.tree.at ["monitors", "box_monitor", "b", "Ez"] = _ at hv
  rw [none] at hv
  cases hv

end Qbox.Props
