import Verif.Props.FluxWaveProps
import Verif.Props.SurfDomainProps

/-! # C97: the flux of box monitors is the energy that leaves the box -/

namespace Qbox
open Scalar Spec Props

theorem boxMake_name {name : String} {v : Vol ℝ} {tag : DftTag} {freq : List ℝ} {m0 : BoxMon ℝ} (hm0 : BoxMon.make name v tag freq = .ok m0) :
    m0.name = name ∧ m0.nfreq = freq.length := by
  unfold BoxMon.make at hm0
  obtain ⟨x1, -, hm0⟩ := (Except.bind_ok ..).mp hm0
  obtain ⟨x2, -, hm0⟩ := (Except.bind_ok ..).mp hm0
  obtain ⟨x3, -, hm0⟩ := (Except.bind_ok ..).mp hm0
  obtain ⟨x4, -, hm0⟩ := (Except.bind_ok ..).mp hm0
  cases hm0
  exact ⟨rfl, rfl⟩

theorem boxRuns_nfreq {g : Grid ℝ} : ∀ (l : List (Flds ℝ × ℝ)) {m m' : BoxMon ℝ}, boxRuns g l m = .ok m' → m'.nfreq = m.nfreq
  | [], m, m', h => by cases h; rfl
  | q :: l, m, m', h => by
    unfold boxRuns at h
    obtain ⟨m1, h1, h⟩ := (Except.bind_ok ..).mp h
    rw [boxRuns_nfreq l h]
    unfold BoxMon.update at h1
    obtain ⟨x, -, h1⟩ := (Except.bind_ok ..).mp h1
    cases h1
    rfl

/-- The flux of a box monitor, written to the file. -/
theorem Props.C67_box_flux_partial (now : ℕ → ℝ) (g : Grid ℝ) (cs1 cs2 later : List (Call ℝ)) (name : String) (a b : V2 ℝ) (tag : DftTag)
    (ht : tag = .all ∨ tag = .tangent) (freq : List ℝ) (m0 : BoxMon ℝ) (hm0 : BoxMon.make name (Vol.make a b) tag freq = .ok m0)
    (hx : (g.toGrid a).x < (g.toGrid b).x) (hy : (g.toGrid a).y < (g.toGrid b).y) (ha : InnerNode g (g.toGrid a)) (hb : InnerNode g (g.toGrid b))
    (w1 w2 w3 w4 : World ℝ) (h : Watched now g cs1 (.box m0) cs2 w1 w2) (hc : ∀ op ∈ simOps cs2, isClear op = false)
    (hw : w2.step now (.report w1.sim.mons.length .flux) = .ok w3) (hl : w3.run now later = .ok w4) :
    ∃ s2 qs, w1.sim.step now (.addMonitor (.box m0)) = .ok s2 ∧ Watch now s2 (simOps cs2) qs w2.sim ∧ qs.length = (simOps cs2).countP isUpdate ∧
      ∃ (s : Fin 4 → Surf ℝ) (is : Fin 4 → ISurf) (ss : Fin 4 → List (Snap ℝ)), (∀ f, Surf.make (boxFace a b f).1 (boxFace a b f).2.1 (boxFace a b f).2.2 = .ok (s f) ∧
        g.toGridS (s f) = .ok (is f) ∧
        List.Forall₂ (fun q r => Finds (cells g (boxFace a b f).1 (boxFace a b f).2.1) (surfKeys tag (is f)) (surfReads g (s f) (is f) q) r) qs (ss f)) ∧
      w4.tree.at ["monitors", "box_monitor", name, "flux"] = some (.nums (freq.map fun x => ∑ f,
        ∑ i ∈ Finset.range (cells g (boxFace a b f).1 (boxFace a b f).2.1), (phasors x i (midway (fun _ => 0) (ss f))).outflow (outward f) * g.dx)) := by
  obtain ⟨s2, qs, m1, m2, e0, w, hl', hq, e1, -, e2, hm, hd⟩ := Qbox.Props.attaches h.attaches
  have hgf : ∀ f, g.toGrid (boxFace a b f).1 ≠ g.toGrid (boxFace a b f).2.1 := by
    intro f e
    have e1 := congrArg V2.x e
    have e2 := congrArg V2.y e
    simp only [Grid.toGrid, roundI_real] at hx hy e1 e2
    fin_cases f <;> simp [boxFace] at e1 e2 <;> omega
  have h1 : ∀ f, InnerNode g (g.toGrid (boxFace a b f).1) := by
    intro f
    obtain ⟨a1, a2, a3, a4⟩ := ha
    obtain ⟨b1, b2, b3, b4⟩ := hb
    fin_cases f <;> refine ⟨?_, ?_, ?_, ?_⟩ <;> assumption
  have h2 : ∀ f, InnerNode g (g.toGrid (boxFace a b f).2.1) := by
    intro f
    obtain ⟨a1, a2, a3, a4⟩ := ha
    obtain ⟨b1, b2, b3, b4⟩ := hb
    fin_cases f <;> refine ⟨?_, ?_, ?_, ?_⟩ <;> assumption
  choose s hs using boxFace_make a b
  choose is hi _ _ _ using fun f => toGridS_make g _ _ _ (s f) (hs f) (hgf f)
  choose ss hf ht' using fun f => surf_finds g h.dx _ _ _ (s f) (hs f) (hgf f) (h1 f) (h2 f) (is f) (hi f) tag qs hq
  obtain ⟨nx, hnx⟩ : ∃ nx : ℕ, (g.toGrid b).x - (g.toGrid a).x = nx := ⟨((g.toGrid b).x - (g.toGrid a).x).toNat, by omega⟩
  obtain ⟨ny, hny⟩ : ∃ ny : ℕ, (g.toGrid b).y - (g.toGrid a).y = ny := ⟨((g.toGrid b).y - (g.toGrid a).y).toNat, by omega⟩
  have hcc : ∀ f, cells g (boxFace a b f).1 (boxFace a b f).2.1 = faceCount nx ny f := by
    intro f
    simp only [Grid.toGrid, roundI_real] at hnx hny
    fin_cases f <;> simp [cells, boxFace, faceCount, Grid.toGrid] <;> omega
  obtain ⟨m0', M1, M, r0, r1, r2, -, -, r6, -⟩ := box_recorded g name a b hx hy tag ht freq qs ss nx ny hnx hny (by
    intro f s' is' hs' hi'
    obtain rfl := Except.ok.inj (hs'.symm.trans (hs f))
    obtain rfl := Except.ok.inj (hi'.symm.trans (hi f))
    rw [← hcc]
    exact hf f)
  obtain rfl := Except.ok.inj (r0.symm.trans hm0)
  have hab : a.x < b.x := by
    by_contra c
    have := div_le_div_of_nonneg_right (not_lt.mp c) h.dx.le
    simp only [Grid.toGrid, roundI_real] at hx
    exact absurd hx (not_lt.mpr (roundAway_mono this))
  obtain ⟨S, r5, r7⟩ := C41_box g M a b hab nx ny _ _ r6
  have : m1 = .box M1 := by
    unfold Monitor.setF at e1
    simp only [r1, Except.ok_bind] at e1
    exact (Except.ok.inj e1).symm
  subst this
  rw [runs_box, r2] at e2
  obtain rfl : m2 = .box M := (Except.ok.inj e2).symm
  refine ⟨s2, qs, e0, w, hl', s, is, ss, fun f => ⟨hs f, hi f, hf f⟩, ?_⟩
  have hp := h.path hm
  have hn := boxMake_name hm0
  have nf : M.nfreq = freq.length := by
    rw [boxRuns_nfreq qs r2, ← hn.2]
    unfold BoxMon.setF at r1
    obtain ⟨l, -, r1⟩ := (Except.bind_ok ..).mp r1
    cases r1
    rfl
  unfold World.step at hw
  simp only [hm, Monitor.compute, h.grid, r5] at hw
  obtain ⟨v, hv, hw⟩ := tryM_ok hw
  have hv : v = .nums (overFreq M.nfreq S) := (Except.ok.inj hv).symm
  obtain ⟨hput, hw⟩ := World.write_ok hw
  have e := Tree.puts_mem _ hput ((Monitor.box M).path ++ ["flux"], v) (List.mem_append_right _ (List.mem_singleton.mpr rfl))
  have e3 : w3.tree = _ := congrArg World.tree (Res.ok.inj hw).symm
  dsimp only at e3 e
  change Tree.at (w2.tree.puts ((Monitor.box M).groups ++ [((Monitor.box M).path ++ ["flux"], v)])).1 _ = _ at e
  change w3.tree = (w2.tree.puts ((Monitor.box M).groups ++ [((Monitor.box M).path ++ ["flux"], v)])).1 at e3
  rw [← e3, hp, hv] at e
  have hS : overFreq M.nfreq S = freq.map fun x => ∑ f,
      ∑ i ∈ Finset.range (cells g (boxFace a b f).1 (boxFace a b f).2.1), (phasors x i (midway (fun _ => 0) (ss f))).outflow (outward f) * g.dx := by
    unfold overFreq
    rw [nf]
    refine freq_map freq _ _ fun k hk => ?_
    rw [r7 k hk]
    refine Finset.sum_congr rfl fun f _ => ?_
    rw [hcc, averaged_midway (ss f) 0 _ (by rw [ht' f]; exact hd hc)]
    simp only [lineField, getD_lt freq hk]
  rw [hS] at e
  have := C62_values now w3 w4 later hl _ _ e (by simp)
  rw [← this, ← hn.1]
  rfl

namespace Props

/-- A program on a file makes a closed domain, does something (`cs1`), adds a box monitor with the lower left corner `a` and the upper right corner `b`, two nodes away from the
walls; it takes `n` steps and writes the flux. In between it may call whatever only looks, and afterwards it may do anything: `w4` is the file then. -/
structure BoxReport (now : ℕ → ℝ) (g : Grid ℝ) (cs1 cs2 later : List (Call ℝ)) (name : String) (a b : V2 ℝ) (tag : DftTag) (freq : List ℝ) (n : ℕ) (w4 : World ℝ) :
    Prop where
  lawful : Lawful g
  closed : g.T = 0
  fine : g.dx ≤ 1
  wide : g.Wide
  advances : Advances (simOps cs2)
  steps : n = (simOps cs2).countP isUpdate
  records : tag = .all ∨ tag = .tangent
  x : 2 ≤ (g.toGrid a).x ∧ (g.toGrid a).x < (g.toGrid b).x ∧ (g.toGrid b).x ≤ g.Nx - 2
  y : 2 ≤ (g.toGrid a).y ∧ (g.toGrid a).y < (g.toGrid b).y ∧ (g.toGrid b).y ≤ g.Ny - 2
  runs : ∃ m0 w1 w2 w3, BoxMon.make name (Vol.make a b) tag freq = .ok m0 ∧ Watched now g cs1 (.box m0) cs2 w1 w2 ∧ w2.step now (.report w1.sim.mons.length .flux) = .ok w3 ∧
    w3.run now later = .ok w4

/-- Such a program, which adds objects and sources before the monitor. -/
structure BoxWritten (now : ℕ → ℝ) (g : Grid ℝ) (cs1 cs2 later : List (Call ℝ)) (name : String) (a b : V2 ℝ) (tag : DftTag) (freq : List ℝ) (n : ℕ) (w4 : World ℝ) : Prop
    extends BoxReport now g cs1 cs2 later name a b tag freq n w4 where
  furnishes : Furnishes (simOps cs1)

/-- The file has a list of numbers, one per frequency; `dt ^ 2` times the number of frequency `f` differs from the energy of this frequency that leaves the box up to
time `T` by at most `bound f`. The box is the one between the nodes at the corners of the monitor. -/
def HoldsBoxFlux (w4 : World ℝ) (g : Grid ℝ) (name : String) (a b : V2 ℝ) (freq : List ℝ) (w : Spec.Wave) (T : ℝ) (bound : ℝ → ℝ) : Prop :=
  ∃ F : ℝ → ℝ, w4.tree.at ["monitors", "box_monitor", name, "flux"] = some (.nums (freq.map F)) ∧
    ∀ f, |g.dt ^ 2 * F f - w.boxFlow f T (g.toReal (g.toGrid a)) (g.toReal (g.toGrid b))| ≤ bound f

/-- The errors of the four faces. -/
noncomputable def boxFlowError (g : Grid ℝ) (A B : V2 ℤ) (M T E f : ℝ) : ℝ :=
  2 * flowError g (B.x - A.x).toNat M T E f + 2 * flowError g (B.y - A.y).toNat M T E f

/-- The flux of a box, if fields that are the same near its faces are close to a wave. The scene is the one that the program shows. -/
theorem holdsBoxFlux_near {now : ℕ → ℝ} {g : Grid ℝ} {cs1 cs2 later : List (Call ℝ)} {name : String} {a b : V2 ℝ} {tag : DftTag} {freq : List ℝ} {n : ℕ} {w4 : World ℝ}
    (h : BoxReport now g cs1 cs2 later name a b tag freq n w4) {m0 : BoxMon ℝ} (hm0 : BoxMon.make name (Vol.make a b) tag freq = .ok m0)
    (w1 w2 w3 : World ℝ) (hw : Watched now g cs1 (.box m0) cs2 w1 w2) (sce : Scene)
    (sc : ∀ s2 qs, w1.sim.step now (.addMonitor (.box m0)) = .ok s2 → Watch now s2 (simOps cs2) qs w2.sim → ∀ m (hm : m < qs.length), ∃ c c', sce.run g m = .ok c ∧
      sce.run g (m + 1) = .ok c' ∧ (qs[m]).2 = (m + 1) * g.dt ∧ (qs[m]).1.Ez = c'.f.Ez ∧
      (∀ i j, (qs[m]).1.Hx.val i j = c.f.Hx.val i j) ∧ (∀ i j, (qs[m]).1.Hy.val i j = c.f.Hy.val i j))
    (k2 : w2.step now (.report w1.sim.mons.length .flux) = .ok w3) (k3 : w3.run now later = .ok w4)
    (w : Spec.Wave) (τ M B : ℝ) (hM : 0 ≤ M) (hst : w.Steady g τ M) (hev : w.Even g τ M) (hr : w.AtRest g) (hτ : n * g.dt ≤ τ)
    (close : ∀ m ≤ n, ∃ c F, sce.run g m = .ok c ∧ (∀ f i j, Nearby (g.toGrid (boxFace a b f).1) (g.toGrid (boxFace a b f).2.1) i j →
      c.f.Ez.val i j = F.Ez.val i j ∧ c.f.Hx.val i j = F.Hx.val i j ∧ c.f.Hy.val i j = F.Hy.val i j) ∧ Real.sqrt (gap w g m F (updatedNodes g)) ≤ B) :
    HoldsBoxFlux w4 g name a b freq w (n * g.dt) (boxFlowError g (g.toGrid a) (g.toGrid b) M (n * g.dt) B) := by
  have hc : ∀ op ∈ simOps cs2, isClear op = false := fun op ho => by
    rcases h.advances op ho with k | rfl
    · cases op <;> first | rfl | cases k
    · rfl
  obtain ⟨x1, x2, x3⟩ := h.x
  obtain ⟨y1, y2, y3⟩ := h.y
  obtain ⟨s2, qs, q1, q2, q3, s, is, ss, q4, q5⟩ := C67_box_flux_partial now g cs1 cs2 later name a b tag h.records freq m0 hm0 x2 y2
    (inner_of_two ⟨x1, by omega⟩ ⟨y1, by omega⟩ h.fine) (inner_of_two ⟨by omega, x3⟩ ⟨by omega, y3⟩ h.fine) w1 w2 w3 w4 hw hc k2 k3
  refine ⟨_, q5, fun x => ?_⟩
  have hab : a.x < b.x := by
    by_contra c
    have := div_le_div_of_nonneg_right (not_lt.mp c) h.lawful.dx.le
    simp only [Grid.toGrid, roundI_real] at x2
    exact absurd x2 (not_lt.mpr (roundAway_mono this))
  have cx : ∀ f, 2 ≤ (g.toGrid (boxFace a b f).1).x ∧ (g.toGrid (boxFace a b f).1).x ≤ g.Nx - 2 := by
    intro f
    fin_cases f
    · exact ⟨x1, by show (g.toGrid a).x ≤ _; omega⟩
    · exact ⟨by show 2 ≤ (g.toGrid b).x; omega, x3⟩
    · exact ⟨by show 2 ≤ (g.toGrid b).x; omega, x3⟩
    · exact ⟨x1, by show (g.toGrid a).x ≤ _; omega⟩
  have cy : ∀ f, 2 ≤ (g.toGrid (boxFace a b f).1).y ∧ (g.toGrid (boxFace a b f).1).y ≤ g.Ny - 2 := by
    intro f
    fin_cases f
    · exact ⟨y1, by show (g.toGrid a).y ≤ _; omega⟩
    · exact ⟨y1, by show (g.toGrid a).y ≤ _; omega⟩
    · exact ⟨by show 2 ≤ (g.toGrid b).y; omega, y3⟩
    · exact ⟨by show 2 ≤ (g.toGrid b).y; omega, y3⟩
  have dx : ∀ f, 2 ≤ (g.toGrid (boxFace a b f).2.1).x ∧ (g.toGrid (boxFace a b f).2.1).x ≤ g.Nx - 2 := by
    intro f
    fin_cases f
    · exact ⟨by show 2 ≤ (g.toGrid b).x; omega, x3⟩
    · exact ⟨by show 2 ≤ (g.toGrid b).x; omega, x3⟩
    · exact ⟨x1, by show (g.toGrid a).x ≤ _; omega⟩
    · exact ⟨x1, by show (g.toGrid a).x ≤ _; omega⟩
  have dy : ∀ f, 2 ≤ (g.toGrid (boxFace a b f).2.1).y ∧ (g.toGrid (boxFace a b f).2.1).y ≤ g.Ny - 2 := by
    intro f
    fin_cases f
    · exact ⟨y1, by show (g.toGrid a).y ≤ _; omega⟩
    · exact ⟨by show 2 ≤ (g.toGrid b).y; omega, y3⟩
    · exact ⟨by show 2 ≤ (g.toGrid b).y; omega, y3⟩
    · exact ⟨y1, by show (g.toGrid a).y ≤ _; omega⟩
  have hne : ∀ f, g.toGrid (boxFace a b f).1 ≠ g.toGrid (boxFace a b f).2.1 := by
    intro f e
    have e1 := congrArg V2.x e
    have e2 := congrArg V2.y e
    simp only [Grid.toGrid, roundI_real] at x2 y2 e1 e2
    fin_cases f <;> simp [boxFace] at e1 e2 <;> omega
  have face := fun f => line_flow_near g h.lawful h.fine (boxFace a b f).1 (boxFace a b f).2.1 (boxFace a b f).2.2 (s f) tag h.records (q4 f).1 (hne f) (cx f) (cy f) (dx f) (dy f)
    sce n qs (is f) (ss f) (q3.trans h.steps.symm) (q4 f).2.1 (q4 f).2.2 (sc s2 qs q1 q2) w τ M B hM hst hev hr hτ
    (fun m hm => by obtain ⟨c, F, e1, e2, e3⟩ := close m hm; exact ⟨c, F, e1, e2 f, e3⟩) x _ rfl
  simp only [boxFace_normal a b hab.ne] at face
  have c0 : cells g (boxFace a b 0).1 (boxFace a b 0).2.1 = ((g.toGrid b).x - (g.toGrid a).x).toNat := by
    simp only [Grid.toGrid, roundI_real] at x2 ⊢; simp [cells, boxFace, Grid.toGrid]; omega
  have c1 : cells g (boxFace a b 1).1 (boxFace a b 1).2.1 = ((g.toGrid b).y - (g.toGrid a).y).toNat := by
    simp only [Grid.toGrid, roundI_real] at y2 ⊢; simp [cells, boxFace, Grid.toGrid]; omega
  have c2 : cells g (boxFace a b 2).1 (boxFace a b 2).2.1 = ((g.toGrid b).x - (g.toGrid a).x).toNat := by
    simp only [Grid.toGrid, roundI_real] at x2 ⊢; simp [cells, boxFace, Grid.toGrid]; omega
  have c3 : cells g (boxFace a b 3).1 (boxFace a b 3).2.1 = ((g.toGrid b).y - (g.toGrid a).y).toNat := by
    simp only [Grid.toGrid, roundI_real] at y2 ⊢; simp [cells, boxFace, Grid.toGrid]; omega
  have f0 := face 0
  have f1 := face 1
  have f2 := face 2
  have f3 := face 3
  simp only [Fin.sum_univ_four]
  rw [c0] at f0 ⊢
  rw [c1] at f1 ⊢
  rw [c2] at f2 ⊢
  rw [c3] at f3 ⊢
  unfold boxFlowError flowError lineSpectralError Wave.boxFlow
  rw [abs_le] at f0 f1 f2 f3 ⊢
  constructor
  · exact le_trans (le_of_eq (by ring)) (le_trans (add_le_add (add_le_add (add_le_add f0.1 f1.1) f2.1) f3.1) (le_of_eq (by simp only [boxFace, outward]; simp [Grid.toReal, Grid.toGrid]; ring)))
  · exact le_trans (le_of_eq (by simp only [boxFace, outward]; simp [Grid.toReal, Grid.toGrid]; ring)) (le_trans (add_le_add (add_le_add (add_le_add f0.2 f1.2) f2.2) f3.2) (le_of_eq (by ring)))

theorem holdsBoxFlux_close {now : ℕ → ℝ} {g : Grid ℝ} {cs1 cs2 later : List (Call ℝ)} {name : String} {a b : V2 ℝ} {tag : DftTag} {freq : List ℝ} {n : ℕ} {w4 : World ℝ}
    (h : BoxWritten now g cs1 cs2 later name a b tag freq n w4) {m0 : BoxMon ℝ} (hm0 : BoxMon.make name (Vol.make a b) tag freq = .ok m0)
    (w1 w2 w3 : World ℝ) (hw : Watched now g cs1 (.box m0) cs2 w1 w2) (he : ∀ s ∈ sourcesOf (simOps cs1), ∀ C i j, Drives g s C ⟨i, j⟩ → C = .Ez)
    (k2 : w2.step now (.report w1.sim.mons.length .flux) = .ok w3) (k3 : w3.run now later = .ok w4)
    (w : Spec.Wave) (τ M B : ℝ) (hM : 0 ≤ M) (hst : w.Steady g τ M) (hev : w.Even g τ M) (hr : w.AtRest g) (hτ : n * g.dt ≤ τ)
    (close : ∀ m ≤ n, ∃ c, (⟨objectsOf (simOps cs1), sourcesOf (simOps cs1), none⟩ : Scene).run g m = .ok c ∧ Real.sqrt (gap w g m c.f (updatedNodes g)) ≤ B) :
    HoldsBoxFlux w4 g name a b freq w (n * g.dt) (boxFlowError g (g.toGrid a) (g.toGrid b) M (n * g.dt) B) :=
  holdsBoxFlux_near h.toBoxReport hm0 w1 w2 w3 hw _ (fun s2 qs q1 q2 => shown_scene hw h.furnishes h.advances he q1 q2) k2 k3 w τ M B hM hst hev hr hτ fun m hm => by
    obtain ⟨c, e1, e2⟩ := close m hm
    exact ⟨c, c.f, e1, fun _ _ _ _ => ⟨rfl, rfl, rfl⟩, e2⟩

/-- **C97**, simple media. Objects of passive simple media and sources of `Ez` that carry the current of a solution of Maxwell's equations that starts from rest: what the
monitor writes as flux is the energy of the solution that leaves its box, up to the error of the fields (C84), divided by the root of the size of a cell, and terms of first
order in it. -/
theorem C97_simple {now : ℕ → ℝ} {g : Grid ℝ} {cs1 cs2 later : List (Call ℝ)} {name : String} {a b : V2 ℝ} {tag : DftTag} {freq : List ℝ} {n : ℕ}
    {w4 : World ℝ} (h : BoxWritten now g cs1 cs2 later name a b tag freq n w4) (objs : List (Object ℝ)) (srcs : List (Source ℝ)) (ho : objectsOf (simOps cs1) = objs)
    (hsr : sourcesOf (simOps cs1) = srcs) (hb : ∀ o ∈ objs, BoxSound o)
    (hc : ∀ o ∈ objs, ClearOfUnguardedEdges g o) (hp : ∀ o ∈ objs, PassiveObject o) (epsMax sigMax : ℝ) (he : AtMost epsMax objs)
    (hs : ConductAtMost sigMax objs) (eps sig : ℝ → ℝ → ℝ) (hmed : MediumOf objs eps sig) (w : Spec.Wave) (S : ℝ → ℝ → Prop) (J : ℝ → ℝ → ℝ → ℝ) (τ M δ : ℝ)
    (hsm : w.Smooth S g τ M) (hst : w.Steady g τ M) (hev : w.Even g τ M) (hmx : w.Driven S eps sig J g τ) (hJ : CurrentAtMost J g τ M) (hwl : w.Walls g τ) (hr : w.AtRest g)
    (fits : ∀ s ∈ srcs, Fits g s) (hδ : 0 ≤ δ) (hk : Spec.Carries g srcs eps sig J τ δ) (hn : ((n : ℝ) + 1 / 2) * g.dt ≤ τ) :
    HoldsBoxFlux w4 g name a b freq w (n * g.dt)
      (boxFlowError g (g.toGrid a) (g.toGrid b) M (n * g.dt) (restError S g M epsMax + n * g.dt * drivenError S g M epsMax sigMax δ)) := by
  subst ho hsr
  obtain ⟨m0, w1, w2, w3, k0, k1, k2, k3⟩ := h.runs
  have dt0 : 0 < g.dt := by rw [h.lawful.dt]; linarith [h.lawful.dx]
  have n0 : (0 : ℝ) ≤ n := Nat.cast_nonneg n
  refine holdsBoxFlux_close h k0 w1 w2 w3 k1
    (fun s hs C i j hd => (hk.electric s hs C i j hd).1) k2 k3 w τ M _ (current_nonneg h.wide h.lawful h.closed hJ (by nlinarith)) hst hev hr (by nlinarith) fun m hm => ?_
  obtain ⟨c, e1, e2⟩ := C84_radiates m g h.wide h.lawful h.closed _ hb hc hp epsMax sigMax he hs eps sig hmed w S J τ M δ hsm hst hmx hJ hwl hr _ fits hδ hk
    (earlier hm dt0 hn).1
  exact ⟨c, e1, e2.trans (add_le_add_right (mul_le_mul_of_nonneg_right (earlier hm dt0 hn).2 (Real.sqrt_nonneg _)) _)⟩

/-- **C97**, Debye and Drude media of one pole: as `C97_simple`, with the error of the fields of C85. -/
theorem C97_dispersive {now : ℕ → ℝ} {g : Grid ℝ} {cs1 cs2 later : List (Call ℝ)} {name : String} {a b : V2 ℝ} {tag : DftTag} {freq : List ℝ} {n : ℕ}
    {w4 : World ℝ} (h : BoxWritten now g cs1 cs2 later name a b tag freq n w4) (objs : List (Object ℝ)) (srcs : List (Source ℝ)) (hob : objectsOf (simOps cs1) = objs)
    (hsr : sourcesOf (simOps cs1) = srcs) (hb : ∀ o ∈ objs, BoxSound o)
    (hc : ∀ o ∈ objs, ClearOfUnguardedEdges g o) (hp : ∀ o ∈ objs, PassiveKind o.mat.kind) (hnm : OneMeaning objs) (hu : Uncovered g objs)
    (eps sig : ℝ → ℝ → ℝ) (res : ℝ → ℝ → Response) (hmat : MatterOf objs eps sig res) (epsMax sigMax q : ℝ) (hmax : MatterAtMost eps sig res epsMax sigMax q)
    (w : Spec.Wave) (K Kt I : ℝ → ℝ → ℝ → ℝ) (S : ℝ → ℝ → Prop) (τ M δ : ℝ) (hsm : w.Smooth S g τ M) (hst : w.Steady g τ M) (hev : w.Even g τ M)
    (hmx : w.Driven S eps sig (fun t x y => K t x y + I t x y) g τ) (hK : w.Polarized K Kt S res g τ M) (hI : CurrentAtMost I g τ M) (hwl : w.Walls g τ)
    (hr : w.AtRest g) (hrK : ∀ x y, InDomain g x y → K 0 x y = 0) (fits : ∀ s ∈ srcs, Fits g s) (hδ : 0 ≤ δ)
    (hk : Spec.Carries g srcs eps sig I τ δ) (ho : OutsideMemory g objs srcs) (hn : ((n : ℝ) + 1 / 2) * g.dt ≤ τ) :
    HoldsBoxFlux w4 g name a b freq w (n * g.dt)
      (boxFlowError g (g.toGrid a) (g.toGrid b) M (n * g.dt) (restError S g M (epsMax + q ^ 2) + n * g.dt * polarError S g M epsMax sigMax q δ)) := by
  subst hob hsr
  obtain ⟨m0, w1, w2, w3, k0, k1, k2, k3⟩ := h.runs
  have dt0 : 0 < g.dt := by rw [h.lawful.dt]; linarith [h.lawful.dx]
  have n0 : (0 : ℝ) ≤ n := Nat.cast_nonneg n
  refine holdsBoxFlux_close h k0 w1 w2 w3 k1
    (fun s hs C i j hd => (hk.electric s hs C i j hd).1) k2 k3 w τ M _ (current_nonneg h.wide h.lawful h.closed hI (by nlinarith)) hst hev hr (by nlinarith) fun m hm => ?_
  obtain ⟨c, e1, e2⟩ := C85_solves m g h.wide h.lawful h.closed _ hb hc hp hnm hu eps sig res hmat epsMax sigMax q hmax w K Kt I S τ M δ hsm hst hmx hK hI hwl hr hrK _
    fits hδ hk ho (earlier hm dt0 hn).1
  exact ⟨c, e1, e2.trans (add_le_add_right (mul_le_mul_of_nonneg_right (earlier hm dt0 hn).2 (Real.sqrt_nonneg _)) _)⟩

/-- **C97**, a Lorentz medium of one pole on top of passive simple media: as `C97_simple`, with the error of the fields of C93. -/
theorem C97_lorentz {now : ℕ → ℝ} {g : Grid ℝ} {cs1 cs2 later : List (Call ℝ)} {name : String} {a b : V2 ℝ} {tag : DftTag} {freq : List ℝ} {n : ℕ}
    {w4 : World ℝ} (h : BoxWritten now g cs1 cs2 later name a b tag freq n w4) (objs : List (Object ℝ)) (srcs : List (Source ℝ)) (o : Object ℝ)
    (hob : objectsOf (simOps cs1) = objs ++ [o]) (hsr : sourcesOf (simOps cs1) = srcs) (hb : ∀ o ∈ objs, BoxSound o)
    (hc : ∀ o ∈ objs, ClearOfUnguardedEdges g o) (hp : ∀ o ∈ objs, PassiveObject o) (epsMax sigMax : ℝ) (he : AtMost epsMax objs)
    (hs : ConductAtMost sigMax objs) (eps sig : ℝ → ℝ → ℝ) (hmed : MediumOf objs eps sig) (e : ℝ) (p : LorentzPole ℝ)
    (hk : o.mat.kind = .lorentz ⟨e, [p]⟩) (bo : BoxSound o) (co : ClearOfUnguardedEdges g o) (e1 : 1 ≤ e) (e2 : e ≤ epsMax)
    (p1 : p.omega ≠ 0) (p2 : 0 < p.dEps) (p3 : 0 ≤ p.gamma)
    (w : Spec.Wave) (S : ℝ → ℝ → Prop) (P K Kt I : ℝ → ℝ → ℝ → ℝ) (τ M δ : ℝ) (hsm : w.Smooth S g τ M) (hst : w.Steady g τ M) (hev : w.Even g τ M)
    (hmx : w.Driven S (coated o e eps) (coated o 0 sig) (fun t x y => K t x y + I t x y) g τ)
    (hq : w.Swinging P K Kt S (fun x y => o.inside ⟨x, y⟩ = true) p g τ M) (hI : CurrentAtMost I g τ M) (hwl : w.Walls g τ) (hr : w.AtRest g)
    (hP : ∀ x y, InDomain g x y → P 0 x y = 0 ∧ K 0 x y = 0)
    (fits : ∀ s ∈ srcs, Fits g s) (hδ : 0 ≤ δ) (hcr : Spec.Carries g srcs (coated o e eps) (coated o 0 sig) I τ δ)
    (ho : ∀ t (i j : ℤ), o.inside ⟨i * g.dx, j * g.dx⟩ = true → addedE g srcs t i j = 0) (hn : ((n : ℝ) + 1 / 2) * g.dt ≤ τ) :
    HoldsBoxFlux w4 g name a b freq w (n * g.dt)
      (boxFlowError g (g.toGrid a) (g.toGrid b) M (n * g.dt) (3 * (Real.exp (swingRate p epsMax sigMax g.dt * (n * g.dt)) *
        (swingStart S g p M epsMax + n * g.dt * swingError S g p M epsMax sigMax δ)))) := by
  subst hsr
  obtain ⟨m0, w1, w2, w3, k0, k1, k2, k3⟩ := h.runs
  have dt0 : 0 < g.dt := by rw [h.lawful.dt]; linarith [h.lawful.dx]
  have n0 : (0 : ℝ) ≤ n := Nat.cast_nonneg n
  have M0 : 0 ≤ M := current_nonneg h.wide h.lawful h.closed hI (by nlinarith)
  have s0 : 0 ≤ swingStart S g p M epsMax := by
    unfold swingStart restError
    have := h.lawful.dx
    positivity
  obtain ⟨l0, f0, r0⟩ := rates_nonneg (p := p) ⟨p1, p2, p3⟩ (by linarith : 0 ≤ epsMax) hs.1 dt0.le
  have q0 : 0 ≤ swingNoise S g M epsMax sigMax (swingStiff p) δ := by unfold swingNoise; positivity
  have w0 : 0 ≤ swingError S g p M epsMax sigMax δ := by unfold swingError; positivity
  refine holdsBoxFlux_close h k0 w1 w2 w3 k1
    (fun s hs C i j hd => (hcr.electric s hs C i j hd).1) k2 k3 w τ M _ M0 hst hev hr (by nlinarith) fun m hm => ?_
  obtain ⟨c, c1, c2⟩ := C93_solves m g h.wide h.lawful h.closed objs hb hc hp epsMax sigMax he hs eps sig hmed o e p hk bo co e1 e2 p1 p2 p3 w S P K Kt I τ M δ hsm hst
    hmx hq hI hwl hr hP _ fits hδ hcr ho (earlier hm dt0 hn).1
  rw [hob]
  have mn := (earlier hm dt0 hn).2
  refine ⟨c, c1, c2.trans (mul_le_mul_of_nonneg_left (mul_le_mul (Real.exp_le_exp.mpr (mul_le_mul_of_nonneg_left mn r0))
    (add_le_add_right (mul_le_mul_of_nonneg_right mn w0) _) (add_nonneg s0 (by positivity)) (Real.exp_nonneg _)) (by norm_num))⟩

end Props
end Qbox
