import Verif.Props.LitProps

/-! # C105: what volume and surface monitors write in programs with an incident wave -/

namespace Qbox
open Scalar Spec Props

/-- A volume monitor in a program with a scene whose fields are, at the nodes of the monitor, those of a field that is close to a wave. -/
theorem spectra_near (now : ℕ → ℝ) (g : Grid ℝ) (hl : Lawful g) (hT : g.T = 0) (cs1 cs2 later : List (Call ℝ)) (name : String) (a b : V2 ℝ) (tag : DftTag) (freq : List ℝ)
    (hx : (g.toGrid a).x ≤ (g.toGrid b).x) (hy : (g.toGrid a).y ≤ (g.toGrid b).y)
    (hR : ∀ i j, (Box.mk (g.toGrid a).x (g.toGrid b).x (g.toGrid a).y (g.toGrid b).y).Mem i j → (updatedNodes g).Mem i j)
    (w1 w2 w3 w4 : World ℝ) (h : Watched now g cs1 (.vol (.make name (Vol.make a b) tag freq)) cs2 w1 w2)
    (ha : Advances (simOps cs2)) (sce : Scene)
    (scs : ∀ s2 qs, w1.sim.step now (.addMonitor (.vol (.make name (Vol.make a b) tag freq))) = .ok s2 → Watch now s2 (simOps cs2) qs w2.sim → ∀ m (hm : m < qs.length),
      ∃ c c', sce.run g m = .ok c ∧ sce.run g (m + 1) = .ok c' ∧ (qs[m]).2 = (m + 1) * g.dt ∧ (qs[m]).1.Ez = c'.f.Ez ∧
      (∀ i j, (qs[m]).1.Hx.val i j = c.f.Hx.val i j) ∧ (∀ i j, (qs[m]).1.Hy.val i j = c.f.Hy.val i j))
    (hw : w2.step now (.writeSpectra w1.sim.mons.length) = .ok w3) (hla : w3.run now later = .ok w4) (n : ℕ) (hn : n = (simOps cs2).countP isUpdate)
    (w : Spec.Wave) (τ M B : ℝ) (hM : 0 ≤ M) (hst : w.Steady g τ M) (hr : w.AtRest g) (hτ : n * g.dt ≤ τ)
    (close : ∀ m ≤ n, ∃ c F, sce.run g m = .ok c ∧ (∀ i j, (Box.mk (g.toGrid a).x (g.toGrid b).x (g.toGrid a).y (g.toGrid b).y).Mem i j →
      c.f.Ez.val i j = F.Ez.val i j ∧ c.f.Hx.val i j = F.Hx.val i j ∧ c.f.Hy.val i j = F.Hy.val i j) ∧ Real.sqrt (gap w g m F (updatedNodes g)) ≤ B) :
    ∃ F : String → ℝ → ℤ → ℤ → Cx ℝ, (∀ x ∈ volKeys tag, w4.tree.at ["monitors", "volume_monitor", name, x] =
        some (.cxs ((pos2 ((g.toGrid b).x - (g.toGrid a).x + 1) ((g.toGrid b).y - (g.toGrid a).y + 1)).flatMap fun p =>
          freq.map fun f => F x f ((g.toGrid a).x + p.1) ((g.toGrid a).y + p.2)))) ∧
      ∀ x f, Real.sqrt (spectralGap w g x f (n * g.dt) (F x f) ⟨(g.toGrid a).x, (g.toGrid b).x, (g.toGrid a).y, (g.toGrid b).y⟩) ≤
        n * g.dt * (B + Real.sqrt (g.Lx * g.Ly) * (g.dt * (M + 2 * Real.pi * |f| * (M * (n * g.dt))))) := by
  have hc : ∀ op ∈ simOps cs2, isClear op = false := fun op ho => by
    rcases ha op ho with k | rfl
    · cases op <;> first | rfl | cases k
    · rfl
  obtain ⟨s2, qs, k1, k2, k3, k4⟩ := C67_volume_partial now g cs1 cs2 later name a b tag freq w1 w2 w3 w4 h hc hw hla
  rw [← hn] at k3
  set ax := (g.toGrid a).x with hax
  set ay := (g.toGrid a).y with hay
  set smp : List (Sample ℝ (ℤ × ℤ)) := qs.map fun q => ⟨q.2, fun n p => nodeVal q.1 n (ax + p.1) (ay + p.2)⟩ with hsmp
  refine ⟨fun x f i j => ⟨cosSum f x (i - ax, j - ay) 0 smp, sinSum f x (i - ax, j - ay) 0 smp⟩, fun x hxk => ?_, fun x f => ?_⟩
  · rw [k4 x hxk, abs_of_nonpos (by omega), abs_of_nonpos (by omega)]
    unfold table
    rw [show -(ax - (g.toGrid b).x) + 1 = (g.toGrid b).x - ax + 1 by ring, show -(ay - (g.toGrid b).y) + 1 = (g.toGrid b).y - ay + 1 by ring]
    congr 2
    rw [List.flatMap_def, List.flatMap_def]
    congr 1
    refine List.map_congr_left fun p _ => List.map_congr_left fun f _ => ?_
    dsimp only
    rw [show (ax + p.1 - ax, ay + p.2 - ay) = p by ext <;> simp]
  · have sc := scs s2 qs k1 k2
    have all : ∀ m, ∃ (c : Core ℝ) (F : Flds ℝ), m ≤ n → sce.run g m = .ok c ∧ (∀ i j, (Box.mk ax (g.toGrid b).x ay (g.toGrid b).y).Mem i j →
        c.f.Ez.val i j = F.Ez.val i j ∧ c.f.Hx.val i j = F.Hx.val i j ∧ c.f.Hy.val i j = F.Hy.val i j) ∧ Real.sqrt (gap w g m F (updatedNodes g)) ≤ B := fun m => by
      by_cases hm : m ≤ n
      · obtain ⟨c, F, e⟩ := close m hm
        exact ⟨c, F, fun _ => e⟩
      · obtain ⟨c, F, -⟩ := close 0 (Nat.zero_le _)
        exact ⟨c, F, fun h => absurd h hm⟩
    choose d F dd using all
    have dr := fun m hm => (dd m hm).1
    have dv := fun m hm => (dd m hm).2.1
    have dg := fun m hm => (dd m hm).2.2
    -- what is recorded at the nodes of the monitor, continued to the other nodes
    set r : ℕ → ℤ → ℤ → ℝ := fun m => if x = "Ez" then (F (m + 1)).Ez.val else if x = "Hx" then (F m).Hx.val else (F m).Hy.val with hrd
    have rv : ∀ m (hm : m < qs.length) i j, (Box.mk ax (g.toGrid b).x ay (g.toGrid b).y).Mem i j → nodeVal (qs[m]).1 x i j = r m i j := fun m hm i j hij => by
      obtain ⟨c, c', e1, e2, e3, e4, e5, e6⟩ := sc m hm
      rw [k3] at hm
      obtain rfl := Except.ok.inj (e1.symm.trans (dr m hm.le))
      obtain rfl := Except.ok.inj (e2.symm.trans (dr (m + 1) hm))
      have v0 := dv m hm.le i j hij
      have v1 := dv (m + 1) hm i j hij
      rw [hrd]
      simp only [nodeVal, e4, e5, e6]
      by_cases hE : x = "Ez"
      · simp only [if_pos hE, v1.1]
      · by_cases hX : x = "Hx"
        · simp only [if_neg hE, if_pos hX, v0.2.1]
        · simp only [if_neg hE, if_neg hX, v0.2.2]
    have val : ∀ i j, (Box.mk ax (g.toGrid b).x ay (g.toGrid b).y).Mem i j → (⟨cosSum f x (i - ax, j - ay) 0 smp, sinSum f x (i - ax, j - ay) 0 smp⟩ : ℂ) =
        ∑ m ∈ Finset.range n, (r m i j : ℂ) * wavelet f ((m + 1) * g.dt) := fun i j hij => by
      rw [fourier_list, show (⟨0, 0⟩ : ℂ) = 0 from rfl, zero_add, hsmp, List.map_map, ← k3]
      refine sum_indexed _ qs _ fun m hm => ?_
      obtain ⟨c, c', -, -, e3, -⟩ := sc m hm
      rw [← rv m hm i j hij]
      simp only [Function.comp, add_sub_cancel, e3]
    have key : ∃ θ : ℝ, 0 ≤ θ ∧ θ ≤ 1 ∧ ∀ m < n, l2 g (fun i j => r m i j - w.site g x i j ((m + θ) * g.dt)) ≤ B := by
      by_cases hE : x = "Ez"
      · refine ⟨1, by norm_num, le_rfl, fun m hm => ?_⟩
        refine le_trans (le_of_eq (l2_congr fun i j _ => ?_)) (gap_parts (dg (m + 1) hm)).1
        simp only [hrd, Wave.site, Wave.nodeE, if_pos hE]
        push_cast
        rfl
      · refine ⟨1 / 2, by norm_num, by norm_num, fun m hm => ?_⟩
        obtain ⟨-, b2, b3⟩ := gap_parts (dg m hm.le)
        by_cases hX : x = "Hx"
        · refine le_trans (le_of_eq (l2_congr fun i j _ => ?_)) b2
          simp only [hrd, Wave.site, Wave.nodeX, if_neg hE, if_pos hX]
        · refine le_trans (le_of_eq (l2_congr fun i j _ => ?_)) b3
          simp only [hrd, Wave.site, Wave.nodeY, if_neg hE, if_neg hX]
    obtain ⟨θ, t0, t1, hB⟩ := key
    refine le_trans ?_ (spectra_l2 h.wide hl hT hM hst hr x f n hτ r θ t0 t1 B hB)
    unfold spectralGap l2
    refine Real.sqrt_le_sqrt (mul_le_mul_of_nonneg_left ?_ (sq_nonneg _))
    refine (le_of_eq (Box.sum_congr _ fun i j hij => ?_)).trans (Box.sum_subset hR fun _ _ => sq_nonneg _)
    simp only [val i j hij]

/-- A surface monitor in such a program. -/
theorem flux_near (now : ℕ → ℝ) (g : Grid ℝ) (hl : Lawful g) (hd : g.dx ≤ 1) (cs1 cs2 later : List (Call ℝ)) (name : String) (a b : V2 ℝ) (sg : Sgn) (s : Surf ℝ) (tag : DftTag)
    (ht : tag = .all ∨ tag = .tangent) (freq : List ℝ) (hs : Surf.make a b sg = .ok s) (hne : g.toGrid a ≠ g.toGrid b)
    (xa : 2 ≤ (g.toGrid a).x ∧ (g.toGrid a).x ≤ g.Nx - 2) (ya : 2 ≤ (g.toGrid a).y ∧ (g.toGrid a).y ≤ g.Ny - 2)
    (xb : 2 ≤ (g.toGrid b).x ∧ (g.toGrid b).x ≤ g.Nx - 2) (yb : 2 ≤ (g.toGrid b).y ∧ (g.toGrid b).y ≤ g.Ny - 2)
    (w1 w2 w3 w4 : World ℝ) (h : Watched now g cs1 (.surf (.make name s tag freq)) cs2 w1 w2) (ha : Advances (simOps cs2)) (sce : Scene)
    (scs : ∀ s2 qs, w1.sim.step now (.addMonitor (.surf (.make name s tag freq))) = .ok s2 → Watch now s2 (simOps cs2) qs w2.sim → ∀ m (hm : m < qs.length),
      ∃ c c', sce.run g m = .ok c ∧ sce.run g (m + 1) = .ok c' ∧ (qs[m]).2 = (m + 1) * g.dt ∧ (qs[m]).1.Ez = c'.f.Ez ∧
      (∀ i j, (qs[m]).1.Hx.val i j = c.f.Hx.val i j) ∧ (∀ i j, (qs[m]).1.Hy.val i j = c.f.Hy.val i j))
    (hw : w2.step now (.report w1.sim.mons.length .flux) = .ok w3) (hla : w3.run now later = .ok w4) (n : ℕ) (hn : n = (simOps cs2).countP isUpdate)
    (w : Spec.Wave) (τ M B : ℝ) (hM : 0 ≤ M) (hst : w.Steady g τ M) (hev : w.Even g τ M) (hr : w.AtRest g) (hτ : n * g.dt ≤ τ)
    (close : ∀ m ≤ n, ∃ c F, sce.run g m = .ok c ∧ (∀ i j, Nearby (g.toGrid a) (g.toGrid b) i j →
      c.f.Ez.val i j = F.Ez.val i j ∧ c.f.Hx.val i j = F.Hx.val i j ∧ c.f.Hy.val i j = F.Hy.val i j) ∧ Real.sqrt (gap w g m F (updatedNodes g)) ≤ B) :
    HoldsFlux w4 g name a b sg freq w (n * g.dt) (flowError g (cells g a b) M (n * g.dt) B) := by
  have hc : ∀ op ∈ simOps cs2, isClear op = false := fun op ho => by
    rcases ha op ho with k | rfl
    · cases op <;> first | rfl | cases k
    · rfl
  obtain ⟨s2, qs, is, ss, k1, k2, k3, hi, k4, k5⟩ := C67_flux_partial now g cs1 cs2 later name a b sg s tag ht freq hs hne (inner_of_two xa ya hd) (inner_of_two xb yb hd) w1 w2 w3 w4 h hc hw hla
  exact ⟨_, k5, fun f => line_flow_near g hl hd a b sg s tag ht hs hne xa ya xb yb sce n qs is ss (k3.trans hn.symm) hi k4 (scs s2 qs k1 k2) w τ M B hM hst hev hr hτ close f _ rfl⟩

namespace Props

/-- A program as in C94, which may also set an incident wave before it adds the volume monitor. -/
structure LitVolume (now : ℕ → ℝ) (g : Grid ℝ) (cs1 cs2 later : List (Call ℝ)) (name : String) (a b : V2 ℝ) (tag : DftTag) (freq : List ℝ) (n : ℕ) (w4 : World ℝ) : Prop where
  lawful : Lawful g
  closed : g.T = 0
  wide : g.Wide
  lights : Lights (simOps cs1)
  advances : Advances (simOps cs2)
  steps : n = (simOps cs2).countP isUpdate
  left : (g.toGrid a).x ≤ (g.toGrid b).x
  lower : (g.toGrid a).y ≤ (g.toGrid b).y
  among : ∀ i j, (Box.mk (g.toGrid a).x (g.toGrid b).x (g.toGrid a).y (g.toGrid b).y).Mem i j → (updatedNodes g).Mem i j
  runs : ∃ w1 w2 w3, Watched now g cs1 (.vol (.make name (Vol.make a b) tag freq)) cs2 w1 w2 ∧ w2.step now (.writeSpectra w1.sim.mons.length) = .ok w3 ∧ w3.run now later = .ok w4

/-- A program as in C96, which may also set an incident wave before it adds the surface monitor. -/
structure LitLine (now : ℕ → ℝ) (g : Grid ℝ) (cs1 cs2 later : List (Call ℝ)) (name : String) (a b : V2 ℝ) (sg : Sgn) (tag : DftTag) (freq : List ℝ) (n : ℕ) (w4 : World ℝ) : Prop where
  lawful : Lawful g
  closed : g.T = 0
  fine : g.dx ≤ 1
  wide : g.Wide
  lights : Lights (simOps cs1)
  advances : Advances (simOps cs2)
  steps : n = (simOps cs2).countP isUpdate
  records : tag = .all ∨ tag = .tangent
  line : g.toGrid a ≠ g.toGrid b
  ax : 2 ≤ (g.toGrid a).x ∧ (g.toGrid a).x ≤ g.Nx - 2
  ay : 2 ≤ (g.toGrid a).y ∧ (g.toGrid a).y ≤ g.Ny - 2
  bx : 2 ≤ (g.toGrid b).x ∧ (g.toGrid b).x ≤ g.Nx - 2
  by' : 2 ≤ (g.toGrid b).y ∧ (g.toGrid b).y ≤ g.Ny - 2
  runs : ∃ s w1 w2 w3, Surf.make a b sg = .ok s ∧ Watched now g cs1 (.surf (.make name s tag freq)) cs2 w1 w2 ∧ w2.step now (.report w1.sim.mons.length .flux) = .ok w3 ∧
    w3.run now later = .ok w4

/-- The rectangle of nodes from `l` to `h` has no node of the region of the incident wave. -/
def NodesBeside (g : Grid ℝ) (vol : Vol ℝ) (l h : V2 ℤ) : Prop :=
  h.x < (g.toGrid vol.a).x ∨ (g.toGrid vol.b).x < l.x ∨ h.y < (g.toGrid vol.a).y ∨ (g.toGrid vol.b).y < l.y

/-- All its nodes are in the region and below its upper edge. -/
def NodesWithin (g : Grid ℝ) (vol : Vol ℝ) (l h : V2 ℤ) : Prop :=
  (g.toGrid vol.a).x ≤ l.x ∧ h.x ≤ (g.toGrid vol.b).x ∧ (g.toGrid vol.a).y ≤ l.y ∧ h.y < (g.toGrid vol.b).y

/-- The corners of the nodes that a line from `a` to `b` reads. -/
noncomputable def lineLow (g : Grid ℝ) (a b : V2 ℝ) : V2 ℤ := ⟨min (g.toGrid a).x (g.toGrid b).x - 1, min (g.toGrid a).y (g.toGrid b).y - 1⟩
noncomputable def lineHigh (g : Grid ℝ) (a b : V2 ℝ) : V2 ℤ := ⟨max (g.toGrid a).x (g.toGrid b).x, max (g.toGrid a).y (g.toGrid b).y⟩

section
variable {now : ℕ → ℝ} {g : Grid ℝ} {cs1 cs2 later : List (Call ℝ)} {name : String} {a b : V2 ℝ} {sg : Sgn} {tag : DftTag} {freq : List ℝ} {n : ℕ} {w4 : World ℝ}
variable {objs : List (Object ℝ)} {srcs : List (Source ℝ)} {vol : Vol ℝ} {tp : TimeProfile ℝ} {eps sig : ℝ → ℝ → ℝ} {epsMax sigMax : ℝ} {w : Spec.Wave} {S : ℝ → ℝ → Prop}
variable {J : ℝ → ℝ → ℝ → ℝ} {τ M Ms δ : ℝ}

/-- Beside the region the fields are those of the scattered wave. -/
theorem fields_beside (hw : g.Wide) (hl : Lawful g) (hT : g.T = 0) (p : Scatters g objs srcs vol tp.resp eps sig epsMax sigMax w S J τ M Ms δ) (hn : ((n : ℝ) + 1 / 2) * g.dt ≤ τ)
    {l h : V2 ℤ} (hb : NodesBeside g vol l h) (m : ℕ) (hm : m ≤ n) : ∃ c F, (⟨objs, srcs, some (vol, tp)⟩ : Scene).run g m = .ok c ∧
      (∀ i j, l.x ≤ i ∧ i ≤ h.x ∧ l.y ≤ j ∧ j ≤ h.y → c.f.Ez.val i j = F.Ez.val i j ∧ c.f.Hx.val i j = F.Hx.val i j ∧ c.f.Hy.val i j = F.Hy.val i j) ∧
      Real.sqrt (gap w g m F (updatedNodes g)) ≤ litError S g vol M Ms epsMax sigMax τ δ n := by
  obtain ⟨c, e1, e2⟩ := scattered_close hw hl hT p hn m hm
  refine ⟨c, _, e1, fun i j hij => ?_, le_trans (le_of_eq (congrArg _ gap_relit)) e2⟩
  obtain ⟨z1, z2⟩ := incidentE_outside (s := tp.resp) (m := m) (i := i) (j := j) (vol := vol) (g := g) fun hi => by
    obtain ⟨u1, u2, u3, u4⟩ := hi
    unfold NodesBeside at hb
    omega
  simp only [relit, z1, z2, sub_zero, and_self]

/-- In the region the fields are those of the sum of the scattered wave and the plane wave. -/
theorem fields_within (hw : g.Wide) (hl : Lawful g) (hT : g.T = 0) (p : Scatters g objs srcs vol tp.resp eps sig epsMax sigMax w S J τ M Ms δ) (hn : ((n : ℝ) + 1 / 2) * g.dt ≤ τ)
    {l h : V2 ℤ} (hb : NodesWithin g vol l h) (m : ℕ) (hm : m ≤ n) : ∃ c F, (⟨objs, srcs, some (vol, tp)⟩ : Scene).run g m = .ok c ∧
      (∀ i j, l.x ≤ i ∧ i ≤ h.x ∧ l.y ≤ j ∧ j ≤ h.y → c.f.Ez.val i j = F.Ez.val i j ∧ c.f.Hx.val i j = F.Hx.val i j ∧ c.f.Hy.val i j = F.Hy.val i j) ∧
      Real.sqrt (gap (w.lit tp.resp (entry g vol)) g m F (updatedNodes g)) ≤ litError S g vol M Ms epsMax sigMax τ δ n := by
  obtain ⟨c, e1, e2⟩ := scattered_close hw hl hT p hn m hm
  refine ⟨c, _, e1, fun i j hij => ?_, le_trans (le_of_eq (congrArg _ gap_lit)) e2⟩
  obtain ⟨r1, r2, r3, r4⟩ := hb
  obtain ⟨z1, z2⟩ := incidentE_inside hl.dx (s := tp.resp) (m := m) (i := i) (j := j) (vol := vol) (g := g) ⟨by omega, by omega, by omega, by omega⟩ (by omega)
  simp only [relit, z1, z2, sub_self, sub_zero, and_self]

/-- **C105**: a volume monitor beside the region of the incident wave writes the spectra of the scattered wave, without the incident wave, up to the error of the fields (C100) and terms
of first order in the step. -/
theorem C105_scattered (h : LitVolume now g cs1 cs2 later name a b tag freq n w4) (ho : objectsOf (simOps cs1) = objs) (hsr : sourcesOf (simOps cs1) = srcs)
    (hwv : incidentOf (simOps cs1) = some (vol, tp)) (p : Scatters g objs srcs vol tp.resp eps sig epsMax sigMax w S J τ M Ms δ) (hn : ((n : ℝ) + 1 / 2) * g.dt ≤ τ)
    (hb : NodesBeside g vol (g.toGrid a) (g.toGrid b)) :
    HoldsSpectra w4 g name a b tag freq w (n * g.dt) (spectralError g M (n * g.dt) (litError S g vol M Ms epsMax sigMax τ δ n)) := by
  subst ho hsr
  obtain ⟨w1, w2, w3, k1, k2, k3⟩ := h.runs
  have dt0 : 0 < g.dt := by rw [h.lawful.dt]; linarith [h.lawful.dx]
  have n0 : (0 : ℝ) ≤ n := Nat.cast_nonneg n
  exact spectra_near now g h.lawful h.closed cs1 cs2 later name a b tag freq h.left h.lower h.among w1 w2 w3 w4 k1 h.advances ⟨_, _, incidentOf (simOps cs1)⟩
    (fun s2 qs q1 q2 => shown_lit k1 h.lights h.advances (fun s hs C i j hd => (p.carries.electric s hs C i j hd).1) q1 q2) k2 k3 n h.steps w τ M _
    (current_nonneg h.wide h.lawful h.closed p.current (by nlinarith)) p.steady p.rest (by nlinarith) fun m hm => by
      obtain ⟨c, F, e1, e2, e3⟩ := fields_beside h.wide h.lawful h.closed p hn hb m hm
      rw [hwv]
      exact ⟨c, F, e1, fun i j hij => e2 i j ⟨hij.1.1, hij.1.2, hij.2.1, hij.2.2⟩, e3⟩

/-- **C105**: a volume monitor in the region writes the spectra of the total wave, the sum of the scattered wave and the plane wave. -/
theorem C105_total (h : LitVolume now g cs1 cs2 later name a b tag freq n w4) (ho : objectsOf (simOps cs1) = objs) (hsr : sourcesOf (simOps cs1) = srcs)
    (hwv : incidentOf (simOps cs1) = some (vol, tp)) (p : Scatters g objs srcs vol tp.resp eps sig epsMax sigMax w S J τ M Ms δ) (hn : ((n : ℝ) + 1 / 2) * g.dt ≤ τ)
    (hb : NodesWithin g vol (g.toGrid a) (g.toGrid b)) :
    HoldsSpectra w4 g name a b tag freq (w.lit tp.resp (entry g vol)) (n * g.dt)
      (spectralError g (litSize M Ms τ) (n * g.dt) (litError S g vol M Ms epsMax sigMax τ δ n)) := by
  subst ho hsr
  obtain ⟨w1, w2, w3, k1, k2, k3⟩ := h.runs
  have dt0 : 0 < g.dt := by rw [h.lawful.dt]; linarith [h.lawful.dx]
  have n0 : (0 : ℝ) ≤ n := Nat.cast_nonneg n
  have τ0 : 0 ≤ τ := le_trans (by positivity) hn
  have M0 : 0 ≤ M := current_nonneg h.wide h.lawful h.closed p.current τ0
  exact spectra_near now g h.lawful h.closed cs1 cs2 later name a b tag freq h.left h.lower h.among w1 w2 w3 w4 k1 h.advances ⟨_, _, incidentOf (simOps cs1)⟩
    (fun s2 qs q1 q2 => shown_lit k1 h.lights h.advances (fun s hs C i j hd => (p.carries.electric s hs C i j hd).1) q1 q2) k2 k3 n h.steps _ τ (litSize M Ms τ) _
    (M0.trans (litSize_ge τ0 p.signal).1) (lit_steady τ0 p.signal p.steady) (lit_rest p.signal p.rest) (by nlinarith) fun m hm => by
      obtain ⟨c, F, e1, e2, e3⟩ := fields_within h.wide h.lawful h.closed p hn hb m hm
      rw [hwv]
      exact ⟨c, F, e1, fun i j hij => e2 i j ⟨hij.1.1, hij.1.2, hij.2.1, hij.2.2⟩, e3⟩

/-- **C105**: a surface monitor beside the region writes the energy that the scattered wave carries through its line: behind the region this is the scattered wave alone, the incident wave
has been taken out. -/
theorem C105_flux_scattered (h : LitLine now g cs1 cs2 later name a b sg tag freq n w4) (ho : objectsOf (simOps cs1) = objs) (hsr : sourcesOf (simOps cs1) = srcs)
    (hwv : incidentOf (simOps cs1) = some (vol, tp)) (p : Scatters g objs srcs vol tp.resp eps sig epsMax sigMax w S J τ M Ms δ) (hn : ((n : ℝ) + 1 / 2) * g.dt ≤ τ)
    (hb : NodesBeside g vol (lineLow g a b) (lineHigh g a b)) :
    HoldsFlux w4 g name a b sg freq w (n * g.dt) (flowError g (cells g a b) M (n * g.dt) (litError S g vol M Ms epsMax sigMax τ δ n)) := by
  subst ho hsr
  obtain ⟨s, w1, w2, w3, k0, k1, k2, k3⟩ := h.runs
  have dt0 : 0 < g.dt := by rw [h.lawful.dt]; linarith [h.lawful.dx]
  have n0 : (0 : ℝ) ≤ n := Nat.cast_nonneg n
  exact flux_near now g h.lawful h.fine cs1 cs2 later name a b sg s tag h.records freq k0 h.line h.ax h.ay h.bx h.by' w1 w2 w3 w4 k1 h.advances ⟨_, _, incidentOf (simOps cs1)⟩
    (fun s2 qs q1 q2 => shown_lit k1 h.lights h.advances (fun s hs C i j hd => (p.carries.electric s hs C i j hd).1) q1 q2) k2 k3 n h.steps w τ M _
    (current_nonneg h.wide h.lawful h.closed p.current (by nlinarith)) p.steady p.even p.rest (by nlinarith) fun m hm => by
      obtain ⟨c, F, e1, e2, e3⟩ := fields_beside h.wide h.lawful h.closed p hn hb m hm
      rw [hwv]
      exact ⟨c, F, e1, e2, e3⟩

/-- **C105**: a surface monitor in the region writes the energy that the total wave carries through its line: in front of a body what is incident less what comes back, behind it what gets
through. -/
theorem C105_flux_total (h : LitLine now g cs1 cs2 later name a b sg tag freq n w4) (ho : objectsOf (simOps cs1) = objs) (hsr : sourcesOf (simOps cs1) = srcs)
    (hwv : incidentOf (simOps cs1) = some (vol, tp)) (p : Scatters g objs srcs vol tp.resp eps sig epsMax sigMax w S J τ M Ms δ) (hn : ((n : ℝ) + 1 / 2) * g.dt ≤ τ)
    (hb : NodesWithin g vol (lineLow g a b) (lineHigh g a b)) :
    HoldsFlux w4 g name a b sg freq (w.lit tp.resp (entry g vol)) (n * g.dt)
      (flowError g (cells g a b) (litSize M Ms τ) (n * g.dt) (litError S g vol M Ms epsMax sigMax τ δ n)) := by
  subst ho hsr
  obtain ⟨s, w1, w2, w3, k0, k1, k2, k3⟩ := h.runs
  have dt0 : 0 < g.dt := by rw [h.lawful.dt]; linarith [h.lawful.dx]
  have n0 : (0 : ℝ) ≤ n := Nat.cast_nonneg n
  have τ0 : 0 ≤ τ := le_trans (by positivity) hn
  have M0 : 0 ≤ M := current_nonneg h.wide h.lawful h.closed p.current τ0
  exact flux_near now g h.lawful h.fine cs1 cs2 later name a b sg s tag h.records freq k0 h.line h.ax h.ay h.bx h.by' w1 w2 w3 w4 k1 h.advances ⟨_, _, incidentOf (simOps cs1)⟩
    (fun s2 qs q1 q2 => shown_lit k1 h.lights h.advances (fun s hs C i j hd => (p.carries.electric s hs C i j hd).1) q1 q2) k2 k3 n h.steps _ τ (litSize M Ms τ) _
    (M0.trans (litSize_ge τ0 p.signal).1) (lit_steady τ0 p.signal p.steady) (lit_even τ0 p.signal p.even) (lit_rest p.signal p.rest) (by nlinarith) fun m hm => by
      obtain ⟨c, F, e1, e2, e3⟩ := fields_within h.wide h.lawful h.closed p hn hb m hm
      rw [hwv]
      exact ⟨c, F, e1, e2, e3⟩

end

end Props
end Qbox
