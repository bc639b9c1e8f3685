import Verif.Lemmas.SpectraWave
import Verif.Props.LorentzWaveProps

/-! # C94: recorded spectra are those of the electromagnetic wave -/

namespace Qbox
open Scalar Spec Props

theorem fourier_list {P : Type} (f : ℝ) (x : String) (p : P) : ∀ (l : List (Sample ℝ P)) (a b : ℝ),
    (⟨cosSum f x p a l, sinSum f x p b l⟩ : ℂ) = ⟨a, b⟩ + (l.map fun s => (s.v x p : ℂ) * wavelet f s.t).sum
  | [], a, b => by simp [cosSum, sinSum]
  | s :: l, a, b => by
    have ih := fourier_list f x p l (a + s.v x p * Real.cos (2 * Real.pi * f * s.t)) (b + s.v x p * Real.sin (2 * Real.pi * f * s.t))
    simp only [cosSum, sinSum, List.foldl_cons, ofInt_real, cos_real, sin_real, pi_real, Int.cast_ofNat] at ih ⊢
    rw [ih, List.map_cons, List.sum_cons, ← add_assoc]
    congr 1
    rw [wavelet_eq]
    apply Complex.ext
    · simp only [Complex.add_re, Complex.mul_re, Complex.ofReal_re, Complex.ofReal_im, Complex.exp_ofReal_mul_I_re]; ring
    · simp only [Complex.add_im, Complex.mul_im, Complex.ofReal_re, Complex.ofReal_im, Complex.exp_ofReal_mul_I_im]; ring

theorem sum_indexed {α : Type} (φ : α → ℂ) : ∀ (l : List α) (ψ : ℕ → ℂ), (∀ m (h : m < l.length), φ l[m] = ψ m) →
    (l.map φ).sum = ∑ m ∈ Finset.range l.length, ψ m
  | [], _, _ => by simp
  | a :: l, ψ, h => by
    rw [List.map_cons, List.sum_cons, List.length_cons, Finset.sum_range_succ', add_comm,
      sum_indexed φ l (fun m => ψ (m + 1)) fun m hm => h (m + 1) (by simpa using hm)]
    congr 1
    exact h 0 (by simp)

theorem Box.sum_subset {R Q : Box} (h : ∀ i j, R.Mem i j → Q.Mem i j) {F : ℤ → ℤ → ℝ} (h0 : ∀ i j, 0 ≤ F i j) : R.sum F ≤ Q.sum F := by
  unfold Box.sum
  rw [← Finset.sum_product', ← Finset.sum_product']
  refine Finset.sum_le_sum_of_subset_of_nonneg ?_ fun p _ _ => h0 _ _
  rintro ⟨i, j⟩ hp
  simp only [Finset.mem_product, Finset.mem_Icc] at hp ⊢
  exact h i j hp

/-- The histories at the nodes change slowly and start from zero. -/
theorem site_slow {w : Spec.Wave} {g : Grid ℝ} (hl : Lawful g) {τ M : ℝ} (hst : w.Steady g τ M) (x : String) {i j : ℤ} (h : (updatedNodes g).Mem i j) :
    Slow (w.site g x i j) τ M := by
  unfold Box.Mem updatedNodes at h
  simp only at h
  have hx := hl.dx
  have a1 := node_pos hl (k := i) (by omega)
  have a2 := node_pos hl (k := j) (by omega)
  have b1 := node_le_x hl (k := i + 1) (by omega)
  have b2 := node_le_y hl (k := j + 1) (by omega)
  push_cast at b1 b2
  intro t t' h0 h1 h2
  unfold Wave.site
  split_ifs
  · exact hst.Et t t' _ _ h0 h1 h2 ⟨a1, by linarith, a2, by linarith⟩
  · exact hst.Xt t t' _ _ h0 h1 h2 ⟨a1, by linarith, by linarith, by linarith⟩
  · exact hst.Yt t t' _ _ h0 h1 h2 ⟨by linarith, by linarith, a2, by linarith⟩

theorem site_rest {w : Spec.Wave} {g : Grid ℝ} (hl : Lawful g) (hr : w.AtRest g) (x : String) {i j : ℤ} (h : (updatedNodes g).Mem i j) : w.site g x i j 0 = 0 := by
  unfold Box.Mem updatedNodes at h
  simp only at h
  have hx := hl.dx
  have a1 := node_pos hl (k := i) (by omega)
  have a2 := node_pos hl (k := j) (by omega)
  have b1 := node_le_x hl (k := i + 1) (by omega)
  have b2 := node_le_y hl (k := j + 1) (by omega)
  push_cast at b1 b2
  unfold Wave.site
  split_ifs
  · exact (hr _ _ ⟨a1, by linarith, a2, by linarith⟩).1
  · exact (hr _ _ ⟨a1, by linarith, by linarith, by linarith⟩).2.1
  · exact (hr _ _ ⟨by linarith, by linarith, a2, by linarith⟩).2.2

/-- Recorded values at all nodes against the wave. -/
theorem spectra_l2 {w : Spec.Wave} {g : Grid ℝ} (hw : g.Wide) (hl : Lawful g) (hT : g.T = 0) {τ M : ℝ} (hM : 0 ≤ M) (hst : w.Steady g τ M) (hr : w.AtRest g)
    (x : String) (f : ℝ) (n : ℕ) (hn : n * g.dt ≤ τ) (r : ℕ → ℤ → ℤ → ℝ) (θ : ℝ) (h0 : 0 ≤ θ) (h1 : θ ≤ 1) (B : ℝ)
    (hB : ∀ m < n, l2 g (fun i j => r m i j - w.site g x i j ((m + θ) * g.dt)) ≤ B) :
    l2 g (fun i j => ‖(g.dt : ℂ) * (∑ m ∈ Finset.range n, (r m i j : ℂ) * wavelet f ((m + 1) * g.dt)) - spectrum (w.site g x i j) f (n * g.dt)‖) ≤
      n * g.dt * (B + Real.sqrt (g.Lx * g.Ly) * (g.dt * (M + 2 * Real.pi * |f| * (M * (n * g.dt))))) := by
  have d0 : 0 < g.dt := by rw [hl.dt]; linarith [hl.dx]
  have n0 : (0 : ℝ) ≤ n := Nat.cast_nonneg n
  have T0 : 0 ≤ n * g.dt := by positivity
  set κ := n * (g.dt * (g.dt * (M + 2 * Real.pi * |f| * (M * (n * g.dt))))) with hκ
  have κ0 : 0 ≤ κ := by positivity
  have one : ∀ i j, (updatedNodes g).Mem i j →
      ‖(g.dt : ℂ) * (∑ m ∈ Finset.range n, (r m i j : ℂ) * wavelet f ((m + 1) * g.dt)) - spectrum (w.site g x i j) f (n * g.dt)‖ ≤
        (∑ m ∈ Finset.range n, g.dt * |r m i j - w.site g x i j ((m + θ) * g.dt)|) + κ := fun i j h => by
    have sl := site_slow hl hst x h
    have sl' : Slow (w.site g x i j) (n * g.dt) M := fun t t' a b c => sl t t' a b (c.trans hn)
    exact sum_integral (f := f) sl' hM (A := M * (n * g.dt)) (fun t ht ht' => by
      have := sl 0 t le_rfl ht (ht'.trans hn)
      rw [site_rest hl hr x h, sub_zero, sub_zero] at this
      exact this.trans (mul_le_mul_of_nonneg_left ht' hM)) d0.le h0 h1 (fun m => r m i j) n le_rfl
  refine (l2_mono (G := fun i j => (∑ m ∈ Finset.range n, g.dt * |r m i j - w.site g x i j ((m + θ) * g.dt)|) + κ) fun i j h => ?_).trans ?_
  · exact pow_le_pow_left₀ (norm_nonneg _) (one i j h) 2
  · refine (l2_add g _ _).trans ?_
    have c1 : l2 g (fun _ _ => κ) ≤ κ * Real.sqrt (g.Lx * g.Ly) := l2_const hw hl hT κ0 fun _ _ _ => by rw [abs_of_nonneg κ0]
    have c2 : l2 g (fun i j => ∑ m ∈ Finset.range n, g.dt * |r m i j - w.site g x i j ((m + θ) * g.dt)|) ≤ ∑ m ∈ Finset.range n, g.dt * B := by
      refine (l2_sum g (fun m i j => g.dt * |r m i j - w.site g x i j ((m + θ) * g.dt)|) n).trans (Finset.sum_le_sum fun m hm => ?_)
      rw [l2_mul g d0.le]
      refine mul_le_mul_of_nonneg_left (le_trans (l2_mono fun i j _ => ?_) (hB m (Finset.mem_range.mp hm))) d0.le
      rw [sq_abs]
    rw [Finset.sum_const, Finset.card_range, nsmul_eq_mul] at c2
    refine (add_le_add c2 c1).trans (le_of_eq ?_)
    rw [hκ]
    ring

theorem gap_parts {w : Spec.Wave} {g : Grid ℝ} {m : ℕ} {f : Flds ℝ} {B : ℝ} (h : Real.sqrt (gap w g m f (updatedNodes g)) ≤ B) :
    l2 g (fun i j => f.Ez.val i j - w.nodeE g m i j) ≤ B ∧ l2 g (fun i j => f.Hx.val i j - w.nodeX g m i j) ≤ B ∧
      l2 g (fun i j => f.Hy.val i j - w.nodeY g m i j) ≤ B := by
  unfold gap at h
  refine ⟨le_trans (Real.sqrt_le_sqrt (mul_le_mul_of_nonneg_left (Box.sum_le _ fun i j _ => ?_) (sq_nonneg _))) h,
    le_trans (Real.sqrt_le_sqrt (mul_le_mul_of_nonneg_left (Box.sum_le _ fun i j _ => ?_) (sq_nonneg _))) h,
    le_trans (Real.sqrt_le_sqrt (mul_le_mul_of_nonneg_left (Box.sum_le _ fun i j _ => ?_) (sq_nonneg _))) h⟩ <;>
  nlinarith [sq_nonneg (f.Ez.val i j - w.nodeE g m i j), sq_nonneg (f.Hx.val i j - w.nodeX g m i j), sq_nonneg (f.Hy.val i j - w.nodeY g m i j)]

theorem run_prefix {c : Core ℝ} {l : List (Source ℝ)} {n : ℕ} {a b : Core ℝ × List (Source ℝ)} (h : c.run n l = .ok a) (k : c.run n l = .ok b) : a = b :=
  Except.ok.inj (h.symm.trans k)

/-- The fields that a program shows, step by step, as those of a scene. -/
theorem shown_lit {now : ℕ → ℝ} {g : Grid ℝ} {cs1 cs2 : List (Call ℝ)} {mon : Monitor ℝ} {w1 w2 : World ℝ} (h : Watched now g cs1 mon cs2 w1 w2)
    (hf : Lights (simOps cs1)) (ha : Advances (simOps cs2)) (he : ∀ s ∈ sourcesOf (simOps cs1), ∀ C i j, Drives g s C ⟨i, j⟩ → C = .Ez)
    {s2 : Sim ℝ} {qs : List (Flds ℝ × ℝ)} (hs2 : w1.sim.step now (.addMonitor mon) = .ok s2) (hw : Watch now s2 (simOps cs2) qs w2.sim) (m : ℕ) (hm : m < qs.length) :
    ∃ c c', (⟨objectsOf (simOps cs1), sourcesOf (simOps cs1), incidentOf (simOps cs1)⟩ : Scene).run g m = .ok c ∧
      (⟨objectsOf (simOps cs1), sourcesOf (simOps cs1), incidentOf (simOps cs1)⟩ : Scene).run g (m + 1) = .ok c' ∧ (qs[m]).2 = (m + 1) * g.dt ∧ (qs[m]).1.Ez = c'.f.Ez ∧
      (∀ i j, (qs[m]).1.Hx.val i j = c.f.Hx.val i j) ∧ (∀ i j, (qs[m]).1.Hy.val i j = c.f.Hy.val i j) := by
  obtain ⟨fn, w0, hfn, h0, h1⟩ := h.start
  obtain ⟨s0, e0, hs0⟩ := make_safe now False g h.wide fn hfn
  rw [World.make_sim h0] at e0
  obtain rfl := Except.ok.inj e0
  have r1 := World.runOk_sim h1
  have i1 : ∀ (l k : List (Op ℝ)) (ob : List (Object ℝ)), Inside False g ob (l ++ k) → Inside False g ob l := by
    intro l
    induction l with
    | nil => intro k ob _; trivial
    | cons op l ih =>
      intro k ob hi
      cases op <;> first | exact ih k _ hi | exact ⟨hi.1, ih k _ hi.2⟩
  obtain ⟨objs, -, sf⟩ := runOk_safe now h.wide h.dx _ [] [] w0.sim w1.sim (by rw [List.append_nil]; exact i1 _ _ _ h.inside) hs0 r1
  obtain ⟨c1, f1, f3, f2⟩ := furnished _ hf r1 (w := none) (c0 := w0.sim.core) rfl
  rw [Option.or_none] at f3
  obtain ⟨s0', e0', -, g0, -, t0, -, -, a2, -⟩ := make_named now (g := g) (by have := h.wide.nx; omega) (by have := h.wide.ny; omega) hfn
  rw [World.make_sim h0] at e0'
  obtain rfl := Except.ok.inj e0'
  have mk : Core.make g = .ok w0.sim.core := by
    have := World.make_sim h0
    unfold Sim.make at this
    obtain ⟨ck, -, this⟩ := (Except.bind_ok ..).mp this
    obtain ⟨c, hc, this⟩ := (Except.bind_ok ..).mp this
    split at this
    · cases this
    · rw [hc, ← Except.ok.inj this]
  have p := Sim.step_phys hs2
  rw [Phys.step_observes _ (by rfl)] at p
  have p := Except.ok.inj p
  have c2 : s2.core = w1.sim.core := (congrArg Phys.core p).symm
  have l2' : s2.srcs = w1.sim.srcs := (congrArg Phys.srcs p).symm
  obtain ⟨c, l, c', l', k1, k2, k3, k4, k5, k6⟩ := watch_run hw ha m hm
  rw [c2, l2'] at k1 k2
  have t1 : w1.sim.core.t = 0 := by
    rw [f3]
    refine Eq.trans ?_ ((paintAll_time _ f1).trans t0)
    cases incidentOf (simOps cs1) <;> rfl
  have g1 : w1.sim.core.g = g := sf.grid
  obtain ⟨cc, ll, q1, -, q3, -, -, -, q7⟩ := Core.run_ok m sf.wf (by rw [g1]; exact h.wide) w1.sim.srcs (by rw [g1]; exact sf.srcs)
  obtain ⟨rfl, rfl⟩ := Prod.mk.inj (run_prefix k1 q1)
  have srcs1 : w1.sim.srcs = sourcesOf (simOps cs1) := by rw [f2, a2]; simp
  rw [srcs1] at k1 k2 q7
  have tt : c'.t = (m + 1) * g.dt := by
    rw [run_time _ k2, t1, g1, ticks_real]; push_cast; ring
  have he' : ∀ t C, C ≠ Fields.Ez → ∀ i j, totalContrib c.g t l C ⟨i, j⟩ = 0 := fun t C hC i j => by
    rw [totalContrib_same q7, q3, g1]
    exact electric_only he hC i j
  refine ⟨c, c', ?_, ?_, k3.trans tt, k4, fun i j => by rw [k5, he' _ _ (by decide), add_zero], fun i j => by rw [k6, he' _ _ (by decide), add_zero]⟩
  · rw [f3] at k1
    unfold Scene.run
    rw [mk]; simp only [Except.ok_bind]
    rw [f1]; simp only [Except.ok_bind]
    cases hw : incidentOf (simOps cs1) with
    | none => rw [hw, show putWave none c1 = c1 from rfl] at k1; simp only [k1]; rfl
    | some w => rw [hw, show putWave (some w) c1 = c1.setTfsf w.1 w.2 from rfl] at k1; simp only [k1]; rfl
  · rw [f3] at k2
    unfold Scene.run
    rw [mk]; simp only [Except.ok_bind]
    rw [f1]; simp only [Except.ok_bind]
    cases hw : incidentOf (simOps cs1) with
    | none => rw [hw, show putWave none c1 = c1 from rfl] at k2; simp only [k2]; rfl
    | some w => rw [hw, show putWave (some w) c1 = c1.setTfsf w.1 w.2 from rfl] at k2; simp only [k2]; rfl

/-- The fields that a program shows, step by step, as those of a scene without incident wave. -/
theorem shown_scene {now : ℕ → ℝ} {g : Grid ℝ} {cs1 cs2 : List (Call ℝ)} {mon : Monitor ℝ} {w1 w2 : World ℝ} (h : Watched now g cs1 mon cs2 w1 w2)
    (hf : Furnishes (simOps cs1)) (ha : Advances (simOps cs2)) (he : ∀ s ∈ sourcesOf (simOps cs1), ∀ C i j, Drives g s C ⟨i, j⟩ → C = .Ez)
    {s2 : Sim ℝ} {qs : List (Flds ℝ × ℝ)} (hs2 : w1.sim.step now (.addMonitor mon) = .ok s2) (hw : Watch now s2 (simOps cs2) qs w2.sim) (m : ℕ) (hm : m < qs.length) :
    ∃ c c', (⟨objectsOf (simOps cs1), sourcesOf (simOps cs1), none⟩ : Scene).run g m = .ok c ∧
      (⟨objectsOf (simOps cs1), sourcesOf (simOps cs1), none⟩ : Scene).run g (m + 1) = .ok c' ∧ (qs[m]).2 = (m + 1) * g.dt ∧ (qs[m]).1.Ez = c'.f.Ez ∧
      (∀ i j, (qs[m]).1.Hx.val i j = c.f.Hx.val i j) ∧ (∀ i j, (qs[m]).1.Hy.val i j = c.f.Hy.val i j) := by
  have := shown_lit h (lights_of_furnishes hf) ha he hs2 hw m hm
  rwa [incidentOf_furnishes hf] at this

/-- A volume monitor in a program whose fields are close to a wave. -/
theorem spectra_close (now : ℕ → ℝ) (g : Grid ℝ) (hl : Lawful g) (hT : g.T = 0) (cs1 cs2 later : List (Call ℝ)) (name : String) (a b : V2 ℝ) (tag : DftTag) (freq : List ℝ)
    (hx : (g.toGrid a).x ≤ (g.toGrid b).x) (hy : (g.toGrid a).y ≤ (g.toGrid b).y)
    (hR : ∀ i j, (Box.mk (g.toGrid a).x (g.toGrid b).x (g.toGrid a).y (g.toGrid b).y).Mem i j → (updatedNodes g).Mem i j)
    (w1 w2 w3 w4 : World ℝ) (h : Watched now g cs1 (.vol (.make name (Vol.make a b) tag freq)) cs2 w1 w2)
    (hf : Furnishes (simOps cs1)) (ha : Advances (simOps cs2)) (he : ∀ s ∈ sourcesOf (simOps cs1), ∀ C i j, Drives g s C ⟨i, j⟩ → C = .Ez)
    (hw : w2.step now (.writeSpectra w1.sim.mons.length) = .ok w3) (hla : w3.run now later = .ok w4) (n : ℕ) (hn : n = (simOps cs2).countP isUpdate)
    (w : Spec.Wave) (τ M B : ℝ) (hM : 0 ≤ M) (hst : w.Steady g τ M) (hr : w.AtRest g) (hτ : n * g.dt ≤ τ)
    (close : ∀ m ≤ n, ∃ c, (⟨objectsOf (simOps cs1), sourcesOf (simOps cs1), none⟩ : Scene).run g m = .ok c ∧
      Real.sqrt (gap w g m c.f (updatedNodes g)) ≤ B) :
    ∃ F : String → ℝ → ℤ → ℤ → Cx ℝ, (∀ x ∈ volKeys tag, w4.tree.at ["monitors", "volume_monitor", name, x] =
        some (.cxs ((pos2 ((g.toGrid b).x - (g.toGrid a).x + 1) ((g.toGrid b).y - (g.toGrid a).y + 1)).flatMap fun p =>
          freq.map fun f => F x f ((g.toGrid a).x + p.1) ((g.toGrid a).y + p.2)))) ∧
      ∀ x f, Real.sqrt (spectralGap w g x f (n * g.dt) (F x f) ⟨(g.toGrid a).x, (g.toGrid b).x, (g.toGrid a).y, (g.toGrid b).y⟩) ≤
        n * g.dt * (B + Real.sqrt (g.Lx * g.Ly) * (g.dt * (M + 2 * Real.pi * |f| * (M * (n * g.dt))))) := by
  have hc : ∀ op ∈ simOps cs2, isClear op = false := fun op ho => by
    rcases ha op ho with k | rfl
    · cases op <;> first | rfl | cases k
    · rfl
  obtain ⟨s2, qs, k1, k2, k3, k4⟩ := C67_volume_partial now g cs1 cs2 later name a b tag freq w1 w2 w3 w4 h hc hw hla
  rw [← hn] at k3
  set ax := (g.toGrid a).x with hax
  set ay := (g.toGrid a).y with hay
  set smp : List (Sample ℝ (ℤ × ℤ)) := qs.map fun q => ⟨q.2, fun n p => nodeVal q.1 n (ax + p.1) (ay + p.2)⟩ with hsmp
  refine ⟨fun x f i j => ⟨cosSum f x (i - ax, j - ay) 0 smp, sinSum f x (i - ax, j - ay) 0 smp⟩, fun x hxk => ?_, fun x f => ?_⟩
  · rw [k4 x hxk, abs_of_nonpos (by omega), abs_of_nonpos (by omega)]
    unfold table
    rw [show -(ax - (g.toGrid b).x) + 1 = (g.toGrid b).x - ax + 1 by ring, show -(ay - (g.toGrid b).y) + 1 = (g.toGrid b).y - ay + 1 by ring]
    congr 2
    rw [List.flatMap_def, List.flatMap_def]
    congr 1
    refine List.map_congr_left fun p _ => List.map_congr_left fun f _ => ?_
    dsimp only
    rw [show (ax + p.1 - ax, ay + p.2 - ay) = p by ext <;> simp]
  · have sc := shown_scene h hf ha he k1 k2
    -- what is recorded at the nodes
    set r : ℕ → ℤ → ℤ → ℝ := fun m i j => nodeVal ((qs.map Prod.fst).getD m ((qs.map Prod.fst).headD w2.sim.core.f)) x i j with hrd
    have rv : ∀ m (hm : m < qs.length) i j, r m i j = nodeVal (qs[m]).1 x i j := fun m hm i j => by
      rw [hrd]
      simp only [List.getD_eq_getElem?_getD, List.getElem?_map, List.getElem?_eq_getElem hm, Option.map_some, Option.getD_some]
    have val : ∀ i j, (⟨cosSum f x (i - ax, j - ay) 0 smp, sinSum f x (i - ax, j - ay) 0 smp⟩ : ℂ) =
        ∑ m ∈ Finset.range n, (r m i j : ℂ) * wavelet f ((m + 1) * g.dt) := fun i j => by
      rw [fourier_list, show (⟨0, 0⟩ : ℂ) = 0 from rfl, zero_add, hsmp, List.map_map, ← k3]
      refine sum_indexed _ qs _ fun m hm => ?_
      obtain ⟨c, c', -, -, e3, -⟩ := sc m hm
      rw [rv m hm]
      simp only [Function.comp, add_sub_cancel, e3]
    have key : ∃ θ : ℝ, 0 ≤ θ ∧ θ ≤ 1 ∧ ∀ m < n, l2 g (fun i j => r m i j - w.site g x i j ((m + θ) * g.dt)) ≤ B := by
      by_cases hE : x = "Ez"
      · subst hE
        refine ⟨1, by norm_num, le_rfl, fun m hm => ?_⟩
        obtain ⟨c, c', e1, e2, e3, e4, e5, e6⟩ := sc m (by rw [k3]; exact hm)
        obtain ⟨d, d1, d2⟩ := close (m + 1) hm
        obtain rfl := Except.ok.inj (e2.symm.trans d1)
        refine le_trans (le_of_eq (l2_congr fun i j _ => ?_)) (gap_parts d2).1
        rw [rv m (by rw [k3]; exact hm)]
        simp only [nodeVal, Wave.site, Wave.nodeE, if_true, e4]
        push_cast
        rfl
      · refine ⟨1 / 2, by norm_num, by norm_num, fun m hm => ?_⟩
        obtain ⟨c, c', e1, e2, e3, e4, e5, e6⟩ := sc m (by rw [k3]; exact hm)
        obtain ⟨d, d1, d2⟩ := close m hm.le
        obtain rfl := Except.ok.inj (e1.symm.trans d1)
        obtain ⟨-, b2, b3⟩ := gap_parts d2
        by_cases hX : x = "Hx"
        · refine le_trans (le_of_eq (l2_congr fun i j _ => ?_)) b2
          rw [rv m (by rw [k3]; exact hm)]
          simp only [nodeVal, Wave.site, Wave.nodeX, if_neg hE, if_pos hX, e5]
        · refine le_trans (le_of_eq (l2_congr fun i j _ => ?_)) b3
          rw [rv m (by rw [k3]; exact hm)]
          simp only [nodeVal, Wave.site, Wave.nodeY, if_neg hE, if_neg hX, e6]
    obtain ⟨θ, t0, t1, hB⟩ := key
    refine le_trans ?_ (spectra_l2 h.wide hl hT hM hst hr x f n hτ r θ t0 t1 B hB)
    unfold spectralGap l2
    refine Real.sqrt_le_sqrt (mul_le_mul_of_nonneg_left ?_ (sq_nonneg _))
    refine (Box.sum_subset hR fun _ _ => sq_nonneg _).trans (le_of_eq (Box.sum_congr _ fun i j _ => ?_))
    simp only [val]

theorem current_nonneg {g : Grid ℝ} (hw : g.Wide) (hl : Lawful g) (hT : g.T = 0) {J : ℝ → ℝ → ℝ → ℝ} {τ M : ℝ} (h : CurrentAtMost J g τ M) (t0 : 0 ≤ τ) : 0 ≤ M := by
  refine (abs_nonneg (J 0 0 0)).trans (h 0 0 0 le_rfl t0 ⟨le_rfl, ?_, le_rfl, ?_⟩)
  · have := node_le_x hl (k := 0) (by have := hw.nx; rw [hT] at this; omega)
    simpa using this
  · have := node_le_y hl (k := 0) (by have := hw.ny; rw [hT] at this; omega)
    simpa using this

theorem earlier {m n : ℕ} (h : m ≤ n) {dt τ : ℝ} (h0 : 0 < dt) (hn : ((n : ℝ) + 1 / 2) * dt ≤ τ) : ((m : ℝ) + 1 / 2) * dt ≤ τ ∧ (m : ℝ) * dt ≤ n * dt := by
  have : (m : ℝ) ≤ n := Nat.cast_le.mpr h
  constructor <;> nlinarith

namespace Props

/-- A program on a file makes a closed domain, adds objects and sources, then a volume monitor whose corners `a` and `b` are its lower left and its upper right one and
which lies among the nodes that an update changes; it takes `n` steps and writes the spectra. In between it may call whatever only looks, and afterwards it may do
anything: `w4` is the file then. -/
structure VolumeWritten (now : ℕ → ℝ) (g : Grid ℝ) (cs1 cs2 later : List (Call ℝ)) (name : String) (a b : V2 ℝ) (tag : DftTag) (freq : List ℝ) (n : ℕ) (w4 : World ℝ) :
    Prop where
  lawful : Lawful g
  closed : g.T = 0
  wide : g.Wide
  furnishes : Furnishes (simOps cs1)
  advances : Advances (simOps cs2)
  steps : n = (simOps cs2).countP isUpdate
  left : (g.toGrid a).x ≤ (g.toGrid b).x
  lower : (g.toGrid a).y ≤ (g.toGrid b).y
  among : ∀ i j, (Box.mk (g.toGrid a).x (g.toGrid b).x (g.toGrid a).y (g.toGrid b).y).Mem i j → (updatedNodes g).Mem i j
  runs : ∃ w1 w2 w3, Watched now g cs1 (.vol (.make name (Vol.make a b) tag freq)) cs2 w1 w2 ∧ w2.step now (.writeSpectra w1.sim.mons.length) = .ok w3 ∧
    w3.run now later = .ok w4

/-- The file has, for every component that the monitor records, a table with a row for every node of the box and a column for every frequency; and `dt` times the numbers
of frequency `f` differ from the spectra of the wave up to time `T` by at most `bound f`, in the mean over the box. -/
def HoldsSpectra (w4 : World ℝ) (g : Grid ℝ) (name : String) (a b : V2 ℝ) (tag : DftTag) (freq : List ℝ) (w : Spec.Wave) (T : ℝ) (bound : ℝ → ℝ) : Prop :=
  ∃ F : String → ℝ → ℤ → ℤ → Cx ℝ, (∀ x ∈ volKeys tag, w4.tree.at ["monitors", "volume_monitor", name, x] =
      some (.cxs ((pos2 ((g.toGrid b).x - (g.toGrid a).x + 1) ((g.toGrid b).y - (g.toGrid a).y + 1)).flatMap fun p =>
        freq.map fun f => F x f ((g.toGrid a).x + p.1) ((g.toGrid a).y + p.2)))) ∧
    ∀ x f, Real.sqrt (spectralGap w g x f T (F x f) ⟨(g.toGrid a).x, (g.toGrid b).x, (g.toGrid a).y, (g.toGrid b).y⟩) ≤ bound f

/-- How far spectra up to time `T` are from those of a wave, if the fields are within `B` of it at all steps: the sum over the steps takes the place of the integral, and
the magnetic field is recorded half a step late. -/
noncomputable def spectralError (g : Grid ℝ) (M T B f : ℝ) : ℝ := T * (B + Real.sqrt (g.Lx * g.Ly) * (g.dt * (M + 2 * Real.pi * |f| * (M * T))))

/-- **C94**, simple media. Objects of passive simple media and sources of `Ez` that carry the current of a solution of Maxwell's equations that starts from rest: what the
monitor writes is the spectrum of the solution, up to the error of the fields (C84) and a term of first order in the time step. -/
theorem C94_simple {now : ℕ → ℝ} {g : Grid ℝ} {cs1 cs2 later : List (Call ℝ)} {name : String} {a b : V2 ℝ} {tag : DftTag} {freq : List ℝ} {n : ℕ} {w4 : World ℝ}
    (h : VolumeWritten now g cs1 cs2 later name a b tag freq n w4) (objs : List (Object ℝ)) (srcs : List (Source ℝ)) (ho : objectsOf (simOps cs1) = objs)
    (hsr : sourcesOf (simOps cs1) = srcs) (hb : ∀ o ∈ objs, BoxSound o)
    (hc : ∀ o ∈ objs, ClearOfUnguardedEdges g o) (hp : ∀ o ∈ objs, PassiveObject o) (epsMax sigMax : ℝ) (he : AtMost epsMax objs)
    (hs : ConductAtMost sigMax objs) (eps sig : ℝ → ℝ → ℝ) (hmed : MediumOf objs eps sig) (w : Spec.Wave) (S : ℝ → ℝ → Prop) (J : ℝ → ℝ → ℝ → ℝ) (τ M δ : ℝ)
    (hsm : w.Smooth S g τ M) (hst : w.Steady g τ M) (hmx : w.Driven S eps sig J g τ) (hJ : CurrentAtMost J g τ M) (hwl : w.Walls g τ) (hr : w.AtRest g)
    (fits : ∀ s ∈ srcs, Fits g s) (hδ : 0 ≤ δ) (hk : Spec.Carries g srcs eps sig J τ δ) (hn : ((n : ℝ) + 1 / 2) * g.dt ≤ τ) :
    HoldsSpectra w4 g name a b tag freq w (n * g.dt)
      (spectralError g M (n * g.dt) (restError S g M epsMax + n * g.dt * drivenError S g M epsMax sigMax δ)) := by
  subst ho hsr
  obtain ⟨w1, w2, w3, k1, k2, k3⟩ := h.runs
  have dt0 : 0 < g.dt := by rw [h.lawful.dt]; linarith [h.lawful.dx]
  have n0 : (0 : ℝ) ≤ n := Nat.cast_nonneg n
  refine spectra_close now g h.lawful h.closed cs1 cs2 later name a b tag freq h.left h.lower h.among w1 w2 w3 w4 k1 h.furnishes h.advances
    (fun s hs C i j hd => (hk.electric s hs C i j hd).1) k2 k3 n h.steps w τ M _ (current_nonneg h.wide h.lawful h.closed hJ (by nlinarith)) hst hr (by nlinarith) fun m hm => ?_
  obtain ⟨c, e1, e2⟩ := C84_radiates m g h.wide h.lawful h.closed _ hb hc hp epsMax sigMax he hs eps sig hmed w S J τ M δ hsm hst hmx hJ hwl hr _ fits hδ hk
    (earlier hm dt0 hn).1
  exact ⟨c, e1, e2.trans (add_le_add_right (mul_le_mul_of_nonneg_right (earlier hm dt0 hn).2 (Real.sqrt_nonneg _)) _)⟩

/-- **C94**, Debye and Drude media of one pole: as `C94_simple`, with the error of the fields of C85. -/
theorem C94_dispersive {now : ℕ → ℝ} {g : Grid ℝ} {cs1 cs2 later : List (Call ℝ)} {name : String} {a b : V2 ℝ} {tag : DftTag} {freq : List ℝ} {n : ℕ} {w4 : World ℝ}
    (h : VolumeWritten now g cs1 cs2 later name a b tag freq n w4) (objs : List (Object ℝ)) (srcs : List (Source ℝ)) (hob : objectsOf (simOps cs1) = objs)
    (hsr : sourcesOf (simOps cs1) = srcs) (hb : ∀ o ∈ objs, BoxSound o)
    (hc : ∀ o ∈ objs, ClearOfUnguardedEdges g o) (hp : ∀ o ∈ objs, PassiveKind o.mat.kind) (hnm : OneMeaning objs) (hu : Uncovered g objs)
    (eps sig : ℝ → ℝ → ℝ) (res : ℝ → ℝ → Response) (hmat : MatterOf objs eps sig res) (epsMax sigMax q : ℝ) (hmax : MatterAtMost eps sig res epsMax sigMax q)
    (w : Spec.Wave) (K Kt I : ℝ → ℝ → ℝ → ℝ) (S : ℝ → ℝ → Prop) (τ M δ : ℝ) (hsm : w.Smooth S g τ M) (hst : w.Steady g τ M)
    (hmx : w.Driven S eps sig (fun t x y => K t x y + I t x y) g τ) (hK : w.Polarized K Kt S res g τ M) (hI : CurrentAtMost I g τ M) (hwl : w.Walls g τ)
    (hr : w.AtRest g) (hrK : ∀ x y, InDomain g x y → K 0 x y = 0) (fits : ∀ s ∈ srcs, Fits g s) (hδ : 0 ≤ δ)
    (hk : Spec.Carries g srcs eps sig I τ δ) (ho : OutsideMemory g objs srcs) (hn : ((n : ℝ) + 1 / 2) * g.dt ≤ τ) :
    HoldsSpectra w4 g name a b tag freq w (n * g.dt)
      (spectralError g M (n * g.dt) (restError S g M (epsMax + q ^ 2) + n * g.dt * polarError S g M epsMax sigMax q δ)) := by
  subst hob hsr
  obtain ⟨w1, w2, w3, k1, k2, k3⟩ := h.runs
  have dt0 : 0 < g.dt := by rw [h.lawful.dt]; linarith [h.lawful.dx]
  have n0 : (0 : ℝ) ≤ n := Nat.cast_nonneg n
  refine spectra_close now g h.lawful h.closed cs1 cs2 later name a b tag freq h.left h.lower h.among w1 w2 w3 w4 k1 h.furnishes h.advances
    (fun s hs C i j hd => (hk.electric s hs C i j hd).1) k2 k3 n h.steps w τ M _ (current_nonneg h.wide h.lawful h.closed hI (by nlinarith)) hst hr (by nlinarith) fun m hm => ?_
  obtain ⟨c, e1, e2⟩ := C85_solves m g h.wide h.lawful h.closed _ hb hc hp hnm hu eps sig res hmat epsMax sigMax q hmax w K Kt I S τ M δ hsm hst hmx hK hI hwl hr hrK _
    fits hδ hk ho (earlier hm dt0 hn).1
  exact ⟨c, e1, e2.trans (add_le_add_right (mul_le_mul_of_nonneg_right (earlier hm dt0 hn).2 (Real.sqrt_nonneg _)) _)⟩

/-- **C94**, a Lorentz medium of one pole on top of passive simple media: as `C94_simple`, with the error of the fields of C93. -/
theorem C94_lorentz {now : ℕ → ℝ} {g : Grid ℝ} {cs1 cs2 later : List (Call ℝ)} {name : String} {a b : V2 ℝ} {tag : DftTag} {freq : List ℝ} {n : ℕ} {w4 : World ℝ}
    (h : VolumeWritten now g cs1 cs2 later name a b tag freq n w4) (objs : List (Object ℝ)) (srcs : List (Source ℝ)) (o : Object ℝ)
    (hob : objectsOf (simOps cs1) = objs ++ [o]) (hsr : sourcesOf (simOps cs1) = srcs) (hb : ∀ o ∈ objs, BoxSound o)
    (hc : ∀ o ∈ objs, ClearOfUnguardedEdges g o) (hp : ∀ o ∈ objs, PassiveObject o) (epsMax sigMax : ℝ) (he : AtMost epsMax objs)
    (hs : ConductAtMost sigMax objs) (eps sig : ℝ → ℝ → ℝ) (hmed : MediumOf objs eps sig) (e : ℝ) (p : LorentzPole ℝ)
    (hk : o.mat.kind = .lorentz ⟨e, [p]⟩) (bo : BoxSound o) (co : ClearOfUnguardedEdges g o) (e1 : 1 ≤ e) (e2 : e ≤ epsMax)
    (p1 : p.omega ≠ 0) (p2 : 0 < p.dEps) (p3 : 0 ≤ p.gamma)
    (w : Spec.Wave) (S : ℝ → ℝ → Prop) (P K Kt I : ℝ → ℝ → ℝ → ℝ) (τ M δ : ℝ) (hsm : w.Smooth S g τ M) (hst : w.Steady g τ M)
    (hmx : w.Driven S (coated o e eps) (coated o 0 sig) (fun t x y => K t x y + I t x y) g τ)
    (hq : w.Swinging P K Kt S (fun x y => o.inside ⟨x, y⟩ = true) p g τ M) (hI : CurrentAtMost I g τ M) (hwl : w.Walls g τ) (hr : w.AtRest g)
    (hP : ∀ x y, InDomain g x y → P 0 x y = 0 ∧ K 0 x y = 0)
    (fits : ∀ s ∈ srcs, Fits g s) (hδ : 0 ≤ δ) (hcr : Spec.Carries g srcs (coated o e eps) (coated o 0 sig) I τ δ)
    (ho : ∀ t (i j : ℤ), o.inside ⟨i * g.dx, j * g.dx⟩ = true → addedE g srcs t i j = 0) (hn : ((n : ℝ) + 1 / 2) * g.dt ≤ τ) :
    HoldsSpectra w4 g name a b tag freq w (n * g.dt)
      (spectralError g M (n * g.dt) (3 * (Real.exp (swingRate p epsMax sigMax g.dt * (n * g.dt)) *
        (swingStart S g p M epsMax + n * g.dt * swingError S g p M epsMax sigMax δ)))) := by
  subst hsr
  obtain ⟨w1, w2, w3, k1, k2, k3⟩ := h.runs
  have dt0 : 0 < g.dt := by rw [h.lawful.dt]; linarith [h.lawful.dx]
  have n0 : (0 : ℝ) ≤ n := Nat.cast_nonneg n
  have M0 : 0 ≤ M := current_nonneg h.wide h.lawful h.closed hI (by nlinarith)
  have s0 : 0 ≤ swingStart S g p M epsMax := by
    unfold swingStart restError
    have := h.lawful.dx
    positivity
  obtain ⟨l0, f0, r0⟩ := rates_nonneg (p := p) ⟨p1, p2, p3⟩ (by linarith : 0 ≤ epsMax) hs.1 dt0.le
  have q0 : 0 ≤ swingNoise S g M epsMax sigMax (swingStiff p) δ := by unfold swingNoise; positivity
  have w0 : 0 ≤ swingError S g p M epsMax sigMax δ := by unfold swingError; positivity
  refine spectra_close now g h.lawful h.closed cs1 cs2 later name a b tag freq h.left h.lower h.among w1 w2 w3 w4 k1 h.furnishes h.advances
    (fun s hs C i j hd => (hcr.electric s hs C i j hd).1) k2 k3 n h.steps w τ M _ M0 hst hr (by nlinarith) fun m hm => ?_
  obtain ⟨c, c1, c2⟩ := C93_solves m g h.wide h.lawful h.closed objs hb hc hp epsMax sigMax he hs eps sig hmed o e p hk bo co e1 e2 p1 p2 p3 w S P K Kt I τ M δ hsm hst
    hmx hq hI hwl hr hP _ fits hδ hcr ho (earlier hm dt0 hn).1
  rw [hob]
  have mn := (earlier hm dt0 hn).2
  refine ⟨c, c1, c2.trans (mul_le_mul_of_nonneg_left (mul_le_mul (Real.exp_le_exp.mpr (mul_le_mul_of_nonneg_left mn r0))
    (add_le_add_right (mul_le_mul_of_nonneg_right mn w0) _) (add_nonneg s0 (by positivity)) (Real.exp_nonneg _)) (by norm_num))⟩

end Props
end Qbox
