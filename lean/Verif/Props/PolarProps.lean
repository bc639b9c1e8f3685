import Verif.Lemmas.PolarStep

/-! # In Debye and Drude media the program solves the equations of the medium (C85) -/

namespace Qbox
open Scalar Spec Props

/-- What is left when field values and currents are put into the law of a step, in the unit of the energy. -/
theorem Spec.Response.residual {r : Response} (h : r.Passive) {q dt : ℝ} (hq : r.stiff ≤ q) (E E' K K' : ℝ) :
    ∃ rJ z, r.step dt E E' K K' rJ ∧ r.weight * rJ ^ 2 = z ^ 2 ∧ ∀ W Em Et Km Kt, 0 ≤ W → |(E' - E) / dt - Et| ≤ W → |(E' + E) / 2 - Em| ≤ W →
      |(K' - K) / dt - Kt| ≤ W → |(K' + K) / 2 - Km| ≤ W → r.Law Em Et Km Kt → |z| ≤ q * W := by
  cases r with
  | plain =>
    refine ⟨0, 0, trivial, by simp [Response.weight], fun W _ _ _ _ hW _ _ _ _ _ => ?_⟩
    rw [abs_zero]
    exact mul_nonneg hq hW
  | debye d t =>
    obtain ⟨h1, h2⟩ := h
    have sd := Real.sqrt_pos.mpr h1
    refine ⟨t * (K' - K) / dt + (K' + K) / 2 - d * (E' - E) / dt, (t * (K' - K) / dt + (K' + K) / 2 - d * (E' - E) / dt) / Real.sqrt d, ?_, ?_,
      fun W Em Et Km Kt hW a1 a2 a3 a4 law => ?_⟩
    · simp only [Response.step]; ring
    · rw [div_pow, Real.sq_sqrt h1.le]; simp only [Response.weight]; ring
    · simp only [Response.Law] at law
      simp only [Response.stiff] at hq
      have k : |t * (K' - K) / dt + (K' + K) / 2 - d * (E' - E) / dt| ≤ (t + 1 + d) * W := by
        rw [abs_le] at a1 a3 a4 ⊢
        have b1 := mul_le_mul_of_nonneg_left a3.1 h2.le
        have b2 := mul_le_mul_of_nonneg_left a3.2 h2.le
        have b3 := mul_le_mul_of_nonneg_left a1.1 h1.le
        have b4 := mul_le_mul_of_nonneg_left a1.2 h1.le
        have e : t * (K' - K) / dt + (K' + K) / 2 - d * (E' - E) / dt = t * ((K' - K) / dt - Kt) + ((K' + K) / 2 - Km) - d * ((E' - E) / dt - Et) := by
          linear_combination law
        rw [e]
        constructor <;> linarith [a4.1, a4.2]
      rw [abs_div, abs_of_pos sd, div_le_iff₀ sd]
      refine k.trans ?_
      have := mul_le_mul_of_nonneg_right hq hW
      rw [div_mul_eq_mul_div, div_le_iff₀ sd] at this
      exact this
  | drude c o =>
    obtain ⟨h1, h2⟩ := h
    have sd := abs_pos.mpr h2
    refine ⟨(K' - K) / dt + c * (K' + K) / 2 - o ^ 2 * (E' + E) / 2, ((K' - K) / dt + c * (K' + K) / 2 - o ^ 2 * (E' + E) / 2) / |o|, ?_, ?_,
      fun W Em Et Km Kt hW a1 a2 a3 a4 law => ?_⟩
    · simp only [Response.step]; ring
    · rw [div_pow, sq_abs]; simp only [Response.weight]; ring
    · simp only [Response.Law] at law
      simp only [Response.stiff] at hq
      have k : |(K' - K) / dt + c * (K' + K) / 2 - o ^ 2 * (E' + E) / 2| ≤ (1 + c + o ^ 2) * W := by
        rw [abs_le] at a2 a3 a4 ⊢
        have b1 := mul_le_mul_of_nonneg_left a4.1 h1
        have b2 := mul_le_mul_of_nonneg_left a4.2 h1
        have b3 := mul_le_mul_of_nonneg_left a2.1 (sq_nonneg o)
        have b4 := mul_le_mul_of_nonneg_left a2.2 (sq_nonneg o)
        have e : (K' - K) / dt + c * (K' + K) / 2 - o ^ 2 * (E' + E) / 2 = ((K' - K) / dt - Kt) + c * ((K' + K) / 2 - Km) - o ^ 2 * ((E' + E) / 2 - Em) := by
          linear_combination law
        rw [e]
        constructor <;> linarith [a3.1, a3.2]
      rw [abs_div, abs_abs, div_le_iff₀ sd]
      refine k.trans ?_
      have := mul_le_mul_of_nonneg_right hq hW
      rw [div_mul_eq_mul_div, div_le_iff₀ sd] at this
      exact this

theorem Spec.Response.stiff_nonneg {r : Response} (h : r.Passive) : 0 ≤ r.stiff := by
  cases r with
  | plain => exact le_rfl
  | debye d t => have := h.1; have := h.2; simp only [Response.stiff]; positivity
  | drude c o => have := h.1; simp only [Response.stiff]; positivity

theorem Spec.Response.law_zero (r : Response) : r.Law 0 0 0 0 := by cases r <;> simp [Response.Law]

theorem spread_bound4 {g : Grid ℝ} (hw : g.Wide) (hl : Lawful g) (hT : g.T = 0) {S : ℝ → ℝ → Prop} {A B : ℝ} {rE rX rY rZ : ℤ → ℤ → ℝ}
    (h : ∀ i j, (updatedNodes g).Mem i j → (¬ Crossed S g i j → |rE i j| ≤ A ∧ |rX i j| ≤ A ∧ |rY i j| ≤ A ∧ |rZ i j| ≤ A) ∧
      |rE i j| ≤ B ∧ |rX i j| ≤ B ∧ |rY i j| ≤ B ∧ |rZ i j| ≤ B) :
    g.dx ^ 2 * (updatedNodes g).sum (fun i j => rE i j ^ 2 + rX i j ^ 2 + rY i j ^ 2 + rZ i j ^ 2) ≤
      4 * (g.Lx * g.Ly * A ^ 2 + crossedArea S g (updatedNodes g) * B ^ 2) := by
  classical
  have sq : ∀ {z C : ℝ}, |z| ≤ C → z ^ 2 ≤ C ^ 2 := fun hz => sq_le_sq' (abs_le.mp hz).1 (abs_le.mp hz).2
  have : (updatedNodes g).sum (fun i j => rE i j ^ 2 + rX i j ^ 2 + rY i j ^ 2 + rZ i j ^ 2) ≤
      (updatedNodes g).sum fun i j => 4 * A ^ 2 * 1 + 4 * B ^ 2 * (if Crossed S g i j then 1 else 0) := by
    refine Box.sum_le _ fun i j hm => ?_
    obtain ⟨h1, h2, h3, h4, h5⟩ := h i j hm
    by_cases hc : Crossed S g i j
    · rw [if_pos hc]
      linarith [sq h2, sq h3, sq h4, sq h5, sq_nonneg A]
    · obtain ⟨k2, k3, k4, k5⟩ := h1 hc
      rw [if_neg hc]
      linarith [sq k2, sq k3, sq k4, sq k5]
  rw [Box.sum_add (updatedNodes g) (fun _ _ => 4 * A ^ 2 * 1), Box.sum_mul, Box.sum_mul] at this
  have a1 := mul_le_mul_of_nonneg_left this (sq_nonneg g.dx)
  have a2 := mul_le_mul_of_nonneg_left (count_area hw hl hT) (by positivity : 0 ≤ 4 * A ^ 2)
  unfold crossedArea
  unfold Box.count at a2
  refine a1.trans ?_
  rw [mul_add]
  have e1 : g.dx ^ 2 * (4 * A ^ 2 * (updatedNodes g).sum fun _ _ => 1) = 4 * A ^ 2 * (g.dx ^ 2 * (updatedNodes g).sum fun _ _ => 1) := by ring
  rw [e1]
  refine (add_le_add_left a2 _).trans (le_of_eq (by ring))

namespace Props

set_option maxHeartbeats 1000000 in
/-- The distance between the fields and currents of a program and the wave, in the norm of the energy. -/
theorem polar_error_run {w : Spec.Wave} {S : ℝ → ℝ → Prop} {g : Grid ℝ} {τ M δ : ℝ} (hwd : g.Wide) (hl : Lawful g) (hT : g.T = 0) (hw : w.Walls g τ)
    (hs : w.Smooth S g τ M) (hb : w.Steady g τ M) {eps sig : ℝ → ℝ → ℝ} {K Kt I : ℝ → ℝ → ℝ → ℝ} (hm : w.Driven S eps sig (fun t x y => K t x y + I t x y) g τ)
    (hI : CurrentAtMost I g τ M) {res : ℝ → ℝ → Response} (hK : w.Polarized K Kt S res g τ M) (hδ : 0 ≤ δ) {med : ℤ → ℤ → Medium} {epsMax sigMax q : ℝ} (h0 : 1 ≤ epsMax)
    (he : ∀ i j, (updatedNodes g).Mem i j → (med i j).base.eps = eps (i * g.dx) (j * g.dx) ∧ (med i j).base.conduc = sig (i * g.dx) (j * g.dx) ∧
      1 ≤ (med i j).base.eps ∧ (med i j).base.eps ≤ epsMax ∧ 0 ≤ (med i j).base.conduc ∧ (med i j).base.conduc ≤ sigMax)
    (hr : ∀ i j, (updatedNodes g).Mem i j → (med i j).res = res (i * g.dx) (j * g.dx) ∧ (med i j).res.Passive ∧ (med i j).res.stiff ≤ q) (q0 : 0 ≤ q) :
    ∀ (n m : ℕ) (c : Core ℝ), Remembers c med → c.g = g → c.t = m * g.dt → ((m : ℝ) + n + 1 / 2) * g.dt ≤ τ → ∀ srcs : List (Source ℝ),
      (∀ s ∈ srcs, Fits g s) → Spec.Carries g srcs eps sig I τ δ → SourcesApart g med srcs → ∀ d, Mix 1 (-1) c.f (sampled w g m c.f) d →
      ∃ c' srcs', c.run n srcs = .ok (c', srcs') ∧ Remembers c' med ∧ c'.g = g ∧ ∃ d', Mix 1 (-1) c'.f (sampled w g (m + n) c'.f) d' ∧
        Real.sqrt (ptotal g (fun i j => (med i j).base) (fun i j => (med i j).res) d'
          (fun i j => (med i j).cur c' i j - K ((m + n : ℕ) * g.dt) (i * g.dx) (j * g.dx)) (updatedNodes g)) ≤
        Real.sqrt (ptotal g (fun i j => (med i j).base) (fun i j => (med i j).res) d
          (fun i j => (med i j).cur c i j - K (m * g.dt) (i * g.dx) (j * g.dx)) (updatedNodes g)) +
          n * (Real.sqrt ((epsMax + 2) / 2) * (g.dt * Real.sqrt (4 * (g.Lx * g.Ly * ((epsMax + sigMax + q + 9) / 16 * M * g.dx ^ 2 + δ) ^ 2 +
            crossedArea S g (updatedNodes g) * ((epsMax + sigMax + q + 4) * M + δ) ^ 2))))
  | 0, m, c, h, hg, _, _, srcs, _, _, _, d, md => ⟨c, srcs, rfl, h, hg, d, md, by simp⟩
  | n + 1, m, c, h, hg, tm, hτ, srcs, hf, hk, ha, d, md => by
    subst hg
    have b1 : (updatedNodes c.g).l ≤ (updatedNodes c.g).r + 1 := by have := hwd.nx; simp only [updatedNodes]; omega
    have b2 : (updatedNodes c.g).b ≤ (updatedNodes c.g).t + 1 := by have := hwd.ny; simp only [updatedNodes]; omega
    have hx := hl.dx
    have dt0 : 0 < c.g.dt := h.std.dt_pos
    have n0 : (0 : ℝ) ≤ n := Nat.cast_nonneg n
    have m0 : (0 : ℝ) ≤ m := Nat.cast_nonneg m
    have ht3 : ((m : ℝ) + 3 / 2) * c.g.dt ≤ τ := by push_cast at hτ; nlinarith
    obtain ⟨c1, l1, E2, E3, E4, f, u, St⟩ := Core.update_step h.std srcs hf
    obtain ⟨h1, laws, poles⟩ := remembers_step h St hk ha
    obtain ⟨rE, rX, rY, L, bd⟩ := driven_laws hl hw hs hb hm he (n := m) ht3 c.f c1.f
    obtain ⟨d1, md1⟩ := mix_exists 1 (-1) c1.f (sampled w c.g (m + 1) c1.f)
    have qd : FrameQuiet d (updatedNodes c.g) := md.quiet h.frame (sampled_quiet ..)
    have qd1 : FrameQuiet d1 (updatedNodes c.g) := md1.quiet (by rw [← St.g]; exact h1.frame) (sampled_quiet ..)
    have M0 : 0 ≤ M := by
      refine (abs_nonneg (I 0 0 0)).trans (hI 0 0 0 le_rfl ?_ ⟨le_rfl, ?_, le_rfl, ?_⟩)
      · refine le_trans ?_ ht3
        positivity
      · have := node_le_x hl (k := 0) (by have := hwd.nx; omega)
        simpa using this
      · have := node_le_y hl (k := 0) (by have := hwd.ny; omega)
        simpa using this
    have sE : ∀ i j, (updatedNodes c.g).Mem i j → (sampled w c.g m c.f).Ez.val i j = w.nodeE c.g m i j := fun i j hm => if_pos hm
    have sE1 : ∀ i j, (updatedNodes c.g).Mem i j → (sampled w c.g (m + 1) c1.f).Ez.val i j = w.nodeE c.g (m + 1) i j := fun i j hm => if_pos hm
    have inner : ∀ i j, (updatedNodes c.g).Mem i j → InDomain c.g (i * c.g.dx) (j * c.g.dx) := by
      intro i j hm
      unfold Box.Mem updatedNodes at hm
      simp only at hm
      exact ⟨node_pos hl (by omega), node_le_x hl (by omega), node_pos hl (by omega), node_le_y hl (by omega)⟩
    have ta : 0 ≤ (m : ℝ) * c.g.dt := by positivity
    have tb0 : 0 ≤ ((m : ℝ) + 1 / 2) * c.g.dt := by positivity
    have tb : ((m : ℝ) + 1 / 2) * c.g.dt ≤ τ := by nlinarith
    have tc : ((m : ℝ) + 1) * c.g.dt ≤ τ := by nlinarith
    have tc0 : 0 ≤ ((m : ℝ) + 1) * c.g.dt := by positivity
    have cast : ((m + 1 : ℕ) : ℝ) = (m : ℝ) + 1 := by push_cast; ring
    have k2 : c.g.dt ^ 2 = c.g.dx ^ 2 / 4 := by rw [hl.dt]; ring
    have pick : ∀ i j, ∃ rJ z, (updatedNodes c.g).Mem i j →
        (med i j).res.step c.g.dt (w.nodeE c.g m i j) (w.nodeE c.g (m + 1) i j) (K (m * c.g.dt) (i * c.g.dx) (j * c.g.dx))
          (K ((m + 1 : ℕ) * c.g.dt) (i * c.g.dx) (j * c.g.dx)) rJ ∧ (med i j).res.weight * rJ ^ 2 = z ^ 2 ∧
        (¬ Crossed S c.g i j → |z| ≤ q / 16 * M * c.g.dx ^ 2 ∧
          |((med i j).res.flow (K ((m + 1 : ℕ) * c.g.dt) (i * c.g.dx) (j * c.g.dx)) + (med i j).res.flow (K (m * c.g.dt) (i * c.g.dx) (j * c.g.dx))) / 2 -
            K ((m + 1 / 2) * c.g.dt) (i * c.g.dx) (j * c.g.dx)| ≤ 1 / 16 * M * c.g.dx ^ 2) ∧
        |z| ≤ q * M ∧
          |((med i j).res.flow (K ((m + 1 : ℕ) * c.g.dt) (i * c.g.dx) (j * c.g.dx)) + (med i j).res.flow (K (m * c.g.dt) (i * c.g.dx) (j * c.g.dx))) / 2| ≤ M := by
      intro i j
      by_cases hmem : (updatedNodes c.g).Mem i j
      · obtain ⟨r1, r2, r3⟩ := hr i j hmem
        have dom := inner i j hmem
        obtain ⟨rJ, z, p1, p2, p3⟩ := Response.residual r2 (dt := c.g.dt) r3 (w.nodeE c.g m i j) (w.nodeE c.g (m + 1) i j)
          (K (m * c.g.dt) (i * c.g.dx) (j * c.g.dx)) (K ((m + 1 : ℕ) * c.g.dt) (i * c.g.dx) (j * c.g.dx))
        refine ⟨rJ, z, fun _ => ⟨p1, p2, fun nc => ?_, ?_, ?_⟩⟩
        · have s0 : S (i * c.g.dx) (j * c.g.dx) := by_contra fun hn => nc (.inl ⟨i * c.g.dx, by linarith, by linarith, hn⟩)
          have a1 := slope (hs.Et _ _ dom s0) dt0 (p := m * c.g.dt) (q := (m + 1) * c.g.dt) (s := (m + 1 / 2) * c.g.dt) (by ring) (by ring) ta tc
          have a2 := middle (hs.Et _ _ dom s0) dt0 (p := m * c.g.dt) (q := (m + 1) * c.g.dt) (s := (m + 1 / 2) * c.g.dt) (by ring) (by ring) ta tc
          have a3 := slope (hK.tame _ _ dom s0) dt0 (p := m * c.g.dt) (q := (m + 1) * c.g.dt) (s := (m + 1 / 2) * c.g.dt) (by ring) (by ring) ta tc
          have a4 := middle (hK.tame _ _ dom s0) dt0 (p := m * c.g.dt) (q := (m + 1) * c.g.dt) (s := (m + 1 / 2) * c.g.dt) (by ring) (by ring) ta tc
          have B1 : M * c.g.dt ^ 2 / 4 = 1 / 16 * M * c.g.dx ^ 2 := by rw [k2]; ring
          rw [B1] at a1 a2 a3 a4
          have law := hK.law ((m + 1 / 2) * c.g.dt) _ _ tb0 tb dom s0
          rw [← r1] at law
          constructor
          · have := p3 (1 / 16 * M * c.g.dx ^ 2) _ _ _ _ (by positivity) (by unfold Wave.nodeE; rw [cast]; exact a1) (by unfold Wave.nodeE; rw [cast]; exact a2)
              (by rw [cast]; exact a3) (by rw [cast]; exact a4) law
            exact this.trans (le_of_eq (by ring))
          · rw [cast]
            revert law
            generalize (med i j).res = r
            cases r with
            | plain =>
              intro law
              simp only [Response.Law] at law
              simp only [Response.flow]
              rw [law]
              norm_num
              positivity
            | debye _ _ => intro _; exact a4
            | drude _ _ => intro _; exact a4
        · have quo : ∀ {a b : ℝ}, |a - b| ≤ M * ((m + 1) * c.g.dt - m * c.g.dt) → |(a - b) / c.g.dt| ≤ M := by
            intro a b hh
            rw [abs_div, abs_of_pos dt0, div_le_iff₀ dt0]
            linarith
          have half : ∀ {a b : ℝ}, |a| ≤ M → |b| ≤ M → |(a + b) / 2| ≤ M := by
            intro a b ha hb
            rw [abs_le] at ha hb ⊢
            constructor <;> linarith [ha.1, ha.2, hb.1, hb.2]
          have le1 : (m : ℝ) * c.g.dt ≤ (m + 1) * c.g.dt := by linarith
          have tm' : (m : ℝ) * c.g.dt ≤ τ := by linarith
          exact p3 M 0 0 0 0 M0 (by unfold Wave.nodeE; rw [cast, sub_zero]; exact quo (hb.Et _ _ _ _ ta le1 tc dom))
            (by unfold Wave.nodeE; rw [cast, sub_zero]; exact half (hb.E0 _ _ _ tc0 tc dom) (hb.E0 _ _ _ ta tm' dom))
            (by rw [cast, sub_zero]; exact quo (hK.steady _ _ _ _ ta le1 tc dom))
            (by rw [cast, sub_zero]; exact half (hK.atMost _ _ _ tc0 tc dom) (hK.atMost _ _ _ ta tm' dom)) (Response.law_zero _)
        · have k1 := hK.atMost ((m + 1) * c.g.dt) _ _ tc0 tc dom
          have k2 := hK.atMost (m * c.g.dt) _ _ ta (by linarith) dom
          rw [cast]
          rw [abs_le] at k1 k2
          generalize (med i j).res = r
          cases r with
          | plain => simp only [Response.flow]; norm_num; exact M0
          | debye _ _ => simp only [Response.flow]; rw [abs_le]; constructor <;> linarith [k1.1, k1.2, k2.1, k2.2]
          | drude _ _ => simp only [Response.flow]; rw [abs_le]; constructor <;> linarith [k1.1, k1.2, k2.1, k2.2]
      · exact ⟨0, 0, fun h' => absurd h' hmem⟩
    choose rJ z hz using pick
    have key : ∀ i j, (updatedNodes c.g).Mem i j →
        |((med i j).base.eps / c.g.dt + (med i j).base.conduc / 2) * addedE c.g srcs (c.t + c.g.dt) i j + I ((m + 1 / 2) * c.g.dt) (i * c.g.dx) (j * c.g.dx)| ≤ δ ∧
        |I ((m + 1 / 2) * c.g.dt) (i * c.g.dx) (j * c.g.dx)| ≤ M := by
      intro i j hm
      have hm' := hm
      unfold Box.Mem updatedNodes at hm'
      simp only at hm'
      constructor
      · have := hk.node m i j (by omega) (by omega) (by omega) (by omega) tc
        rwa [← (he i j hm).1, ← (he i j hm).2.1, show ((m : ℝ) + 1) * c.g.dt = c.t + c.g.dt by rw [tm]; ring] at this
      · exact hI _ _ _ tb0 tb (inner i j hm)
    have bound := spread_bound4 hwd hl hT (S := S) (A := (epsMax + sigMax + q + 9) / 16 * M * c.g.dx ^ 2 + δ) (B := (epsMax + sigMax + q + 4) * M + δ)
          (rE := fun i j => rE i j + ((med i j).res.flow (K ((m + 1 : ℕ) * c.g.dt) (i * c.g.dx) (j * c.g.dx)) +
            (med i j).res.flow (K (m * c.g.dt) (i * c.g.dx) (j * c.g.dx))) / 2 -
            ((med i j).base.eps / c.g.dt + (med i j).base.conduc / 2) * addedE c.g srcs (c.t + c.g.dt) i j)
          (rX := fun i j => rX i j - 0) (rY := fun i j => rY i j - 0) (rZ := z) fun i j hm => by
            obtain ⟨k1, k2⟩ := key i j hm
            obtain ⟨p, p1, p2, p3⟩ := bd i j hm
            obtain ⟨-, -, z1, z2, z3⟩ := hz i j hm
            have W0 : 0 ≤ M * c.g.dx ^ 2 := by positivity
            have es0 : 0 ≤ epsMax + sigMax := by linarith [(he i j hm).2.2.2.2.1, (he i j hm).2.2.2.2.2]
            have y1 : 0 ≤ (epsMax + sigMax) * (M * c.g.dx ^ 2) := mul_nonneg es0 W0
            have y2 : 0 ≤ q * (M * c.g.dx ^ 2) := mul_nonneg q0 W0
            have y3 : 0 ≤ (epsMax + sigMax) * M := mul_nonneg es0 M0
            have y4 : 0 ≤ q * M := mul_nonneg q0 M0
            simp only [sub_zero]
            rw [abs_le] at k1 k2 p1 z3
            refine ⟨fun hc => ?_, ?_, by linarith, by linarith, by linarith⟩
            · obtain ⟨o1, o2, o3⟩ := p hc
              obtain ⟨v1, v2⟩ := z1 hc
              refine ⟨?_, by linarith, by linarith, by linarith⟩
              rw [abs_le] at o1 v2 ⊢
              constructor <;> linarith [o1.1, o1.2, v2.1, v2.2, k1.1, k1.2]
            · rw [abs_le]
              constructor <;> linarith [k1.1, k1.2, k2.1, k2.2, p1.1, p1.2, z3.1, z3.2]
    have step := polar_steps hl b1 b2 (med := fun i j => (med i j).base) (res := fun i j => (med i j).res) (fun i j hm => (hr i j hm).2.1) (epsMax := epsMax)
      (fun i j hm => ⟨(he i j hm).2.2.1, (he i j hm).2.2.2.1⟩) (fun i j hm => (he i j hm).2.2.2.2.1)
      (f := c.f) (f' := c1.f) (s := sampled w c.g m c.f) (s' := sampled w c.g (m + 1) c1.f)
      (K := fun i j => (med i j).cur c i j) (K' := fun i j => (med i j).cur c1 i j)
      (L := fun i j => K (m * c.g.dt) (i * c.g.dx) (j * c.g.dx)) (L' := fun i j => K ((m + 1 : ℕ) * c.g.dt) (i * c.g.dx) (j * c.g.dx))
      (pE := fun i j => ((med i j).base.eps / c.g.dt + (med i j).base.conduc / 2) * addedE c.g srcs (c.t + c.g.dt) i j)
      (pX := fun _ _ => 0) (pY := fun _ _ => 0) (pJ := fun _ _ => 0)
      (rE := fun i j => rE i j + ((med i j).res.flow (K ((m + 1 : ℕ) * c.g.dt) (i * c.g.dx) (j * c.g.dx)) +
            (med i j).res.flow (K (m * c.g.dt) (i * c.g.dx) (j * c.g.dx))) / 2)
      (rX := rX) (rY := rY) (rJ := rJ)
      (D := Real.sqrt (4 * (c.g.Lx * c.g.Ly * ((epsMax + sigMax + q + 9) / 16 * M * c.g.dx ^ 2 + δ) ^ 2 +
            crossedArea S c.g (updatedNodes c.g) * ((epsMax + sigMax + q + 4) * M + δ) ^ 2)))
      laws ⟨fun i j hm => by have := L.ampere i j hm; simpa only [add_sub_cancel_right] using this, L.faradayX, L.faradayY⟩ poles
      (fun i j hm => by rw [sE i j hm, sE1 i j hm]; exact (hz i j hm).1) h0 (Real.sqrt_nonneg _) (by
        refine le_trans (le_of_eq ?_) (le_trans bound (le_of_eq (Real.sq_sqrt ?_).symm))
        · congr 1
          refine Box.sum_congr _ fun i j hm => ?_
          simp only [sub_zero]
          rw [(hz i j hm).2.1]
        · exact le_trans (mul_nonneg (sq_nonneg _) (Box.sum_nonneg _ fun i j _ => by positivity)) bound) md md1 qd qd1
    obtain ⟨c2, l2, v, k2, g2, d2, md2, e2⟩ := polar_error_run hwd hl hT hw hs hb hm hI hK hδ h0 he hr q0 n (m + 1) c1 h1 St.g (by rw [St.t, tm]; push_cast; ring)
      (by push_cast at hτ ⊢; linarith) l1 (by rw [← St.g]; exact St.fits) (hk.same St.same) (ha.same St.same) d1 md1
    refine ⟨c2, l2, by unfold Core.run; rw [u]; exact v, k2, g2, d2, ?_, ?_⟩
    · rw [show m + (n + 1) = m + 1 + n by ring]; exact md2
    · rw [show m + (n + 1) = m + 1 + n by ring]
      refine e2.trans ?_
      push_cast at step ⊢
      linarith

/-- Materials that give off no energy have these bounds. -/
theorem matter_good {objs : List (Object ℝ)} (hp : ∀ o ∈ objs, PassiveKind o.mat.kind) {eps sig : ℝ → ℝ → ℝ} {res : ℝ → ℝ → Response}
    (hm : MatterOf objs eps sig res) (x y : ℝ) : 1 ≤ eps x y ∧ 0 ≤ sig x y ∧ (res x y).Passive := by
  rcases C09_total objs ⟨x, y⟩ with hv | ⟨o, ho⟩
  · obtain ⟨a, b, c⟩ := hm.vacuum ⟨x, y⟩ hv
    simp only at a b c
    rw [a, b, c]
    exact ⟨le_rfl, le_rfl, trivial⟩
  · have k := hm.object ⟨x, y⟩ o ho
    have p := hp o (top_mem ho).1
    simp only at k
    revert k p
    generalize o.mat.kind = kd
    generalize eps x y = e
    generalize sig x y = s
    generalize res x y = r
    intro k p
    cases k with
    | simple m => exact ⟨p.1, p.2, trivial⟩
    | debye0 e => exact ⟨DebyePassive.epsInf p, le_rfl, trivial⟩
    | debye e q => exact ⟨DebyePassive.epsInf p, le_rfl, DebyePassive.dEps p q (by simp), DebyePassive.tau p q (by simp)⟩
    | drude0 e => exact ⟨DrudePassive.epsInf p, le_rfl, trivial⟩
    | drude e q => exact ⟨DrudePassive.epsInf p, le_rfl, DrudePassive.gamma p q (by simp), DrudePassive.omega p q (by simp)⟩

theorem store_still {r : Response} (h : r.Passive) {q : ℝ} (hq : r.stiff ≤ q) (E : ℝ) : r.store E 0 ≤ q ^ 2 / 2 * E ^ 2 := by
  cases r with
  | plain => simp only [Response.store]; positivity
  | debye d t =>
    obtain ⟨h1, h2⟩ := h
    have sd := Real.sqrt_pos.mpr h1
    simp only [Response.stiff] at hq
    have k : Real.sqrt d ≤ q := by
      refine le_trans ?_ hq
      rw [le_div_iff₀ sd, Real.mul_self_sqrt h1.le]
      linarith
    have k2 := pow_le_pow_left₀ sd.le k 2
    rw [Real.sq_sqrt h1.le] at k2
    have e : Response.store E 0 (.debye d t) = d / 2 * E ^ 2 := by simp only [Response.store]; field_simp; ring
    rw [e]
    exact mul_le_mul_of_nonneg_right (by linarith) (sq_nonneg E)
  | drude c o => simp only [Response.store]; norm_num; positivity

set_option maxHeartbeats 1000000 in
/-- **C85** for any start. A program makes a closed domain, adds objects of passive simple media, Debye media and Drude media of at most one pole, none covered by
another one, gives the fields any start values, and has sources of `Ez` outside the media with memory. For every solution of Maxwell's equations and of the
equations of the media without polarization current at the start: if the sources carry its current up to `δ`, then the program runs without a fault, and after any
number of steps its fields differ from the solution by at most a multiple of the difference at the start and the time multiplied by `δ` and a term of
second order in the size of the cells; to this is added the contribution of those cells in which the solution is not smooth. -/
theorem C85_start (n : ℕ) (g : Grid ℝ) (hw : g.Wide) (hl : Lawful g) (hT : g.T = 0) (objs : List (Object ℝ)) (hb : ∀ o ∈ objs, BoxSound o)
    (hc : ∀ o ∈ objs, ClearOfUnguardedEdges g o) (hp : ∀ o ∈ objs, PassiveKind o.mat.kind) (hnm : OneMeaning objs) (hu : Uncovered g objs)
    (eps sig : ℝ → ℝ → ℝ) (res : ℝ → ℝ → Response) (hmat : MatterOf objs eps sig res) (epsMax sigMax q : ℝ) (hmax : MatterAtMost eps sig res epsMax sigMax q)
    (w : Spec.Wave) (K Kt I : ℝ → ℝ → ℝ → ℝ) (S : ℝ → ℝ → Prop) (τ M δ : ℝ) (hsm : w.Smooth S g τ M) (hst : w.Steady g τ M)
    (hmx : w.Driven S eps sig (fun t x y => K t x y + I t x y) g τ) (hK : w.Polarized K Kt S res g τ M) (hI : CurrentAtMost I g τ M) (hwl : w.Walls g τ)
    (hrK : ∀ x y, InDomain g x y → K 0 x y = 0) (srcs : List (Source ℝ)) (fits : ∀ s ∈ srcs, Fits g s) (hδ : 0 ≤ δ)
    (hk : Spec.Carries g srcs eps sig I τ δ) (ho : OutsideMemory g objs srcs) (hn : ((n : ℝ) + 1 / 2) * g.dt ≤ τ)
    (e x y : ℤ → ℤ → ℝ) (hout : ∀ i j, ¬ (updatedNodes g).Mem i j → e i j = 0 ∧ x i j = 0 ∧ y i j = 0) :
    ∃ c0 c1 c2 srcs', Core.make g = .ok c0 ∧ forList objs c0 (fun o c => c.insertObject o) = .ok c1 ∧ (withFields c1 e x y).run n srcs = .ok (c2, srcs') ∧
      Real.sqrt (gap w g n c2.f (updatedNodes g)) ≤ 2 * Real.sqrt (epsMax + q ^ 2 + 1) * Real.sqrt (gap w g 0 (withFields c1 e x y).f (updatedNodes g)) +
        n * g.dt * polarError S g M epsMax sigMax q δ := by
  obtain ⟨c0, c1, h1, h2, h3, h4, h5, h6, h7⟩ := objects_filled hw hl (.inl hT) objs hb hc hp hnm hu
  have grid : ∀ i j, (updatedNodes g).Mem i j → 0 ≤ i ∧ i < g.Nx ∧ 0 ≤ j ∧ j < g.Ny := by
    intro i j h
    unfold Box.Mem updatedNodes at h
    simp only at h
    omega
  have pick : ∀ i j, ∃ m : Medium, (updatedNodes g).Mem i j → m.Passive ∧ Filled c1 i j m ∧
        (∀ o, TopAt objs (g.toReal ⟨i, j⟩) o → Medium.Of o.mat.kind m) ∧ ((∀ o ∈ objs, o.inside (g.toReal ⟨i, j⟩) = false) → m = .simple Qbox.vacuum) := by
    intro i j
    by_cases h : (updatedNodes g).Mem i j
    · obtain ⟨a1, a2, a3, a4⟩ := grid i j h
      obtain ⟨m, hm⟩ := h7 i j a1 a2 a3 a4
      exact ⟨m, fun _ => hm⟩
    · exact ⟨.simple Qbox.vacuum, fun h' => absurd h' h⟩
  choose med hmed using pick
  have pt : ∀ i j : ℤ, g.toReal ⟨i, j⟩ = ⟨i * g.dx, j * g.dx⟩ := fun i j => by simp [Grid.toReal, mul_comm]
  have node : ∀ i j, (updatedNodes g).Mem i j → (med i j).base.eps = eps (i * g.dx) (j * g.dx) ∧ (med i j).base.conduc = sig (i * g.dx) (j * g.dx) ∧
      (med i j).res = res (i * g.dx) (j * g.dx) ∧ (med i j).Single ∧ ((med i j).Slow → ∃ o, TopAt objs (g.toReal ⟨i, j⟩) o ∧ MatKind.Delayed o.mat.kind) := by
    intro i j hm
    obtain ⟨-, -, k3, k4⟩ := hmed i j hm
    rcases C09_total objs (g.toReal ⟨i, j⟩) with hv | ⟨o, ho⟩
    · have := hmat.vacuum _ hv
      rw [pt] at this
      obtain ⟨a, b, c⟩ := this
      rw [k4 hv]
      simp only at a b c
      rw [a, b, c]
      exact ⟨by simp [Medium.base, Qbox.vacuum], by simp [Medium.base, Qbox.vacuum], rfl, trivial, fun h => h.elim⟩
    · have := hmat.object _ o ho
      rw [pt] at this
      obtain ⟨a, b, c, d, e⟩ := Medium.of_kind (k3 o ho) this
      exact ⟨a, b, c, d, fun h => ⟨o, ho, e h⟩⟩
  have good := fun x y => matter_good hp hmat x y
  have q0 : 0 ≤ q := (Response.stiff_nonneg (good 0 0).2.2).trans (hmax.res 0 0)
  have e0 : 1 ≤ epsMax := (good 0 0).1.trans (hmax.eps 0 0)
  have hx := hl.dx
  have dt0 : 0 < g.dt := by rw [hl.dt]; linarith
  obtain ⟨c0', j1, j2, j3, j4, -⟩ := make_empty hw hl (.inl hT)
  obtain rfl := Except.ok.inj (h1.symm.trans j1)
  have t1 : c1.t = 0 := by
    rw [insertAll_time objs c0 c1 j2.wf (fun o ho => by rw [j3]; exact safe_of_clear hl (hc o ho)) h2]
    obtain ⟨c, k, -, -, -, t, -⟩ := Core.make_std hw hl (.inl hT)
    obtain rfl := Except.ok.inj (h1.symm.trans k)
    exact t
  have eg : (withFields c1 e x y).g = g := h4
  have et : (withFields c1 e x y).t = 0 := t1
  have std : (withFields c1 e x y).Std :=
    h3.of_same { h3.wf with f := { h3.wf.f with Ez := h3.wf.f.Ez, Hx := h3.wf.f.Hx, Hy := h3.wf.f.Hy } } rfl rfl rfl rfl
  have fl : ∀ i j m, Filled c1 i j m → Filled (withFields c1 e x y) i j m := by
    intro i j m h
    cases m with
    | simple m =>
      have h' : InSimple c1 m i j := h
      exact ⟨h'.debye, h'.drude, h'.lorentz, ⟨h'.medium.Ca, h'.medium.Cb, h'.medium.Da, h'.medium.Db⟩⟩
    | debye k m =>
      obtain ⟨n, P, b, a, F, q⟩ := h
      exact ⟨n, P, b, a, ⟨F.entry, F.others, F.drude, F.lorentz, ⟨F.medium.Ca, F.medium.Cb, F.medium.Da, F.medium.Db⟩, F.strength⟩, q⟩
    | drude k m =>
      obtain ⟨n, P, b, a, F, q⟩ := h
      exact ⟨n, P, b, a, ⟨F.entry, F.others, F.debye, F.lorentz, ⟨F.medium.Ca, F.medium.Cb, F.medium.Da, F.medium.Db⟩, F.strength⟩, q⟩
  have disp : Dispersive (withFields c1 e x y) med (updatedNodes (withFields c1 e x y).g) := by
    rw [eg]
    refine ⟨fun i j h => ?_, fun i j h => fl i j _ (hmed i j h).2.1, fun i j h => (hmed i j h).1, h6⟩
    rw [eg]
    unfold Box.Mem updatedNodes at h
    simp only at h
    constructor <;> rw [hT] <;> omega
  have rem : Remembers (withFields c1 e x y) med := ⟨std, by rw [eg, hT], h5.tfsf, disp, by rw [eg]; exact fun i j h => (node i j h).2.2.2.1,
    ⟨fun q hq i j N _ _ _ _ _ _ _ => h5.debye q hq i j N, fun q hq i j N _ _ _ _ _ _ _ => h5.drude q hq i j N⟩,
    by rw [eg]; exact within_frame fun i j h => hout i j h⟩
  obtain ⟨d, md⟩ := mix_exists 1 (-1) (withFields c1 e x y).f (sampled w g 0 (withFields c1 e x y).f)
  have hmd : ∀ i j, (updatedNodes g).Mem i j → (med i j).base.eps = eps (i * g.dx) (j * g.dx) ∧ (med i j).base.conduc = sig (i * g.dx) (j * g.dx) ∧
      1 ≤ (med i j).base.eps ∧ (med i j).base.eps ≤ epsMax ∧ 0 ≤ (med i j).base.conduc ∧ (med i j).base.conduc ≤ sigMax := by
    intro i j h
    obtain ⟨a, b, -⟩ := node i j h
    rw [a, b]
    exact ⟨rfl, rfl, (good _ _).1, hmax.eps _ _, (good _ _).2.1, hmax.sig _ _⟩
  have hre : ∀ i j, (updatedNodes g).Mem i j → (med i j).res = res (i * g.dx) (j * g.dx) ∧ (med i j).res.Passive ∧ (med i j).res.stiff ≤ q := by
    intro i j h
    rw [(node i j h).2.2.1]
    exact ⟨rfl, (good _ _).2.2, hmax.res _ _⟩
  obtain ⟨c2, l2, r, k, g2, d2, md2, er⟩ := polar_error_run hw hl hT hwl hsm hst hmx hI hK hδ e0 hmd hre q0 n 0 _ rem eg (by rw [et]; simp)
    (by push_cast; linarith) srcs fits hk
    (by
      intro i j hm hsl t
      obtain ⟨o, k1, k2⟩ := (node i j hm).2.2.2.2 hsl
      exact ho t i j o k1 k2) d md
  refine ⟨c0, c1, c2, l2, h1, h2, r, ?_⟩
  have b1 : (updatedNodes g).l ≤ (updatedNodes g).r + 1 := by have := hw.nx; simp only [updatedNodes]; omega
  have b2 : (updatedNodes g).b ≤ (updatedNodes g).t + 1 := by have := hw.ny; simp only [updatedNodes]; omega
  have q2 : FrameQuiet d2 (updatedNodes g) := md2.quiet (by rw [← g2]; exact k.frame) (sampled_quiet ..)
  have df := sqrt_size hl (med := fun i j => (med i j).base) b1 b2 (fun i j h => (hmd i j h).2.2.1) q2
  rw [zero_add] at md2
  rw [gap_eq_size n md2, gap_eq_size 0 md]
  have wd : Within d (updatedNodes g) := by
    intro i j h
    have s1 : (sampled w g 0 (withFields c1 e x y).f).Ez.val i j = 0 := if_neg h
    have s2 : (sampled w g 0 (withFields c1 e x y).f).Hx.val i j = 0 := if_neg h
    have s3 : (sampled w g 0 (withFields c1 e x y).f).Hy.val i j = 0 := if_neg h
    have v1 : (withFields c1 e x y).f.Ez.val i j = e i j := rfl
    have v2 : (withFields c1 e x y).f.Hx.val i j = x i j := rfl
    have v3 : (withFields c1 e x y).f.Hy.val i j = y i j := rfl
    obtain ⟨o1, o2, o3⟩ := hout i j h
    rw [md.Ez, md.Hx, md.Hy, s1, s2, s3, v1, v2, v3, o1, o2, o3]
    norm_num
  have start : ptotal g (fun i j => (med i j).base) (fun i j => (med i j).res) d
      (fun i j => (med i j).cur (withFields c1 e x y) i j - K ((0 : ℕ) * g.dt) (i * g.dx) (j * g.dx)) (updatedNodes g) ≤
      (epsMax + q ^ 2 + 1) / 2 * size g d (updatedNodes g) := by
    have en := energy_le_size hl b1 b2 e0 (med := fun i j => (med i j).base) (fun i j h => (hmd i j h).2.2.2.1) wd
    have st : (updatedNodes g).sum (fun i j => (med i j).res.store (d.Ez.val i j)
          ((med i j).cur (withFields c1 e x y) i j - K ((0 : ℕ) * g.dt) (i * g.dx) (j * g.dx))) ≤
        (updatedNodes g).sum fun i j => q ^ 2 / 2 * (d.Ez.val i j ^ 2 + d.Hx.val i j ^ 2 + d.Hy.val i j ^ 2) := by
      refine Box.sum_le _ fun i j h => ?_
      have dom : InDomain g (i * g.dx) (j * g.dx) := by
        unfold Box.Mem updatedNodes at h
        simp only at h
        exact ⟨node_pos hl (by omega), node_le_x hl (by omega), node_pos hl (by omega), node_le_y hl (by omega)⟩
      have z1 : K ((0 : ℕ) * g.dt) (i * g.dx) (j * g.dx) = 0 := by rw [Nat.cast_zero, zero_mul]; exact hrK _ _ dom
      have z3 : (med i j).cur (withFields c1 e x y) i j = 0 := by
        cases (med i j) with
        | simple m => rfl
        | debye k m =>
          simp only [Medium.cur]
          split
          · rename_i q e; exact h5.debye q (List.mem_of_getElem? e) i j 0
          · rfl
        | drude k m =>
          simp only [Medium.cur]
          split
          · rename_i q e; exact h5.drude q (List.mem_of_getElem? e) i j 0
          · rfl
      rw [z1, z3, sub_zero]
      refine (store_still (hre i j h).2.1 (hre i j h).2.2 _).trans (mul_le_mul_of_nonneg_left ?_ (by positivity))
      linarith [sq_nonneg (d.Hx.val i j), sq_nonneg (d.Hy.val i j)]
    rw [Box.sum_mul] at st
    have st' := mul_le_mul_of_nonneg_left st (sq_nonneg g.dx)
    unfold ptotal
    unfold size at en ⊢
    linarith
  have es := Real.sqrt_le_sqrt start
  rw [Real.sqrt_mul (by positivity)] at es
  have en : Real.sqrt (energy g (fun i j => (med i j).base) d2 (updatedNodes g)) ≤ Real.sqrt (ptotal g (fun i j => (med i j).base) (fun i j => (med i j).res) d2
      (fun i j => (med i j).cur c2 i j - K ((0 + n : ℕ) * g.dt) (i * g.dx) (j * g.dx)) (updatedNodes g)) := by
    refine Real.sqrt_le_sqrt ?_
    unfold ptotal
    have := store_sum_nonneg (g := g) (res := fun i j => (med i j).res) (fun i j h => (hre i j h).2.1) d2
      (fun i j => (med i j).cur c2 i j - K ((0 + n : ℕ) * g.dt) (i * g.dx) (j * g.dx))
    linarith
  have s8 := Real.sqrt_nonneg 8
  have two : Real.sqrt 8 * Real.sqrt ((epsMax + q ^ 2 + 1) / 2) = 2 * Real.sqrt (epsMax + q ^ 2 + 1) := by
    rw [← Real.sqrt_mul (by norm_num)]
    rw [show 8 * ((epsMax + q ^ 2 + 1) / 2) = 2 ^ 2 * (epsMax + q ^ 2 + 1) by ring, Real.sqrt_mul (by norm_num), Real.sqrt_sq (by norm_num)]
  have ce : Real.sqrt 8 * (Real.sqrt ((epsMax + 2) / 2) * Real.sqrt (4 * (g.Lx * g.Ly * ((epsMax + sigMax + q + 9) / 16 * M * g.dx ^ 2 + δ) ^ 2 +
      crossedArea S g (updatedNodes g) * ((epsMax + sigMax + q + 4) * M + δ) ^ 2))) = polarError S g M epsMax sigMax q δ := by
    unfold polarError
    rw [← mul_assoc, ← Real.sqrt_mul (by norm_num), ← Real.sqrt_mul (by linarith)]
    congr 1
    show _ = 16 * (epsMax + 2) * (_ + crossedArea S g (updatedNodes g) * _)
    ring
  have a := mul_le_mul_of_nonneg_left (en.trans (er.trans (add_le_add_left es _))) s8
  refine df.trans (a.trans (le_of_eq ?_))
  rw [← ce, ← two]
  ring

/-- **C85**. A program that makes a closed domain, adds objects of passive simple media, Debye media and Drude media of at most one pole, none covered by
another one, and sources of `Ez` outside the media with memory, and takes any number of steps. For every solution of Maxwell's equations and of the equations of the media
that starts from rest: if the sources carry its current up to `δ`, then the program runs without a fault, and its fields differ from the solution by at
most a term of second order in the size of the cells and the time multiplied by `δ` and a term of second order; to this is added the contribution of
those cells in which the solution is not smooth. -/
theorem C85_solves (n : ℕ) (g : Grid ℝ) (hw : g.Wide) (hl : Lawful g) (hT : g.T = 0) (objs : List (Object ℝ)) (hb : ∀ o ∈ objs, BoxSound o)
    (hc : ∀ o ∈ objs, ClearOfUnguardedEdges g o) (hp : ∀ o ∈ objs, PassiveKind o.mat.kind) (hnm : OneMeaning objs) (hu : Uncovered g objs)
    (eps sig : ℝ → ℝ → ℝ) (res : ℝ → ℝ → Response) (hmat : MatterOf objs eps sig res) (epsMax sigMax q : ℝ) (hmax : MatterAtMost eps sig res epsMax sigMax q)
    (w : Spec.Wave) (K Kt I : ℝ → ℝ → ℝ → ℝ) (S : ℝ → ℝ → Prop) (τ M δ : ℝ) (hsm : w.Smooth S g τ M) (hst : w.Steady g τ M)
    (hmx : w.Driven S eps sig (fun t x y => K t x y + I t x y) g τ) (hK : w.Polarized K Kt S res g τ M) (hI : CurrentAtMost I g τ M) (hwl : w.Walls g τ)
    (hr : w.AtRest g) (hrK : ∀ x y, InDomain g x y → K 0 x y = 0) (srcs : List (Source ℝ)) (fits : ∀ s ∈ srcs, Fits g s) (hδ : 0 ≤ δ)
    (hk : Spec.Carries g srcs eps sig I τ δ) (ho : OutsideMemory g objs srcs) (hn : ((n : ℝ) + 1 / 2) * g.dt ≤ τ) :
    ∃ c, (⟨objs, srcs, none⟩ : Scene).run g n = .ok c ∧
      Real.sqrt (gap w g n c.f (updatedNodes g)) ≤ restError S g M (epsMax + q ^ 2) + n * g.dt * polarError S g M epsMax sigMax q δ := by
  obtain ⟨c0, c1, c2, l2, h1, h2, r, er⟩ := C85_start n g hw hl hT objs hb hc hp hnm hu eps sig res hmat epsMax sigMax q hmax w K Kt I S τ M δ hsm hst hmx hK hI hwl
    hrK srcs fits hδ hk ho hn (fun _ _ => 0) (fun _ _ => 0) (fun _ _ => 0) fun _ _ _ => ⟨rfl, rfl, rfl⟩
  have hx := hl.dx
  have dt0 : 0 < g.dt := by rw [hl.dt]; linarith
  have e0 : 1 ≤ epsMax := (matter_good hp hmat 0 0).1.trans (hmax.eps 0 0)
  obtain ⟨c0', j1, j2, j3, j4, -⟩ := make_empty hw hl (.inl hT)
  obtain rfl := Except.ok.inj (h1.symm.trans j1)
  obtain ⟨c1', i1, i2, i3, i4⟩ := Core.Std.insertAll objs j2 j4 fun o ho => by rw [j3]; exact safe_of_clear hl (hc o ho)
  obtain rfl := Except.ok.inj (h2.symm.trans i1)
  have same : withFields c1 (fun _ _ => 0) (fun _ _ => 0) (fun _ _ => 0) = c1 := by
    have e1 : c1.f.Ez.setv (fun _ _ => 0) = c1.f.Ez := Tensor.ext' rfl rfl fun x y => (i4.Ez x y).symm
    have e2 : c1.f.Hx.setv (fun _ _ => 0) = c1.f.Hx := Tensor.ext' rfl rfl fun x y => (i4.Hx x y).symm
    have e3 : c1.f.Hy.setv (fun _ _ => 0) = c1.f.Hy := Tensor.ext' rfl rfl fun x y => (i4.Hy x y).symm
    unfold withFields
    rw [e1, e2, e3]
  rw [same] at r er
  refine ⟨c2, ?_, ?_⟩
  · unfold Scene.run
    simp only [h1, h2, r, bind, Except.bind, pure, Except.pure]
  have rg := rest_gap hw hl hT hsm hst hmx hr (by nlinarith [Nat.cast_nonneg (α := ℝ) n]) (f := c1.f) fun i j => ⟨i4.Ez i j, i4.Hx i j, i4.Hy i j⟩
  have re : 2 * Real.sqrt (epsMax + q ^ 2 + 1) * Real.sqrt (gap w g 0 c1.f (updatedNodes g)) ≤ restError S g M (epsMax + q ^ 2) := by
    refine (mul_le_mul_of_nonneg_left (Real.sqrt_le_sqrt rg) (by positivity)).trans (le_of_eq ?_)
    unfold restError
    rw [show 12 * (epsMax + q ^ 2 + 1) = (2 * Real.sqrt (epsMax + q ^ 2 + 1)) ^ 2 * 3 by rw [mul_pow, Real.sq_sqrt (by positivity)]; ring]
    rw [mul_assoc ((2 * Real.sqrt (epsMax + q ^ 2 + 1)) ^ 2), Real.sqrt_mul (sq_nonneg (2 * Real.sqrt (epsMax + q ^ 2 + 1))), Real.sqrt_sq (by positivity)]
    rfl
  linarith

theorem radiators_outside {g : Grid ℝ} (hl : Lawful g) {objs : List (Object ℝ)} (eps sig : ℝ → ℝ → ℝ) {I : ℝ → ℝ → ℝ → ℝ} (a : ℝ)
    (hz : ∀ t p o, TopAt objs p o → MatKind.Delayed o.mat.kind → I t p.x p.y = 0) : OutsideMemory g objs (radiators g eps sig I a) := by
  intro t i j o h1 h2
  have pt : g.toReal ⟨i, j⟩ = ⟨i * g.dx, j * g.dx⟩ := by simp [Grid.toReal, mul_comm]
  have z := hz (t + a) _ o h1 h2
  rw [pt] at z
  simp only at z
  by_cases hm : (⟨i, j⟩ : V2 ℤ) ∈ innerNodes g
  · refine (currents_at hl (innerNodes_nodup g) hm).trans ?_
    simp only
    rw [z]
    simp
  · exact currents_not hl fun _ => hm

open Classical in
/-- **C85** for programs that start from the solution and have a point source at every node outside the media with memory, half a step behind the clock: the error
is of second order in the size of the cells. -/
theorem C85_behind (n : ℕ) (g : Grid ℝ) (hw : g.Wide) (hl : Lawful g) (hT : g.T = 0) (objs : List (Object ℝ)) (hb : ∀ o ∈ objs, BoxSound o)
    (hc : ∀ o ∈ objs, ClearOfUnguardedEdges g o) (hp : ∀ o ∈ objs, PassiveKind o.mat.kind) (hnm : OneMeaning objs) (hu : Uncovered g objs)
    (eps sig : ℝ → ℝ → ℝ) (res : ℝ → ℝ → Response) (hmat : MatterOf objs eps sig res) (epsMax sigMax q : ℝ) (hmax : MatterAtMost eps sig res epsMax sigMax q)
    (w : Spec.Wave) (K Kt I : ℝ → ℝ → ℝ → ℝ) (S : ℝ → ℝ → Prop) (τ M : ℝ) (hsm : w.Smooth S g τ M) (hst : w.Steady g τ M)
    (hmx : w.Driven S eps sig (fun t x y => K t x y + I t x y) g τ) (hK : w.Polarized K Kt S res g τ M) (hI : CurrentAtMost I g τ M) (hwl : w.Walls g τ)
    (hrK : ∀ x y, InDomain g x y → K 0 x y = 0) (hz : ∀ t p o, TopAt objs p o → MatKind.Delayed o.mat.kind → I t p.x p.y = 0)
    (hn : ((n : ℝ) + 1 / 2) * g.dt ≤ τ) :
    ∃ c0 c1 c2 srcs', Core.make g = .ok c0 ∧ forList objs c0 (fun o c => c.insertObject o) = .ok c1 ∧
      (withFields c1 (fun i j => if (updatedNodes g).Mem i j then w.nodeE g 0 i j else 0) (fun i j => if (updatedNodes g).Mem i j then w.nodeX g 0 i j else 0)
        (fun i j => if (updatedNodes g).Mem i j then w.nodeY g 0 i j else 0)).run n (radiators g eps sig I (- (g.dt / 2))) = .ok (c2, srcs') ∧
      Real.sqrt (gap w g n c2.f (updatedNodes g)) ≤ n * g.dt * polarError S g M epsMax sigMax q 0 := by
  obtain ⟨c0, c1, c2, l2, h1, h2, r, er⟩ := C85_start n g hw hl hT objs hb hc hp hnm hu eps sig res hmat epsMax sigMax q hmax w K Kt I S τ M 0 hsm hst hmx hK hI hwl
    hrK (radiators g eps sig I (- (g.dt / 2))) (radiators_fit hl eps sig I _) le_rfl
    (radiators_carry hl I (fun i j _ => ⟨(matter_good hp hmat _ _).1, (matter_good hp hmat _ _).2.1⟩) fun m i j _ _ => by
      rw [show ((m : ℝ) + 1) * g.dt + - (g.dt / 2) = (m + 1 / 2) * g.dt by ring, sub_self, abs_zero])
    (radiators_outside hl eps sig _ hz) hn
    (fun i j => if (updatedNodes g).Mem i j then w.nodeE g 0 i j else 0) (fun i j => if (updatedNodes g).Mem i j then w.nodeX g 0 i j else 0)
    (fun i j => if (updatedNodes g).Mem i j then w.nodeY g 0 i j else 0) fun i j h => ⟨if_neg h, if_neg h, if_neg h⟩
  refine ⟨c0, c1, c2, l2, h1, h2, r, er.trans (le_of_eq ?_)⟩
  have z : gap w g 0 (withFields c1 (fun i j => if (updatedNodes g).Mem i j then w.nodeE g 0 i j else 0)
      (fun i j => if (updatedNodes g).Mem i j then w.nodeX g 0 i j else 0) (fun i j => if (updatedNodes g).Mem i j then w.nodeY g 0 i j else 0)).f (updatedNodes g) = 0 := by
    unfold gap
    have : ∀ F : ℤ → ℤ → ℝ, (∀ i j, (updatedNodes g).Mem i j → F i j = 0) → (updatedNodes g).sum F = 0 := by
      intro F hF
      rw [Box.sum_congr _ (G := fun _ _ => 0) hF]
      unfold Box.sum
      simp
    rw [this _ fun i j h => ?_, mul_zero]
    have a1 : (withFields c1 (fun i j => if (updatedNodes g).Mem i j then w.nodeE g 0 i j else 0) (fun i j => if (updatedNodes g).Mem i j then w.nodeX g 0 i j else 0)
      (fun i j => if (updatedNodes g).Mem i j then w.nodeY g 0 i j else 0)).f.Ez.val i j = w.nodeE g 0 i j := if_pos h
    have a2 : (withFields c1 (fun i j => if (updatedNodes g).Mem i j then w.nodeE g 0 i j else 0) (fun i j => if (updatedNodes g).Mem i j then w.nodeX g 0 i j else 0)
      (fun i j => if (updatedNodes g).Mem i j then w.nodeY g 0 i j else 0)).f.Hx.val i j = w.nodeX g 0 i j := if_pos h
    have a3 : (withFields c1 (fun i j => if (updatedNodes g).Mem i j then w.nodeE g 0 i j else 0) (fun i j => if (updatedNodes g).Mem i j then w.nodeX g 0 i j else 0)
      (fun i j => if (updatedNodes g).Mem i j then w.nodeY g 0 i j else 0)).f.Hy.val i j = w.nodeY g 0 i j := if_pos h
    rw [a1, a2, a3]
    ring
  rw [z, Real.sqrt_zero, mul_zero, zero_add]

/-- Why C85 asks for sources outside the media with memory: the pole of a Debye medium never learns what a source adds to the field at its node. The law of the pole lacks
`dEps s / dt` in every step in which the source adds `s`. -/
theorem C85_unfelt {c : Core ℝ} (hc : c.Std) (srcs : List (Source ℝ)) (hs : ∀ s ∈ srcs, Fits c.g s) (ht : c.tfsf = none) (hl : c.lorentz = []) {i j : ℤ}
    (hb : Beyond c.g i j) {k : ℕ} {m : Debye ℝ} {p : DebyePole ℝ} (he : m.poles = [p]) (hp : (Medium.debye k m).Passive) (hm : Filled c i j (.debye k m)) :
    ∃ c' srcs', c.update srcs = .ok (c', srcs') ∧
      p.tau * ((Medium.debye k m).cur c' i j - (Medium.debye k m).cur c i j) / c.g.dt + ((Medium.debye k m).cur c' i j + (Medium.debye k m).cur c i j) / 2 =
        p.dEps * (c'.f.Ez.val i j - c.f.Ez.val i j) / c.g.dt - p.dEps * addedE c.g srcs (c.t + c.g.dt) i j / c.g.dt := by
  obtain ⟨c', l, E2, E3, E4, f, u, S⟩ := Core.update_step hc srcs hs
  refine ⟨c', l, u, ?_⟩
  obtain ⟨-, -, h⟩ := memory_blind hc S ht hl hb hp (by simp [Medium.Single, he]) hm
  simp only [Medium.res, he, Response.step] at h
  have add : totalContrib c.g (c.t + c.g.dt) srcs .Ez ⟨i, j⟩ = addedE c.g srcs (c.t + c.g.dt) i j := rfl
  rw [add] at h
  linear_combination h

/-- Why C85 asks for sources outside the media with memory: the pole of a Drude medium never learns what a source adds to the field at its node. The law of the pole lacks
`omega² s / 2` in every step in which the source adds `s`. -/
theorem C85_unfelt_drude {c : Core ℝ} (hc : c.Std) (srcs : List (Source ℝ)) (hs : ∀ s ∈ srcs, Fits c.g s) (ht : c.tfsf = none) (hl : c.lorentz = []) {i j : ℤ}
    (hb : Beyond c.g i j) {k : ℕ} {m : Drude ℝ} {p : DrudePole ℝ} (he : m.poles = [p]) (hp : (Medium.drude k m).Passive) (hm : Filled c i j (.drude k m)) :
    ∃ c' srcs', c.update srcs = .ok (c', srcs') ∧
      ((Medium.drude k m).cur c' i j - (Medium.drude k m).cur c i j) / c.g.dt + p.gamma * ((Medium.drude k m).cur c' i j + (Medium.drude k m).cur c i j) / 2 =
        p.omega ^ 2 * (c'.f.Ez.val i j + c.f.Ez.val i j) / 2 - p.omega ^ 2 * addedE c.g srcs (c.t + c.g.dt) i j / 2 := by
  obtain ⟨c', l, E2, E3, E4, f, u, S⟩ := Core.update_step hc srcs hs
  refine ⟨c', l, u, ?_⟩
  obtain ⟨-, -, h⟩ := memory_blind hc S ht hl hb hp (by simp [Medium.Single, he]) hm
  simp only [Medium.res, he, Response.step] at h
  have add : totalContrib c.g (c.t + c.g.dt) srcs .Ez ⟨i, j⟩ = addedE c.g srcs (c.t + c.g.dt) i j := rfl
  rw [add] at h
  linear_combination h

end Props
end Qbox
