import Verif.Spec.LitPolarSpec
import Verif.Lemmas.LitPolar
import Verif.Props.PolarProps
import Verif.Props.ScatterProps

/-! # C106: scattering by Debye and Drude media -/

namespace Qbox.Props
open Scalar Spec

set_option maxHeartbeats 1000000 in
/-- One step: the distance between the scattered fields and currents of a program and those of the wave, in the norm of the energy. -/
theorem lit_error_step {w : Spec.Wave} {s : ℝ → ℝ} {y0 : ℝ} {S : ℝ → ℝ → Prop} {g : Grid ℝ} {τ M δ η : ℝ} (hwd : g.Wide) (hl : Lawful g) (hT : g.T = 0)
    (hw : w.Walls g τ) (hs : w.Smooth S g τ M) (hb : w.Steady g τ M) {eps sig : ℝ → ℝ → ℝ} {K Kt I : ℝ → ℝ → ℝ → ℝ}
    (hm : w.Driven S eps sig (fun t x y => K t x y + I t x y) g τ)
    (hI : CurrentAtMost I g τ M) {res : ℝ → ℝ → Response} (hK : (w.illumined s y0).Polarized K Kt S res g τ M) (hη : 0 ≤ η) {med : ℤ → ℤ → Medium}
    {epsMax sigMax q : ℝ} (h0 : 1 ≤ epsMax)
    (he : ∀ i j, (updatedNodes g).Mem i j → (med i j).base.eps = eps (i * g.dx) (j * g.dx) ∧ (med i j).base.conduc = sig (i * g.dx) (j * g.dx) ∧
      1 ≤ (med i j).base.eps ∧ (med i j).base.eps ≤ epsMax ∧ 0 ≤ (med i j).base.conduc ∧ (med i j).base.conduc ≤ sigMax)
    (hr : ∀ i j, (updatedNodes g).Mem i j → (med i j).res = res (i * g.dx) (j * g.dx) ∧ (med i j).res.Passive ∧ (med i j).res.stiff ≤ q) (q0 : 0 ≤ q)
    {m : ℕ} (ht3 : ((m : ℝ) + 3 / 2) * g.dt ≤ τ) {D D' : Flds ℝ} {κ κ' pE a a' : ℤ → ℤ → ℝ}
    (laws : Laws g (fun i j => (med i j).base) (updatedNodes g) D D' (fun i j => pE i j - ((med i j).res.flow (κ' i j) + (med i j).res.flow (κ i j)) / 2)
      (fun _ _ => 0) (fun _ _ => 0))
    (poles : ∀ i j, (updatedNodes g).Mem i j → (med i j).res.step g.dt (D.Ez.val i j + a i j) (D'.Ez.val i j + a' i j) (κ i j) (κ' i j) 0)
    (qD : FrameQuiet D (updatedNodes g)) (qD' : FrameQuiet D' (updatedNodes g))
    (near : ∀ i j, (updatedNodes g).Mem i j → |pE i j + I ((m + 1 / 2) * g.dt) (i * g.dx) (j * g.dx)| ≤ δ)
    (inc : ∀ i j, (updatedNodes g).Mem i j → (med i j).res ≠ .plain → |(a' i j - a i j) / g.dt - planeEt s y0 ((m + 1 / 2) * g.dt) (j * g.dx)| ≤ η ∧
      |(a' i j + a i j) / 2 - planeE s y0 ((m + 1 / 2) * g.dt) (j * g.dx)| ≤ η ∧ |planeEt s y0 ((m + 1 / 2) * g.dt) (j * g.dx)| ≤ M ∧
      |planeE s y0 ((m + 1 / 2) * g.dt) (j * g.dx)| ≤ M)
    {d d' : Flds ℝ} (md : Mix 1 (-1) D (sampled w g m D) d) (md1 : Mix 1 (-1) D' (sampled w g (m + 1) D') d') :
    Real.sqrt (ptotal g (fun i j => (med i j).base) (fun i j => (med i j).res) d'
          (fun i j => κ' i j - K ((m + 1 : ℕ) * g.dt) (i * g.dx) (j * g.dx)) (updatedNodes g)) ≤
        Real.sqrt (ptotal g (fun i j => (med i j).base) (fun i j => (med i j).res) d
          (fun i j => κ i j - K (m * g.dt) (i * g.dx) (j * g.dx)) (updatedNodes g)) +
          Real.sqrt ((epsMax + 2) / 2) * (g.dt * Real.sqrt (4 * (g.Lx * g.Ly * ((epsMax + sigMax + q + 9) / 16 * (2 * M) * g.dx ^ 2 + (δ + q * η)) ^ 2 +
            crossedArea S g (updatedNodes g) * ((epsMax + sigMax + q + 4) * (2 * M) + (δ + q * η)) ^ 2))) := by
  have b1 : (updatedNodes g).l ≤ (updatedNodes g).r + 1 := by have := hwd.nx; simp only [updatedNodes]; omega
  have b2 : (updatedNodes g).b ≤ (updatedNodes g).t + 1 := by have := hwd.ny; simp only [updatedNodes]; omega
  have hx := hl.dx
  have dt0 : 0 < g.dt := by rw [hl.dt]; linarith
  have m0 : (0 : ℝ) ≤ m := Nat.cast_nonneg m
  obtain ⟨rE, rX, rY, L, bd⟩ := driven_laws hl hw hs hb hm he (n := m) ht3 D D'
  have qd : FrameQuiet d (updatedNodes g) := md.quiet qD (sampled_quiet ..)
  have qd1 : FrameQuiet d' (updatedNodes g) := md1.quiet qD' (sampled_quiet ..)
  have M0 : 0 ≤ M := by
    refine (abs_nonneg (I 0 0 0)).trans (hI 0 0 0 le_rfl ?_ ⟨le_rfl, ?_, le_rfl, ?_⟩)
    · refine le_trans ?_ ht3
      positivity
    · have := node_le_x hl (k := 0) (by have := hwd.nx; omega)
      simpa using this
    · have := node_le_y hl (k := 0) (by have := hwd.ny; omega)
      simpa using this
  have sE : ∀ i j, (updatedNodes g).Mem i j → (sampled w g m D).Ez.val i j = w.nodeE g m i j := fun i j hm => if_pos hm
  have sE1 : ∀ i j, (updatedNodes g).Mem i j → (sampled w g (m + 1) D').Ez.val i j = w.nodeE g (m + 1) i j := fun i j hm => if_pos hm
  have inner : ∀ i j, (updatedNodes g).Mem i j → InDomain g (i * g.dx) (j * g.dx) := by
    intro i j hm
    unfold Box.Mem updatedNodes at hm
    simp only at hm
    exact ⟨node_pos hl (by omega), node_le_x hl (by omega), node_pos hl (by omega), node_le_y hl (by omega)⟩
  have ta : 0 ≤ (m : ℝ) * g.dt := by positivity
  have tb0 : 0 ≤ ((m : ℝ) + 1 / 2) * g.dt := by positivity
  have tb : ((m : ℝ) + 1 / 2) * g.dt ≤ τ := by nlinarith
  have tc : ((m : ℝ) + 1) * g.dt ≤ τ := by nlinarith
  have tc0 : 0 ≤ ((m : ℝ) + 1) * g.dt := by positivity
  have cast : ((m + 1 : ℕ) : ℝ) = (m : ℝ) + 1 := by push_cast; ring
  have k2 : g.dt ^ 2 = g.dx ^ 2 / 4 := by rw [hl.dt]; ring
  have flows : ∀ i j, (updatedNodes g).Mem i j →
      (¬ Crossed S g i j →
        |((med i j).res.flow (K ((m + 1 : ℕ) * g.dt) (i * g.dx) (j * g.dx)) + (med i j).res.flow (K (m * g.dt) (i * g.dx) (j * g.dx))) / 2 -
          K ((m + 1 / 2) * g.dt) (i * g.dx) (j * g.dx)| ≤ 1 / 16 * M * g.dx ^ 2) ∧
        |((med i j).res.flow (K ((m + 1 : ℕ) * g.dt) (i * g.dx) (j * g.dx)) + (med i j).res.flow (K (m * g.dt) (i * g.dx) (j * g.dx))) / 2| ≤ M := by
    intro i j hmem
    have dom := inner i j hmem
    obtain ⟨r1, r2, r3⟩ := hr i j hmem
    constructor
    · intro nc
      have s0 : S (i * g.dx) (j * g.dx) := by_contra fun hn => nc (.inl ⟨i * g.dx, by linarith, by linarith, hn⟩)
      have a4 := middle (hK.tame _ _ dom s0) dt0 (p := m * g.dt) (q := (m + 1) * g.dt) (s := (m + 1 / 2) * g.dt) (by ring) (by ring) ta tc
      have B1 : M * g.dt ^ 2 / 4 = 1 / 16 * M * g.dx ^ 2 := by rw [k2]; ring
      rw [B1] at a4
      have law := hK.law ((m + 1 / 2) * g.dt) _ _ tb0 tb dom s0
      rw [← r1] at law
      rw [cast]
      revert law
      generalize (med i j).res = r
      cases r with
      | plain =>
        intro law
        simp only [Response.Law] at law
        simp only [Response.flow]
        rw [law]
        norm_num
        positivity
      | debye _ _ => intro _; exact a4
      | drude _ _ => intro _; exact a4
    · have k1 := hK.atMost ((m + 1) * g.dt) _ _ tc0 tc dom
      have k2 := hK.atMost (m * g.dt) _ _ ta (by linarith) dom
      rw [cast]
      rw [abs_le] at k1 k2
      generalize (med i j).res = r
      cases r with
      | plain => simp only [Response.flow]; norm_num; exact M0
      | debye _ _ => simp only [Response.flow]; rw [abs_le]; constructor <;> linarith [k1.1, k1.2, k2.1, k2.2]
      | drude _ _ => simp only [Response.flow]; rw [abs_le]; constructor <;> linarith [k1.1, k1.2, k2.1, k2.2]
  have pick : ∀ i j, ∃ rJ z, (updatedNodes g).Mem i j →
      (med i j).res.step g.dt (w.nodeE g m i j + a i j) (w.nodeE g (m + 1) i j + a' i j) (K (m * g.dt) (i * g.dx) (j * g.dx))
        (K ((m + 1 : ℕ) * g.dt) (i * g.dx) (j * g.dx)) rJ ∧ (med i j).res.weight * rJ ^ 2 = z ^ 2 ∧
      (¬ Crossed S g i j → |z| ≤ q * (1 / 16 * M * g.dx ^ 2 + η)) ∧ |z| ≤ q * (2 * M + η) := by
    intro i j
    by_cases hmem : (updatedNodes g).Mem i j
    · by_cases hpl : (med i j).res = .plain
      · refine ⟨0, 0, fun _ => ⟨by rw [hpl]; trivial, by rw [hpl]; simp [Response.weight], fun _ => ?_, ?_⟩⟩ <;> rw [abs_zero] <;> positivity
      obtain ⟨r1, r2, r3⟩ := hr i j hmem
      obtain ⟨i1, i2, i3, i4⟩ := inc i j hmem hpl
      have dom := inner i j hmem
      obtain ⟨rJ, z, p1, p2, p3⟩ := Response.residual r2 (dt := g.dt) r3 (w.nodeE g m i j + a i j) (w.nodeE g (m + 1) i j + a' i j)
        (K (m * g.dt) (i * g.dx) (j * g.dx)) (K ((m + 1 : ℕ) * g.dt) (i * g.dx) (j * g.dx))
      refine ⟨rJ, z, fun _ => ⟨p1, p2, fun nc => ?_, ?_⟩⟩
      · have s0 : S (i * g.dx) (j * g.dx) := by_contra fun hn => nc (.inl ⟨i * g.dx, by linarith, by linarith, hn⟩)
        have a1 := slope (hs.Et _ _ dom s0) dt0 (p := m * g.dt) (q := (m + 1) * g.dt) (s := (m + 1 / 2) * g.dt) (by ring) (by ring) ta tc
        have a2 := middle (hs.Et _ _ dom s0) dt0 (p := m * g.dt) (q := (m + 1) * g.dt) (s := (m + 1 / 2) * g.dt) (by ring) (by ring) ta tc
        have a3 := slope (hK.tame _ _ dom s0) dt0 (p := m * g.dt) (q := (m + 1) * g.dt) (s := (m + 1 / 2) * g.dt) (by ring) (by ring) ta tc
        have a4 := middle (hK.tame _ _ dom s0) dt0 (p := m * g.dt) (q := (m + 1) * g.dt) (s := (m + 1 / 2) * g.dt) (by ring) (by ring) ta tc
        have B1 : M * g.dt ^ 2 / 4 = 1 / 16 * M * g.dx ^ 2 := by rw [k2]; ring
        rw [B1] at a1 a2 a3 a4
        have law := hK.law ((m + 1 / 2) * g.dt) _ _ tb0 tb dom s0
        rw [← r1] at law
        refine p3 (1 / 16 * M * g.dx ^ 2 + η) _ _ _ _ (by positivity) ?_ ?_ (by rw [cast]; exact a3.trans (by linarith)) (by rw [cast]; exact a4.trans (by linarith)) law
        · unfold Wave.nodeE Wave.illumined
          simp only
          rw [cast]
          refine le_trans (le_of_eq ?_) ((abs_add_le _ _).trans (add_le_add a1 i1))
          congr 1
          ring
        · unfold Wave.nodeE Wave.illumined
          simp only
          rw [cast]
          refine le_trans (le_of_eq ?_) ((abs_add_le _ _).trans (add_le_add a2 i2))
          congr 1
          ring
      · have quo : ∀ {a b : ℝ}, |a - b| ≤ M * ((m + 1) * g.dt - m * g.dt) → |(a - b) / g.dt| ≤ M := by
          intro a b hh
          rw [abs_div, abs_of_pos dt0, div_le_iff₀ dt0]
          linarith
        have half : ∀ {a b : ℝ}, |a| ≤ M → |b| ≤ M → |(a + b) / 2| ≤ M := by
          intro a b ha hb
          rw [abs_le] at ha hb ⊢
          constructor <;> linarith [ha.1, ha.2, hb.1, hb.2]
        have le1 : (m : ℝ) * g.dt ≤ (m + 1) * g.dt := by linarith
        have tm' : (m : ℝ) * g.dt ≤ τ := by linarith
        have c1 := quo (hb.Et _ _ _ _ ta le1 tc dom)
        have c2 := half (hb.E0 _ _ _ tc0 tc dom) (hb.E0 _ _ _ ta tm' dom)
        have c3 := quo (hK.steady _ _ _ _ ta le1 tc dom)
        have c4 := half (hK.atMost _ _ _ tc0 tc dom) (hK.atMost _ _ _ ta tm' dom)
        refine p3 (2 * M + η) 0 0 0 0 (by positivity) ?_ ?_ (by rw [cast, sub_zero]; exact c3.trans (by linarith)) (by rw [cast, sub_zero]; exact c4.trans (by linarith))
          (Response.law_zero _)
        · unfold Wave.nodeE
          rw [cast, sub_zero, show ∀ e e' : ℝ, (e' + a' i j - (e + a i j)) / g.dt = (e' - e) / g.dt + (a' i j - a i j) / g.dt from fun e e' => by ring]
          rw [abs_le] at c1 i1 i3 ⊢
          constructor <;> linarith [c1.1, c1.2, i1.1, i1.2, i3.1, i3.2]
        · unfold Wave.nodeE
          rw [cast, sub_zero, show ∀ e e' : ℝ, (e' + a' i j + (e + a i j)) / 2 = (e' + e) / 2 + (a' i j + a i j) / 2 from fun e e' => by ring]
          rw [abs_le] at c2 i2 i4 ⊢
          constructor <;> linarith [c2.1, c2.2, i2.1, i2.2, i4.1, i4.2]
    · exact ⟨0, 0, fun h' => absurd h' hmem⟩
  choose rJ z hz using pick
  have bound := spread_bound4 hwd hl hT (S := S) (A := (epsMax + sigMax + q + 9) / 16 * (2 * M) * g.dx ^ 2 + (δ + q * η))
        (B := (epsMax + sigMax + q + 4) * (2 * M) + (δ + q * η))
        (rE := fun i j => rE i j + ((med i j).res.flow (K ((m + 1 : ℕ) * g.dt) (i * g.dx) (j * g.dx)) +
          (med i j).res.flow (K (m * g.dt) (i * g.dx) (j * g.dx))) / 2 - pE i j)
        (rX := fun i j => rX i j - 0) (rY := fun i j => rY i j - 0) (rZ := z) fun i j hm => by
          have k1 := near i j hm
          have δ0 : 0 ≤ δ := (abs_nonneg _).trans k1
          have k2 := hI _ _ _ tb0 tb (inner i j hm)
          obtain ⟨p, p1, p2, p3⟩ := bd i j hm
          obtain ⟨-, -, z1, z2⟩ := hz i j hm
          obtain ⟨v, v3⟩ := flows i j hm
          have W0 : 0 ≤ M * g.dx ^ 2 := by positivity
          have es0 : 0 ≤ epsMax + sigMax := by linarith [(he i j hm).2.2.2.2.1, (he i j hm).2.2.2.2.2]
          have y1 : 0 ≤ (epsMax + sigMax) * (M * g.dx ^ 2) := mul_nonneg es0 W0
          have y2 : 0 ≤ q * (M * g.dx ^ 2) := mul_nonneg q0 W0
          have y3 : 0 ≤ (epsMax + sigMax) * M := mul_nonneg es0 M0
          have y4 : 0 ≤ q * M := mul_nonneg q0 M0
          have y5 : 0 ≤ q * η := mul_nonneg q0 hη
          simp only [sub_zero]
          rw [abs_le] at k1 k2 p1 v3
          refine ⟨fun hc => ?_, ?_, by linarith, by linarith, by linarith⟩
          · obtain ⟨o1, o2, o3⟩ := p hc
            have v2 := v hc
            have z1 := z1 hc
            refine ⟨?_, by linarith, by linarith, by linarith⟩
            rw [abs_le] at o1 v2 ⊢
            constructor <;> linarith [o1.1, o1.2, v2.1, v2.2, k1.1, k1.2]
          · rw [abs_le]
            constructor <;> linarith [k1.1, k1.2, k2.1, k2.2, p1.1, p1.2, v3.1, v3.2]
  exact polar_steps hl b1 b2 (med := fun i j => (med i j).base) (res := fun i j => (med i j).res) (fun i j hm => (hr i j hm).2.1) (epsMax := epsMax)
    (fun i j hm => ⟨(he i j hm).2.2.1, (he i j hm).2.2.2.1⟩) (fun i j hm => (he i j hm).2.2.2.2.1)
    (f := D) (f' := D') (s := sampled w g m D) (s' := sampled w g (m + 1) D') (K := κ) (K' := κ')
    (L := fun i j => K (m * g.dt) (i * g.dx) (j * g.dx)) (L' := fun i j => K ((m + 1 : ℕ) * g.dt) (i * g.dx) (j * g.dx))
    (pE := pE) (pX := fun _ _ => 0) (pY := fun _ _ => 0) (pJ := fun i j => 0 + (med i j).res.lead g.dt (a i j) (a' i j))
    (rE := fun i j => rE i j + ((med i j).res.flow (K ((m + 1 : ℕ) * g.dt) (i * g.dx) (j * g.dx)) +
          (med i j).res.flow (K (m * g.dt) (i * g.dx) (j * g.dx))) / 2)
    (rX := rX) (rY := rY) (rJ := fun i j => rJ i j + (med i j).res.lead g.dt (a i j) (a' i j))
    (D := Real.sqrt (4 * (g.Lx * g.Ly * ((epsMax + sigMax + q + 9) / 16 * (2 * M) * g.dx ^ 2 + (δ + q * η)) ^ 2 +
          crossedArea S g (updatedNodes g) * ((epsMax + sigMax + q + 4) * (2 * M) + (δ + q * η)) ^ 2)))
    laws ⟨fun i j hm => by have := L.ampere i j hm; simpa only [add_sub_cancel_right] using this, L.faradayX, L.faradayY⟩
    (fun i j hm => Response.step_lead (poles i j hm))
    (fun i j hm => by rw [sE i j hm, sE1 i j hm]; exact Response.step_lead (hz i j hm).1) h0 (Real.sqrt_nonneg _) (by
      refine le_trans (le_of_eq ?_) (le_trans bound (le_of_eq (Real.sq_sqrt ?_).symm))
      · congr 1
        refine Box.sum_congr _ fun i j hm => ?_
        simp only [sub_zero]
        rw [← (hz i j hm).2.1]
        ring
      · exact le_trans (mul_nonneg (sq_nonneg _) (Box.sum_nonneg _ fun i j _ => by positivity)) bound) md md1 qd qd1

/-- The incident wave of the program in the rows of the region: its rate of change and its mean over a step. -/
theorem line_rates {g : Grid ℝ} (hl : Lawful g) {vol : Vol ℝ} {s : ℝ → ℝ} (hr : ClearRegion g (g.toGrid vol.a) (g.toGrid vol.b)) {M τ : ℝ} (hsm : SmoothStart s M)
    {e h : ℕ → ℤ → ℝ} (W : LineWave s g.dt ((g.toGrid vol.b).y - (g.toGrid vol.a).y + 5) e h) (n : ℕ) (ht : ((n : ℝ) + 1) * g.dt ≤ τ) {j : ℤ}
    (k3 : (g.toGrid vol.a).y ≤ j) (k4 : j ≤ (g.toGrid vol.b).y) :
    |(e (n + 1) (j - (g.toGrid vol.a).y + 3) - e n (j - (g.toGrid vol.a).y + 3)) / g.dt - planeEt s (entry g vol) ((n + 1 / 2) * g.dt) (j * g.dx)| ≤
      inducedError M g.dt τ (rows g vol) 1 ∧
    |(e (n + 1) (j - (g.toGrid vol.a).y + 3) + e n (j - (g.toGrid vol.a).y + 3)) / 2 - planeE s (entry g vol) ((n + 1 / 2) * g.dt) (j * g.dx)| ≤
      inducedError M g.dt τ (rows g vol) 1 := by
  have hd : 0 < g.dt := by rw [hl.dt]; linarith [hl.dx]
  have M0 := hsm.nonneg
  have r0 : 0 ≤ rows g vol := by
    unfold rows
    have : 0 ≤ (g.toGrid vol.b).y - (g.toGrid vol.a).y + 1 := by omega
    exact_mod_cast this
  have τ0 : 0 ≤ τ := le_trans (by positivity) ht
  set en := e n (j - (g.toGrid vol.a).y + 3)
  set en' := e (n + 1) (j - (g.toGrid vol.a).y + 3)
  have a0 := line_E hl hr W hsm n k3 k4
  have a1 := line_E hl hr W hsm (n + 1) k3 k4
  have a2 := line_step hl hr W hsm n k3 k4
  set c := ((n : ℝ) + 1 / 2) * g.dt - (j * g.dx - entry g vol) with hc
  have p0 : planeE s (entry g vol) (n * g.dt) (j * g.dx) = s (c - g.dt / 2) := by unfold planeE; congr 1; rw [hc]; ring
  have p1 : planeE s (entry g vol) ((n + 1) * g.dt) (j * g.dx) = s (c + g.dt / 2) := by unfold planeE; congr 1; rw [hc]; ring
  have p2 : planeE s (entry g vol) ((n + 1 / 2) * g.dt) (j * g.dx) = s c := rfl
  have p3 : planeEt s (entry g vol) ((n + 1 / 2) * g.dt) (j * g.dx) = deriv s c := rfl
  push_cast at a1
  rw [p0] at a0 a2
  rw [p1] at a1 a2
  rw [p2, p3]
  have b1 := hsm.central c (g.dt / 2) (by positivity)
  have b2 := hsm.mean c (g.dt / 2) (by positivity)
  set Q := 80 * τ * ((rows g vol + 1) * (M * g.dt ^ 3)) with hQ
  have le1 : incidentError M g.dt (n + 1) (rows g vol) ≤ Q := by
    unfold incidentError
    have pp : 0 ≤ 80 * ((rows g vol + 1) * (M * g.dt ^ 3)) := by positivity
    have := mul_le_mul_of_nonneg_right ht pp
    rw [hQ]
    push_cast
    linarith [this]
  have le0 : incidentError M g.dt n (rows g vol) ≤ Q := by
    refine le_trans ?_ le1
    unfold incidentError
    push_cast
    have pp : 0 ≤ 80 * ((rows g vol + 1) * (M * g.dt ^ 4)) := by positivity
    linarith
  have ie : inducedError M g.dt τ (rows g vol) 1 = Q + M * g.dt ^ 2 := by unfold inducedError; rw [hQ]; ring
  rw [ie]
  exact ⟨rate_bound a2 le1 b1 hd M0, mean_bound a0 a1 le0 le1 b2 M0⟩

/-- The distance of the sum of two fields from the sum of the scattered and the incident wave. -/
theorem lit_triangle {g : Grid ℝ} (hw : g.Wide) (hl : Lawful g) (hT : g.T = 0) {vol : Vol ℝ} {s : ℝ → ℝ} {w : Spec.Wave} {n : ℕ} {c u d : Flds ℝ} {A B : ℝ} (e0 : 0 ≤ A)
    (e0' : 0 ≤ B) (m : Mix 1 (-1) c u d)
    (inc : ∀ i j, |u.Ez.val i j - incidentE g vol s n i j| ≤ A ∧ |u.Hx.val i j - incidentX g vol s n i j| ≤ B ∧ u.Hy.val i j = 0) :
    Real.sqrt (litGap w vol s g n c (updatedNodes g)) ≤ Real.sqrt (gap w g n d (updatedNodes g)) + (A + B) * Real.sqrt (g.Lx * g.Ly) := by
  unfold litGap gap
  rw [Real.sqrt_mul (sq_nonneg _), Real.sqrt_mul (sq_nonneg _)]
  have tri := sqrt_sum_triangle (updatedNodes g) (fun i j => d.Ez.val i j - w.nodeE g n i j) (fun i j => d.Hx.val i j - w.nodeX g n i j)
    (fun i j => d.Hy.val i j - w.nodeY g n i j) (fun i j => u.Ez.val i j - incidentE g vol s n i j)
    (fun i j => u.Hx.val i j - incidentX g vol s n i j) (fun i j => u.Hy.val i j)
  have cst := l2_const hw hl hT (M := A + B) (by positivity) (F := fun _ _ => A + B) (fun _ _ _ => by rw [abs_of_nonneg (by positivity)])
  unfold l2 at cst
  rw [Real.sqrt_mul (sq_nonneg _)] at cst
  have small : (updatedNodes g).sum (fun i j => (u.Ez.val i j - incidentE g vol s n i j) ^ 2 + (u.Hx.val i j - incidentX g vol s n i j) ^ 2 +
      u.Hy.val i j ^ 2) ≤ (updatedNodes g).sum fun _ _ => (A + B) ^ 2 :=
    Box.sum_le _ fun i j _ => by
      obtain ⟨k1, k2, k3⟩ := inc i j
      rw [k3]
      have s1 := sq_le_sq' (abs_le.mp k1).1 (abs_le.mp k1).2
      have s2 := sq_le_sq' (abs_le.mp k2).1 (abs_le.mp k2).2
      nlinarith [mul_nonneg e0 e0']
  have fields : (updatedNodes g).sum (fun i j => (c.Ez.val i j - (w.nodeE g n i j + incidentE g vol s n i j)) ^ 2 +
      (c.Hx.val i j - (w.nodeX g n i j + incidentX g vol s n i j)) ^ 2 + (c.Hy.val i j - w.nodeY g n i j) ^ 2) =
      (updatedNodes g).sum fun i j => (d.Ez.val i j - w.nodeE g n i j + (u.Ez.val i j - incidentE g vol s n i j)) ^ 2 +
        (d.Hx.val i j - w.nodeX g n i j + (u.Hx.val i j - incidentX g vol s n i j)) ^ 2 + (d.Hy.val i j - w.nodeY g n i j + u.Hy.val i j) ^ 2 :=
    Box.sum_congr _ fun i j _ => by
      rw [m.Ez, m.Hx, m.Hy]
      ring
  rw [fields]
  refine (mul_le_mul_of_nonneg_left tri (Real.sqrt_nonneg _)).trans ?_
  rw [mul_add]
  exact add_le_add_right ((mul_le_mul_of_nonneg_left (Real.sqrt_le_sqrt small) (Real.sqrt_nonneg _)).trans cst) _

set_option maxHeartbeats 2000000 in
/-- **C106** In exact arithmetic, a program with a total-field region in a domain without absorbing layer solves the scattering problem of objects of simple media, Debye
media and Drude media of at most one pole, none covered by another one, inside the region, with a signal that starts smoothly, and sources of `Ez` outside the media with
memory. The scattered wave `w` solves Maxwell's equations with three currents: that of the sources, that which the incident wave induces in the medium without
delay, and the polarization current `K`, which follows the sum of the incident and the scattered field. The fields of the program differ from the
sum of the plane wave and the scattered wave inside the region, and from the scattered wave alone outside it, in the mean square by the errors of the scheme. -/
theorem C106_scattering (n : ℕ) (g : Grid ℝ) (hw : g.Wide) (hl : Lawful g) (hT : g.T = 0) (objs : List (Object ℝ)) (hb : ∀ o ∈ objs, BoxSound o)
    (hc : ∀ o ∈ objs, ClearOfUnguardedEdges g o) (hp : ∀ o ∈ objs, PassiveKind o.mat.kind) (hnm : OneMeaning objs) (hu : Uncovered g objs)
    (eps sig : ℝ → ℝ → ℝ) (res : ℝ → ℝ → Response) (hmat : MatterOf objs eps sig res) (epsMax sigMax q : ℝ) (hmax : MatterAtMost eps sig res epsMax sigMax q)
    (vol : Vol ℝ) (tp : TimeProfile ℝ) (hreg : ClearRegion g (g.toGrid vol.a) (g.toGrid vol.b)) (hin : AllWithin g vol objs) (Ms : ℝ) (hsig : SmoothStart tp.resp Ms)
    (w : Spec.Wave) (K Kt J : ℝ → ℝ → ℝ → ℝ) (S : ℝ → ℝ → Prop) (τ M δ : ℝ) (hsm : w.Smooth S g τ M) (hst : w.Steady g τ M) (hsM : SignalAtMost tp.resp τ M)
    (hmx : w.Driven S eps sig (fun t x y => K t x y + (J t x y + induced eps sig tp.resp (entry g vol) t x y)) g τ)
    (hK : (w.illumined tp.resp (entry g vol)).Polarized K Kt S res g τ M)
    (hI : CurrentAtMost (fun t x y => J t x y + induced eps sig tp.resp (entry g vol) t x y) g τ M) (hwl : w.Walls g τ)
    (hr : w.AtRest g) (hrK : ∀ x y, InDomain g x y → K 0 x y = 0) (srcs : List (Source ℝ)) (fits : ∀ s ∈ srcs, Fits g s)
    (hk : Spec.Carries g srcs eps sig J τ δ) (ho : OutsideMemory g objs srcs) (hn : ((n : ℝ) + 1 / 2) * g.dt ≤ τ) :
    ∃ c, (⟨objs, srcs, some (vol, tp)⟩ : Scene).run g n = .ok c ∧
      Real.sqrt (litGap w vol tp.resp g n c.f (updatedNodes g)) ≤ restError S g M (epsMax + q ^ 2) +
        n * g.dt * polarError S g (2 * M) epsMax sigMax q (δ + inducedError Ms g.dt τ (rows g vol) (epsMax - 1 + sigMax + q)) +
        (incidentError Ms g.dt n (rows g vol) + incidentErrorX Ms g.dt n (rows g vol)) * Real.sqrt (g.Lx * g.Ly) := by
  obtain ⟨c0, c1, h1, h2, h3, h4, h5, h6, h7⟩ := objects_filled hw hl (.inl hT) objs hb hc hp hnm hu
  obtain ⟨c0', c1', bt⟩ := built hw hl (.inl hT) hb hc
  obtain rfl := Except.ok.inj (h1.symm.trans bt.make)
  obtain rfl := Except.ok.inj (h2.symm.trans bt.ins)
  have hx := hl.dx
  have dt0 : 0 < g.dt := by rw [hl.dt]; linarith
  have Ms0 := hsig.nonneg
  have r0 : 0 ≤ rows g vol := by
    unfold rows
    have : 0 ≤ (g.toGrid vol.b).y - (g.toGrid vol.a).y + 1 := by have := hreg.y; omega
    exact_mod_cast this
  have grid : ∀ i j, (updatedNodes g).Mem i j → 0 ≤ i ∧ i < g.Nx ∧ 0 ≤ j ∧ j < g.Ny := by
    intro i j h
    unfold Box.Mem updatedNodes at h
    simp only at h
    omega
  have pt : ∀ i j : ℤ, g.toReal ⟨i, j⟩ = ⟨i * g.dx, j * g.dx⟩ := fun i j => by simp [Grid.toReal, mul_comm]
  have pick : ∀ i j, ∃ m : Medium, ((updatedNodes g).Mem i j → m.Passive ∧ Filled c1 i j m ∧
        (∀ o, TopAt objs (g.toReal ⟨i, j⟩) o → Medium.Of o.mat.kind m)) ∧ ((∀ o ∈ objs, o.inside (g.toReal ⟨i, j⟩) = false) → m = .simple Qbox.vacuum) := by
    intro i j
    by_cases h : (updatedNodes g).Mem i j
    · obtain ⟨a1, a2, a3, a4⟩ := grid i j h
      obtain ⟨m, m1, m2, m3, m4⟩ := h7 i j a1 a2 a3 a4
      exact ⟨m, fun _ => ⟨m1, m2, m3⟩, m4⟩
    · exact ⟨.simple Qbox.vacuum, fun h' => absurd h' h, fun _ => rfl⟩
  choose med hmed hvac using pick
  have node : ∀ i j, (updatedNodes g).Mem i j → (med i j).base.eps = eps (i * g.dx) (j * g.dx) ∧ (med i j).base.conduc = sig (i * g.dx) (j * g.dx) ∧
      (med i j).res = res (i * g.dx) (j * g.dx) ∧ (med i j).Single ∧ ((med i j).Slow → ∃ o, TopAt objs (g.toReal ⟨i, j⟩) o ∧ MatKind.Delayed o.mat.kind) := by
    intro i j hm
    obtain ⟨-, -, k3⟩ := hmed i j hm
    rcases C09_total objs (g.toReal ⟨i, j⟩) with hv | ⟨o, ho⟩
    · have := hmat.vacuum _ hv
      rw [pt] at this
      obtain ⟨a, b, c⟩ := this
      rw [hvac i j hv]
      simp only at a b c
      rw [a, b, c]
      exact ⟨by simp [Medium.base, Qbox.vacuum], by simp [Medium.base, Qbox.vacuum], rfl, trivial, fun h => h.elim⟩
    · have := hmat.object _ o ho
      rw [pt] at this
      obtain ⟨a, b, c, d, e⟩ := Medium.of_kind (k3 o ho) this
      exact ⟨a, b, c, d, fun h => ⟨o, ho, e h⟩⟩
  have good := fun x y => matter_good hp hmat x y
  have q0 : 0 ≤ q := (Response.stiff_nonneg (good 0 0).2.2).trans (hmax.res 0 0)
  have e0 : 1 ≤ epsMax := (good 0 0).1.trans (hmax.eps 0 0)
  have sg0 : 0 ≤ sigMax := (good 0 0).2.1.trans (hmax.sig 0 0)
  -- a node is in the vacuum or in the region
  have where_ : ∀ i j, med i j = .simple Qbox.vacuum ∨
      ((g.toGrid vol.a).x ≤ i ∧ i ≤ (g.toGrid vol.b).x ∧ (g.toGrid vol.a).y < j ∧ j < (g.toGrid vol.b).y) := by
    intro i j
    rcases C09_total objs (g.toReal ⟨i, j⟩) with hv | ⟨o, ho⟩
    · exact .inl (hvac i j hv)
    · exact .inr (hin o (top_mem ho).1 i j (top_mem ho).2)
  have hmd : ∀ i j, (updatedNodes g).Mem i j → (med i j).base.eps = eps (i * g.dx) (j * g.dx) ∧ (med i j).base.conduc = sig (i * g.dx) (j * g.dx) ∧
      1 ≤ (med i j).base.eps ∧ (med i j).base.eps ≤ epsMax ∧ 0 ≤ (med i j).base.conduc ∧ (med i j).base.conduc ≤ sigMax := by
    intro i j h
    obtain ⟨a, b, -⟩ := node i j h
    rw [a, b]
    exact ⟨rfl, rfl, (good _ _).1, hmax.eps _ _, (good _ _).2.1, hmax.sig _ _⟩
  have hre : ∀ i j, (updatedNodes g).Mem i j → (med i j).res = res (i * g.dx) (j * g.dx) ∧ (med i j).res.Passive ∧ (med i j).res.stiff ≤ q := by
    intro i j h
    rw [(node i j h).2.2.1]
    exact ⟨rfl, (good _ _).2.2, hmax.res _ _⟩
  -- both programs
  have fw : TfsfFits g vol := by
    obtain ⟨x1, x2⟩ := hreg.edge
    obtain ⟨y1, y2, y3, y4⟩ := hreg.hi
    have := hreg.x
    have := hreg.y
    rw [hT] at y2 y4
    exact ⟨by omega, by omega, by omega, by omega, by omega, by omega⟩
  have sL : (c1.setTfsf vol tp).Std := View.Std_setTfsf (w := (vol, tp)) h3 (by rw [h4]; exact fw)
  have sU : (c0.setTfsf vol tp).Std := View.Std_setTfsf (w := (vol, tp)) bt.std0 (by rw [bt.g0]; exact fw)
  have gL : (c1.setTfsf vol tp).g = g := h4
  have gU : (c0.setTfsf vol tp).g = g := bt.g0
  obtain ⟨cs, ls, E2, E3, E4, fs, R⟩ := Core.trace sL srcs (by rw [gL]; exact fits)
  obtain ⟨us, ks, F2, F3, F4, fs', Q⟩ := Core.trace sU [] (by simp)
  have knil : ∀ m, ks m = [] := fun m => List.eq_nil_of_length_eq_zero (by have := (Q.same m).length_eq; simpa using this.symm)
  have apart : SourcesApart g med srcs := by
    intro i j hm hsl t
    obtain ⟨o, k1, k2⟩ := (node i j hm).2.2.2.2 hsl
    exact ho t i j o k1 k2
  have beyond : ∀ i j, (updatedNodes g).Mem i j → Beyond g i j := by
    intro i j h
    unfold Box.Mem updatedNodes at h
    simp only at h
    constructor <;> rw [hT] <;> omega
  have start : LitPair (c1.setTfsf vol tp) (c0.setTfsf vol tp) med (g.toGrid vol.a) (g.toGrid vol.b) := by
    refine ⟨sL, sU, ⟨sL.unlit, ?_, rfl, ?_, ?_, ?_, ?_⟩, ⟨sU.unlit, ?_, rfl, ?_, ?_, ?_, ?_⟩, ?_, ?_, ?_⟩
    · rw [show (c1.setTfsf vol tp).unlit.g = g from h4, hT]
    · rw [show (c1.setTfsf vol tp).unlit.g = g from h4]
      exact ⟨by rw [show (c1.setTfsf vol tp).unlit.g = g from h4]; exact beyond,
        fun i j h => Spec.Filled.move (c := c1) (d := (c1.setTfsf vol tp).unlit) rfl rfl rfl rfl ⟨rfl, rfl, rfl, rfl⟩ (hmed i j h).2.1,
        fun i j h => (hmed i j h).1, h6⟩
    · rw [show (c1.setTfsf vol tp).unlit.g = g from h4]; exact fun i j h => (node i j h).2.2.2.1
    · exact ⟨fun q hq i j N _ _ _ _ _ _ _ => h5.debye q hq i j N, fun q hq i j N _ _ _ _ _ _ _ => h5.drude q hq i j N⟩
    · exact within_frame fun i j _ => ⟨h5.Ez i j, h5.Hx i j, h5.Hy i j⟩
    · rw [show (c0.setTfsf vol tp).unlit.g = g from bt.g0, hT]
    · rw [show (c0.setTfsf vol tp).unlit.g = g from bt.g0]
      refine ⟨by rw [show (c0.setTfsf vol tp).unlit.g = g from bt.g0]; exact beyond, fun i j h => ?_,
        fun i j h => by simp [emptySpace, Medium.Passive, Qbox.vacuum], bt.empty0.lorentz⟩
      obtain ⟨a1, a2, a3, a4⟩ := grid i j h
      refine ⟨fun q hq => ?_, fun q hq => ?_, fun q hq => ?_, bt.empty0.medium i j a1 (by rw [bt.g0]; exact a2) a3 (by rw [bt.g0]; exact a4)⟩
      · rw [show (c0.setTfsf vol tp).unlit.debye = [] from bt.empty0.debye] at hq; simp at hq
      · rw [show (c0.setTfsf vol tp).unlit.drude = [] from bt.empty0.drude] at hq; simp at hq
      · rw [show (c0.setTfsf vol tp).unlit.lorentz = [] from bt.empty0.lorentz] at hq; simp at hq
    · exact fun _ _ _ => trivial
    · refine ⟨fun q hq => ?_, fun q hq => ?_⟩
      · rw [show (c0.setTfsf vol tp).unlit.debye = [] from bt.empty0.debye] at hq; simp at hq
      · rw [show (c0.setTfsf vol tp).unlit.drude = [] from bt.empty0.drude] at hq; simp at hq
    · exact within_frame fun i j _ => ⟨bt.silent0.Ez i j, bt.silent0.Hx i j, bt.silent0.Hy i j⟩
    · rw [gU, gL]
    · show some (Tfsf.make c0.g tp vol c0.g.dt) = some (Tfsf.make c1.g tp vol c1.g.dt)
      rw [bt.g0, h4]
    · intro v hv
      obtain rfl := Option.some.inj (show some (Tfsf.make c1.g tp vol c1.g.dt) = some v from hv)
      rw [h4]
      exact ⟨rfl, rfl, rfl, rfl⟩
  have edge : ∀ i j, ((g.toGrid vol.a).x ≤ i ∧ i ≤ (g.toGrid vol.b).x) ∧ (j = (g.toGrid vol.a).y ∨ j = (g.toGrid vol.b).y) → med i j = .simple Qbox.vacuum := by
    intro i j h
    rcases where_ i j with k | k
    · exact k
    · omega
  have gcs : ∀ m, (cs m).g = g := fun m => by rw [R.g, gL]
  have tcs : ∀ m, (cs m).t = m * g.dt := fun m => by rw [R.clock, gL, show (c1.setTfsf vol tp).t = c1.t from rfl, bt.t, zero_add]
  have fls : ∀ m, ∀ s ∈ ls m, Fits (cs m).g s := by
    intro m
    cases m with
    | zero => rw [R.l0, R.c0, gL]; exact fits
    | succ m => exact (R.step m).fits
  have cls : ∀ m, Spec.Carries (cs m).g (ls m) eps sig J τ δ := fun m => by rw [gcs]; exact hk.same (R.same m)
  have als : ∀ m, SourcesApart (cs m).g med (ls m) := fun m => by rw [gcs]; exact apart.same (R.same m)
  have uSt : ∀ m, (us m).Step [] (us (m + 1)) [] (F2 m) (F3 m) (F4 m) (fs' m) := fun m => by
    have := Q.step m
    rwa [knil, knil] at this
  choose D mD using fun m => mix_exists 1 (-1) (cs m).f (us m).f
  have pair : ∀ m, LitPair (cs m) (us m) med (g.toGrid vol.a) (g.toGrid vol.b) := by
    intro m
    induction m with
    | zero => rw [R.c0, Q.c0]; exact start
    | succ m ih => exact (ih.step (fls m) (R.step m) (uSt m) (cls m) (als m) (by rw [gcs]; exact hreg) edge (mD m) (mD (m + 1))).1
  choose d md using fun m => mix_exists 1 (-1) (D m) (sampled w g m (D m))
  have W := lineWave_exists tp.resp g.dt (N := (g.toGrid vol.b).y - (g.toGrid vol.a).y + 5) (by have := hreg.y; omega)
  generalize (fun n => (lineAt tp.resp g.dt ((g.toGrid vol.b).y - (g.toGrid vol.a).y + 5) n).e) = e at W
  generalize (fun n => (lineAt tp.resp g.dt ((g.toGrid vol.b).y - (g.toGrid vol.a).y + 5) n).h) = h at W
  have fills : ∀ m, FillsOnly (us m).f (g.toGrid vol.a) (g.toGrid vol.b) (e m) (h m) := by
    intro m
    obtain ⟨v, hv, F⟩ := wave_run m g hw hl (.inl hT) vol tp hreg e h W
    rw [bt.run0 [] (some (vol, tp)) (Q.run m)] at hv
    obtain rfl := Except.ok.inj hv
    exact F
  have τ0 : 0 ≤ τ := le_trans (by positivity) hn
  have ie : ∀ k, inducedError Ms g.dt τ (rows g vol) k = k * inducedError Ms g.dt τ (rows g vol) 1 := fun k => by unfold inducedError; ring
  set η := inducedError Ms g.dt τ (rows g vol) 1 with hη
  have η0 : 0 ≤ η := by rw [hη]; unfold inducedError; positivity
  set C := Real.sqrt ((epsMax + 2) / 2) * (g.dt * Real.sqrt (4 * (g.Lx * g.Ly * ((epsMax + sigMax + q + 9) / 16 * (2 * M) * g.dx ^ 2 +
    (δ + (epsMax - 1 + sigMax) * η + q * η)) ^ 2 + crossedArea S g (updatedNodes g) * ((epsMax + sigMax + q + 4) * (2 * M) +
    (δ + (epsMax - 1 + sigMax) * η + q * η)) ^ 2))) with hC
  have err : ∀ m : ℕ, ((m : ℝ) + 1 / 2) * g.dt ≤ τ → Real.sqrt (ptotal g (fun i j => (med i j).base) (fun i j => (med i j).res) (d m)
          (fun i j => (med i j).cur (cs m) i j - K (m * g.dt) (i * g.dx) (j * g.dx)) (updatedNodes g)) ≤
        Real.sqrt (ptotal g (fun i j => (med i j).base) (fun i j => (med i j).res) (d 0)
          (fun i j => (med i j).cur (cs 0) i j - K ((0 : ℕ) * g.dt) (i * g.dx) (j * g.dx)) (updatedNodes g)) + m * C := by
    intro m
    induction m with
    | zero => intro _; simp
    | succ m ih =>
      intro hτ
      have ht3 : ((m : ℝ) + 3 / 2) * g.dt ≤ τ := by push_cast at hτ; linarith
      have tc : ((m : ℝ) + 1) * g.dt ≤ τ := by linarith
      have tb : ((m : ℝ) + 1 / 2) * g.dt ≤ τ := by linarith
      obtain ⟨-, laws, poles, q1, q2⟩ := (pair m).step (fls m) (R.step m) (uSt m) (cls m) (als m) (by rw [gcs]; exact hreg) edge (mD m) (mD (m + 1))
      rw [gcs] at laws poles q1 q2
      have rates : ∀ i j, (g.toGrid vol.a).x ≤ i → i ≤ (g.toGrid vol.b).x → (g.toGrid vol.a).y < j → j < (g.toGrid vol.b).y →
          |((us (m + 1)).f.Ez.val i j - (us m).f.Ez.val i j) / g.dt - planeEt tp.resp (entry g vol) ((m + 1 / 2) * g.dt) (j * g.dx)| ≤ η ∧
          |((us (m + 1)).f.Ez.val i j + (us m).f.Ez.val i j) / 2 - planeE tp.resp (entry g vol) ((m + 1 / 2) * g.dt) (j * g.dx)| ≤ η := by
        intro i j k1 k2 k3 k4
        rw [(fills m).Ez_in i j k1 k2 k3.le k4.le, (fills (m + 1)).Ez_in i j k1 k2 k3.le k4.le]
        exact line_rates hl hreg hsig W m tc k3.le k4.le
      have one := lit_error_step hw hl hT hwl hsm hst hmx hI hK η0 e0 hmd hre q0 ht3 (κ := fun i j => (med i j).cur (cs m) i j)
        (κ' := fun i j => (med i j).cur (cs (m + 1)) i j) (δ := δ + (epsMax - 1 + sigMax) * η) laws poles q1 q2
        (fun i j hm => by
          have hm' := hm
          unfold Box.Mem updatedNodes at hm'
          simp only at hm'
          have k := (cls m).node m i j (by omega) (by rw [gcs]; omega) (by omega) (by rw [gcs]; omega) (by rw [gcs]; exact tc)
          rw [gcs] at k
          rw [tcs, show (m : ℝ) * g.dt + g.dt = (m + 1) * g.dt by ring]
          obtain ⟨v1, v2, v3, v4, v5, v6⟩ := hmd i j hm
          rw [v1, v2]
          rw [v1] at v3 v4
          rw [v2] at v5 v6
          unfold induced
          rcases where_ i j with hv | ⟨k1, k2, k3, k4⟩
          · rw [hv] at v1 v2
            simp only [Medium.base, Qbox.vacuum] at v1 v2
            rw [← v1, ← v2] at k ⊢
            refine le_trans (le_of_eq ?_) (k.trans (by have : 0 ≤ (epsMax - 1 + sigMax) * η := mul_nonneg (by linarith) η0
                                                       linarith))
            congr 1
            ring
          · obtain ⟨d1, d2⟩ := rates i j k1 k2 k3 k4
            have w1 := mul_le_mul (by linarith : eps (i * g.dx) (j * g.dx) - 1 ≤ epsMax - 1) d1 (abs_nonneg _) (by linarith)
            have w2 := mul_le_mul v6 d2 (abs_nonneg _) sg0
            rw [← abs_of_nonneg (by linarith : 0 ≤ eps (i * g.dx) (j * g.dx) - 1), ← abs_mul] at w1
            rw [← abs_of_nonneg v5, ← abs_mul] at w2
            rw [abs_le] at k w1 w2 ⊢
            constructor <;> linarith [k.1, k.2, w1.1, w1.2, w2.1, w2.2])
        (fun i j hm hpl => by
          rcases where_ i j with hv | ⟨k1, k2, k3, k4⟩
          · exact absurd (by rw [hv]; rfl) hpl
          · obtain ⟨d1, d2⟩ := rates i j k1 k2 k3 k4
            have below : ((m : ℝ) + 1 / 2) * g.dt - (j * g.dx - entry g vol) ≤ τ := by
              unfold entry
              have : ((g.toGrid vol.a).y : ℝ) < j := by exact_mod_cast k3
              nlinarith
            exact ⟨d1, d2, (hsM _ below).2, (hsM _ below).1⟩)
        (md m) (md (m + 1))
      have prev := ih tb
      refine one.trans ?_
      rw [← hC]
      push_cast at prev ⊢
      linarith
  refine ⟨cs n, bt.run srcs (some (vol, tp)) (R.run n), ?_⟩
  obtain ⟨v, hv, inc⟩ := C99_incident n g hw hl (.inl hT) vol tp hreg Ms hsig
  rw [bt.run0 [] (some (vol, tp)) (Q.run n)] at hv
  obtain rfl := Except.ok.inj hv
  refine (lit_triangle hw hl hT (w := w) (by unfold incidentError; positivity) (by unfold incidentErrorX incidentError; positivity) (mD n) inc).trans
    (add_le_add_left ?_ _)
  have b1 : (updatedNodes g).l ≤ (updatedNodes g).r + 1 := by have := hw.nx; simp only [updatedNodes]; omega
  have b2 : (updatedNodes g).b ≤ (updatedNodes g).t + 1 := by have := hw.ny; simp only [updatedNodes]; omega
  have qn : FrameQuiet (D n) (updatedNodes g) := by
    have := ((pair n).step (fls n) (R.step n) (uSt n) (cls n) (als n) (by rw [gcs]; exact hreg) edge (mD n) (mD (n + 1))).2.2.2.1
    rwa [gcs] at this
  have q2 : FrameQuiet (d n) (updatedNodes g) := (md n).quiet qn (sampled_quiet ..)
  have df := sqrt_size hl (med := fun i j => (med i j).base) b1 b2 (fun i j h => (hmd i j h).2.2.1) q2
  have zero : ∀ i j, (D 0).Ez.val i j = 0 ∧ (D 0).Hx.val i j = 0 ∧ (D 0).Hy.val i j = 0 := by
    intro i j
    have m0 := mD 0
    rw [R.c0, Q.c0] at m0
    have z1 : (c1.setTfsf vol tp).f = c1.f := rfl
    have z2 : (c0.setTfsf vol tp).f = c0.f := rfl
    rw [m0.Ez, m0.Hx, m0.Hy, z1, z2, h5.Ez i j, h5.Hx i j, h5.Hy i j, bt.silent0.Ez i j, bt.silent0.Hx i j, bt.silent0.Hy i j]
    norm_num
  have wd : Within (d 0) (updatedNodes g) := by
    intro i j h
    have s1 : (sampled w g 0 (D 0)).Ez.val i j = 0 := if_neg h
    have s2 : (sampled w g 0 (D 0)).Hx.val i j = 0 := if_neg h
    have s3 : (sampled w g 0 (D 0)).Hy.val i j = 0 := if_neg h
    obtain ⟨o1, o2, o3⟩ := zero i j
    rw [(md 0).Ez, (md 0).Hx, (md 0).Hy, s1, s2, s3, o1, o2, o3]
    norm_num
  have start : ptotal g (fun i j => (med i j).base) (fun i j => (med i j).res) (d 0)
      (fun i j => (med i j).cur (cs 0) i j - K ((0 : ℕ) * g.dt) (i * g.dx) (j * g.dx)) (updatedNodes g) ≤
      (epsMax + q ^ 2 + 1) / 2 * size g (d 0) (updatedNodes g) := by
    have en := energy_le_size hl b1 b2 e0 (med := fun i j => (med i j).base) (fun i j h => (hmd i j h).2.2.2.1) wd
    have st : (updatedNodes g).sum (fun i j => (med i j).res.store ((d 0).Ez.val i j)
          ((med i j).cur (cs 0) i j - K ((0 : ℕ) * g.dt) (i * g.dx) (j * g.dx))) ≤
        (updatedNodes g).sum fun i j => q ^ 2 / 2 * ((d 0).Ez.val i j ^ 2 + (d 0).Hx.val i j ^ 2 + (d 0).Hy.val i j ^ 2) := by
      refine Box.sum_le _ fun i j h => ?_
      have dom : InDomain g (i * g.dx) (j * g.dx) := by
        unfold Box.Mem updatedNodes at h
        simp only at h
        exact ⟨node_pos hl (by omega), node_le_x hl (by omega), node_pos hl (by omega), node_le_y hl (by omega)⟩
      have z1 : K ((0 : ℕ) * g.dt) (i * g.dx) (j * g.dx) = 0 := by rw [Nat.cast_zero, zero_mul]; exact hrK _ _ dom
      have z3 : (med i j).cur (cs 0) i j = 0 := by
        rw [R.c0]
        cases (med i j) with
        | simple m => rfl
        | debye k m =>
          simp only [Medium.cur]
          split
          · rename_i q e; exact h5.debye q (List.mem_of_getElem? e) i j 0
          · rfl
        | drude k m =>
          simp only [Medium.cur]
          split
          · rename_i q e; exact h5.drude q (List.mem_of_getElem? e) i j 0
          · rfl
      rw [z1, z3, sub_zero]
      refine (store_still (hre i j h).2.1 (hre i j h).2.2 _).trans (mul_le_mul_of_nonneg_left ?_ (by positivity))
      linarith [sq_nonneg ((d 0).Hx.val i j), sq_nonneg ((d 0).Hy.val i j)]
    rw [Box.sum_mul] at st
    have st' := mul_le_mul_of_nonneg_left st (sq_nonneg g.dx)
    unfold ptotal
    unfold size at en ⊢
    linarith
  have es := Real.sqrt_le_sqrt start
  rw [Real.sqrt_mul (by positivity)] at es
  have en : Real.sqrt (energy g (fun i j => (med i j).base) (d n) (updatedNodes g)) ≤ Real.sqrt (ptotal g (fun i j => (med i j).base) (fun i j => (med i j).res) (d n)
      (fun i j => (med i j).cur (cs n) i j - K (n * g.dt) (i * g.dx) (j * g.dx)) (updatedNodes g)) := by
    refine Real.sqrt_le_sqrt ?_
    unfold ptotal
    have := store_sum_nonneg (g := g) (res := fun i j => (med i j).res) (fun i j h => (hre i j h).2.1) (d n)
      (fun i j => (med i j).cur (cs n) i j - K (n * g.dt) (i * g.dx) (j * g.dx))
    linarith
  have s8 := Real.sqrt_nonneg 8
  have two : Real.sqrt 8 * Real.sqrt ((epsMax + q ^ 2 + 1) / 2) = 2 * Real.sqrt (epsMax + q ^ 2 + 1) := by
    rw [← Real.sqrt_mul (by norm_num)]
    rw [show 8 * ((epsMax + q ^ 2 + 1) / 2) = 2 ^ 2 * (epsMax + q ^ 2 + 1) by ring, Real.sqrt_mul (by norm_num), Real.sqrt_sq (by norm_num)]
  have ce : Real.sqrt 8 * C = g.dt * polarError S g (2 * M) epsMax sigMax q (δ + inducedError Ms g.dt τ (rows g vol) (epsMax - 1 + sigMax + q)) := by
    rw [ie, hC]
    unfold polarError
    have e1 : ∀ x y : ℝ, Real.sqrt 8 * (Real.sqrt ((epsMax + 2) / 2) * (g.dt * Real.sqrt (4 * (x + y)))) = g.dt * Real.sqrt (16 * (epsMax + 2) * (x + y)) := by
      intro x y
      have : Real.sqrt (16 * (epsMax + 2) * (x + y)) = Real.sqrt 8 * (Real.sqrt ((epsMax + 2) / 2) * Real.sqrt (4 * (x + y))) := by
        rw [← mul_assoc, ← Real.sqrt_mul (by norm_num), ← Real.sqrt_mul (by linarith)]
        congr 1
        ring
      rw [this]
      ring
    rw [e1]
    have e2 : δ + (epsMax - 1 + sigMax) * η + q * η = δ + (epsMax - 1 + sigMax + q) * η := by ring
    rw [e2]
    rfl
  have rg := rest_gap hw hl hT hsm hst hmx hr (by nlinarith [Nat.cast_nonneg (α := ℝ) n]) (f := D 0) zero
  rw [gap_eq_size 0 (md 0)] at rg
  have re : 2 * Real.sqrt (epsMax + q ^ 2 + 1) * Real.sqrt (size g (d 0) (updatedNodes g)) ≤ restError S g M (epsMax + q ^ 2) := by
    refine (mul_le_mul_of_nonneg_left (Real.sqrt_le_sqrt rg) (by positivity)).trans (le_of_eq ?_)
    unfold restError
    rw [show 12 * (epsMax + q ^ 2 + 1) = (2 * Real.sqrt (epsMax + q ^ 2 + 1)) ^ 2 * 3 by rw [mul_pow, Real.sq_sqrt (by positivity)]; ring]
    rw [mul_assoc ((2 * Real.sqrt (epsMax + q ^ 2 + 1)) ^ 2), Real.sqrt_mul (sq_nonneg (2 * Real.sqrt (epsMax + q ^ 2 + 1))), Real.sqrt_sq (by positivity)]
    rfl
  have a := mul_le_mul_of_nonneg_left (en.trans ((err n hn).trans (add_le_add_left es _))) s8
  rw [gap_eq_size n (md n)]
  have fin : Real.sqrt 8 * (Real.sqrt ((epsMax + q ^ 2 + 1) / 2) * Real.sqrt (size g (d 0) (updatedNodes g)) + n * C) =
      2 * Real.sqrt (epsMax + q ^ 2 + 1) * Real.sqrt (size g (d 0) (updatedNodes g)) +
        n * g.dt * polarError S g (2 * M) epsMax sigMax q (δ + inducedError Ms g.dt τ (rows g vol) (epsMax - 1 + sigMax + q)) := by
    rw [← two]
    linear_combination (n : ℝ) * ce
  rw [fin] at a
  linarith

end Qbox.Props
