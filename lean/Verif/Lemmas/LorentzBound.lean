import Verif.Lemmas.LorentzRun

/-! # One step of a program with a Lorentz medium -/

namespace Qbox
open Scalar Spec Props

variable {w : Spec.Wave} {S : ℝ → ℝ → Prop} {τ M δ : ℝ} {eps sig : ℝ → ℝ → ℝ} {Pw K Kt I : ℝ → ℝ → ℝ → ℝ} {inside : ℝ → ℝ → Prop}
    {med : ℤ → ℤ → Simple ℝ} {inn : ℤ → ℤ → Prop} {e : ℝ} {p : LorentzPole ℝ} {epsMax sigMax : ℝ}

set_option maxHeartbeats 2000000 in
/-- What is left when the wave is put into the equations of one step. -/
theorem swing_residuals {g : Grid ℝ} (H : Swung w S g τ M eps sig Pw K Kt I inside med inn e p epsMax sigMax)
    (hδ : 0 ≤ δ) {m : ℕ} (hτ : ((m : ℝ) + 3 / 2) * g.dt ≤ τ) {srcs : List (Source ℝ)} (hk : Spec.Carries g srcs eps sig I τ δ) (f f' : Flds ℝ) {D0 : ℝ}
    (hD0 : D0 = swingNoise S g M epsMax sigMax (swingStiff p) δ) :
    ∃ rE rX rY rJ z r : ℤ → ℤ → ℝ, Laws g med (updatedNodes g) (sampled w g m f) (sampled w g (m + 1) f') rE rX rY ∧
      (∀ i j, (updatedNodes g).Mem i j → (swingRes inn p i j).step g.dt ((sampled w g m f).Ez.val i j) ((sampled w g (m + 1) f').Ez.val i j)
        (K (m * g.dt) (i * g.dx) (j * g.dx)) (K ((m + 1 : ℕ) * g.dt) (i * g.dx) (j * g.dx)) (rJ i j)) ∧
      (∀ i j, inn i j → z i j = (rJ i j + p.omega ^ 2 * Pw ((m + 1 / 2) * g.dt) (i * g.dx) (j * g.dx)) / (Real.sqrt p.dEps * |p.omega|)) ∧
      (∀ i j, ¬ inn i j → z i j = 0) ∧
      g.dx ^ 2 * (updatedNodes g).sum (fun i j => (rE i j + ((swingRes inn p i j).flow (K ((m + 1 : ℕ) * g.dt) (i * g.dx) (j * g.dx)) +
            (swingRes inn p i j).flow (K (m * g.dt) (i * g.dx) (j * g.dx))) / 2 -
            ((med i j).eps / g.dt + (med i j).conduc / 2) * addedE g srcs ((m + 1) * g.dt) i j) ^ 2 + rX i j ^ 2 + rY i j ^ 2 + z i j ^ 2) ≤ D0 ^ 2 ∧
      (∀ i j, inn i j → r i j = K ((m + 1) * g.dt) (i * g.dx) (j * g.dx) -
        (Pw ((m + 3 / 2) * g.dt) (i * g.dx) (j * g.dx) - Pw ((m + 1 / 2) * g.dt) (i * g.dx) (j * g.dx)) / g.dt) ∧
      (∀ i j, ¬ inn i j → r i j = 0) ∧ l2 g r ≤ D0 := by
  classical
  have hl := H.lawful
  have hx := hl.dx
  have T0 := H.layer
  have dt0 : 0 < g.dt := by rw [hl.dt]; linarith
  have m0 : (0 : ℝ) ≤ m := Nat.cast_nonneg m
  obtain ⟨rE, rX, rY, L, bd⟩ := driven_laws hl H.walls H.smooth H.steady H.driven H.med (n := m) hτ f f'
  have inner : ∀ i j, (updatedNodes g).Mem i j → InDomain g (i * g.dx) (j * g.dx) := by
    intro i j hm
    unfold Box.Mem updatedNodes at hm
    simp only at hm
    exact ⟨node_pos hl (by omega), node_le_x hl (by omega), node_pos hl (by omega), node_le_y hl (by omega)⟩
  have M0 : 0 ≤ M := by
    refine (abs_nonneg (I 0 0 0)).trans (H.current 0 0 0 le_rfl ?_ ⟨le_rfl, ?_, le_rfl, ?_⟩)
    · refine le_trans ?_ hτ
      positivity
    · have := node_le_x hl (k := 0) (by have := H.wide.nx; rw [T0] at this; omega)
      simpa using this
    · have := node_le_y hl (k := 0) (by have := H.wide.ny; rw [T0] at this; omega)
      simpa using this
  have sE : ∀ i j, (updatedNodes g).Mem i j → (sampled w g m f).Ez.val i j = w.nodeE g m i j := fun i j hm => if_pos hm
  have sE1 : ∀ i j, (updatedNodes g).Mem i j → (sampled w g (m + 1) f').Ez.val i j = w.nodeE g (m + 1) i j := fun i j hm => if_pos hm
  have ta : 0 ≤ (m : ℝ) * g.dt := by positivity
  have tb0 : 0 ≤ ((m : ℝ) + 1 / 2) * g.dt := by positivity
  have tb : ((m : ℝ) + 1 / 2) * g.dt ≤ τ := by nlinarith
  have tc : ((m : ℝ) + 1) * g.dt ≤ τ := by nlinarith
  have tc0 : 0 ≤ ((m : ℝ) + 1) * g.dt := by positivity
  have ta' : (m : ℝ) * g.dt ≤ τ := by nlinarith
  have cast : ((m + 1 : ℕ) : ℝ) = (m : ℝ) + 1 := by push_cast; ring
  have k2 : g.dt ^ 2 = g.dx ^ 2 / 4 := by rw [hl.dt]; ring
  have B1 : M * g.dt ^ 2 / 4 = 1 / 16 * M * g.dx ^ 2 := by rw [k2]; ring
  have sd := Real.sqrt_pos.mpr H.sound.dEps
  have so := abs_pos.mpr H.sound.omega
  have osq : (Real.sqrt p.dEps * p.omega) ^ 2 = p.dEps * p.omega ^ 2 := by rw [mul_pow, Real.sq_sqrt H.sound.dEps.le]
  have s0 : 0 ≤ p.dEps * p.omega ^ 2 := mul_nonneg H.sound.dEps.le (sq_nonneg _)
  have wp : 0 < Real.sqrt p.dEps * |p.omega| := mul_pos sd so
  have q0 : 0 ≤ swingStiff p := by
    have := H.sound.gamma
    unfold swingStiff
    positivity
  obtain ⟨q, hq⟩ : ∃ q, q = swingStiff p := ⟨_, rfl⟩
  rw [← hq] at q0
  have qw : q * (Real.sqrt p.dEps * |p.omega|) = 1 + 2 * p.gamma + p.dEps * p.omega ^ 2 + p.omega ^ 2 := by
    rw [hq]; unfold swingStiff; rw [div_mul_cancel₀ _ wp.ne']
  obtain ⟨rJ, hrJ⟩ : ∃ rJ : ℤ → ℤ → ℝ, rJ = fun (i j : ℤ) => (K ((m + 1 : ℕ) * g.dt) (i * g.dx) (j * g.dx) - K (m * g.dt) (i * g.dx) (j * g.dx)) / g.dt +
    2 * p.gamma * (K ((m + 1 : ℕ) * g.dt) (i * g.dx) (j * g.dx) + K (m * g.dt) (i * g.dx) (j * g.dx)) / 2 -
    (Real.sqrt p.dEps * p.omega) ^ 2 * (w.nodeE g (m + 1) i j + w.nodeE g m i j) / 2 := ⟨_, rfl⟩
  obtain ⟨z, hz⟩ : ∃ z : ℤ → ℤ → ℝ, z = fun (i j : ℤ) => if inn i j then (rJ i j + p.omega ^ 2 * Pw ((m + 1 / 2) * g.dt) (i * g.dx) (j * g.dx)) / (Real.sqrt p.dEps * |p.omega|)
    else 0 := ⟨_, rfl⟩
  have half : ∀ {a b : ℝ}, |a| ≤ M → |b| ≤ M → |(a + b) / 2| ≤ M := by
    intro a b ha hb
    rw [abs_le] at ha hb ⊢
    constructor <;> linarith [ha.1, ha.2, hb.1, hb.2]
  have quo : ∀ {a b : ℝ}, |a - b| ≤ M * ((m + 1) * g.dt - m * g.dt) → |(a - b) / g.dt| ≤ M := by
    intro a b hh
    rw [abs_div, abs_of_pos dt0, div_le_iff₀ dt0]
    linarith
  have le1 : (m : ℝ) * g.dt ≤ (m + 1) * g.dt := by linarith
  have gam := H.sound.gamma
  have zb : ∀ i j, (updatedNodes g).Mem i j → (¬ Crossed S g i j → |z i j| ≤ q / 16 * M * g.dx ^ 2 ∧
      |((swingRes inn p i j).flow (K ((m + 1 : ℕ) * g.dt) (i * g.dx) (j * g.dx)) + (swingRes inn p i j).flow (K (m * g.dt) (i * g.dx) (j * g.dx))) / 2 -
        K ((m + 1 / 2) * g.dt) (i * g.dx) (j * g.dx)| ≤ 1 / 16 * M * g.dx ^ 2) ∧ |z i j| ≤ q * M ∧
      |((swingRes inn p i j).flow (K ((m + 1 : ℕ) * g.dt) (i * g.dx) (j * g.dx)) + (swingRes inn p i j).flow (K (m * g.dt) (i * g.dx) (j * g.dx))) / 2| ≤ M := by
    intro i j hmem
    have dom := inner i j hmem
    by_cases hi : inn i j
    · have ii := (H.inn i j hmem).mp hi
      have ez : z i j * (Real.sqrt p.dEps * |p.omega|) = rJ i j + p.omega ^ 2 * Pw ((m + 1 / 2) * g.dt) (i * g.dx) (j * g.dx) := by
        rw [hz]; simp only [if_pos hi]; rw [div_mul_cancel₀ _ wp.ne']
      have er : rJ i j = (K ((m + 1) * g.dt) (i * g.dx) (j * g.dx) - K (m * g.dt) (i * g.dx) (j * g.dx)) / g.dt +
          2 * p.gamma * ((K ((m + 1) * g.dt) (i * g.dx) (j * g.dx) + K (m * g.dt) (i * g.dx) (j * g.dx)) / 2) -
          p.dEps * p.omega ^ 2 * ((w.E ((m + 1) * g.dt) (i * g.dx) (j * g.dx) + w.E (m * g.dt) (i * g.dx) (j * g.dx)) / 2) := by
        rw [hrJ]; simp only [Wave.nodeE, osq, cast]; ring
      have fl : ∀ k, (swingRes inn p i j).flow k = k := fun k => by unfold swingRes; rw [if_pos hi]; rfl
      rw [fl, fl, cast]
      have fin : ∀ {W : ℝ}, 0 ≤ W → |z i j * (Real.sqrt p.dEps * |p.omega|)| ≤ (1 + 2 * p.gamma + p.dEps * p.omega ^ 2 + p.omega ^ 2) * W → |z i j| ≤ q * W := by
        intro W hW hh
        rw [abs_mul, abs_of_pos wp, ← qw] at hh
        have : |z i j| * (Real.sqrt p.dEps * |p.omega|) ≤ (q * W) * (Real.sqrt p.dEps * |p.omega|) := by linarith
        exact le_of_mul_le_mul_right this wp
      refine ⟨fun nc => ?_, ?_, ?_⟩
      · have s0' : S (i * g.dx) (j * g.dx) := by_contra fun hn => nc (.inl ⟨i * g.dx, by linarith, by linarith, hn⟩)
        have a2 := middle (H.smooth.Et _ _ dom s0') dt0 (p := m * g.dt) (q := (m + 1) * g.dt) (s := (m + 1 / 2) * g.dt) (by ring) (by ring) ta tc
        have a3 := slope (H.swing.tameK _ _ dom s0') dt0 (p := m * g.dt) (q := (m + 1) * g.dt) (s := (m + 1 / 2) * g.dt) (by ring) (by ring) ta tc
        have a4 := middle (H.swing.tameK _ _ dom s0') dt0 (p := m * g.dt) (q := (m + 1) * g.dt) (s := (m + 1 / 2) * g.dt) (by ring) (by ring) ta tc
        rw [B1] at a2 a3 a4
        refine ⟨?_, a4⟩
        have law := H.swing.law ((m + 1 / 2) * g.dt) _ _ tb0 tb dom s0' ii
        have W0 : 0 ≤ 1 / 16 * M * g.dx ^ 2 := by positivity
        refine (fin W0 ?_).trans (le_of_eq (by ring))
        rw [ez, er]
        rw [abs_le] at a2 a3 a4 ⊢
        have c1 := mul_le_mul_of_nonneg_left a4.1 (by linarith : 0 ≤ 2 * p.gamma)
        have c2 := mul_le_mul_of_nonneg_left a4.2 (by linarith : 0 ≤ 2 * p.gamma)
        have c3 := mul_le_mul_of_nonneg_left a2.1 s0
        have c4 := mul_le_mul_of_nonneg_left a2.2 s0
        have c5 := mul_nonneg (sq_nonneg p.omega) W0
        constructor <;> linarith [a3.1, a3.2]
      · refine fin M0 ?_
        rw [ez, er]
        have a1 := quo (H.swing.steadyK _ _ _ _ ta le1 tc dom)
        have a2 := half (H.swing.atMostK _ _ _ tc0 tc dom) (H.swing.atMostK _ _ _ ta ta' dom)
        have a3 := half (H.steady.E0 _ _ _ tc0 tc dom) (H.steady.E0 _ _ _ ta ta' dom)
        have a4 := H.swing.atMostP _ _ _ tb0 tb dom
        rw [abs_le] at a1 a2 a3 a4 ⊢
        have c1 := mul_le_mul_of_nonneg_left a2.1 (by linarith : 0 ≤ 2 * p.gamma)
        have c2 := mul_le_mul_of_nonneg_left a2.2 (by linarith : 0 ≤ 2 * p.gamma)
        have c3 := mul_le_mul_of_nonneg_left a3.1 s0
        have c4 := mul_le_mul_of_nonneg_left a3.2 s0
        have c5 := mul_le_mul_of_nonneg_left a4.1 (sq_nonneg p.omega)
        have c6 := mul_le_mul_of_nonneg_left a4.2 (sq_nonneg p.omega)
        constructor <;> linarith [a1.1, a1.2]
      · exact half (H.swing.atMostK _ _ _ tc0 tc dom) (H.swing.atMostK _ _ _ ta ta' dom)
    · have ii := fun t t0 t1 => H.swing.free t _ _ t0 t1 dom (fun h' => hi ((H.inn i j hmem).mpr h'))
      have fl : ∀ k, (swingRes inn p i j).flow k = 0 := fun k => by unfold swingRes; rw [if_neg hi]; rfl
      have ez : z i j = 0 := by rw [hz]; simp only [if_neg hi]
      rw [fl, fl, ez, ii _ tb0 tb]
      norm_num
      have := mul_nonneg q0 M0
      exact ⟨fun _ => ⟨by positivity, by positivity⟩, this, M0⟩
  have D00 : 0 ≤ D0 := by rw [hD0]; exact Real.sqrt_nonneg _
  have key : ∀ i j, (updatedNodes g).Mem i j →
      |((med i j).eps / g.dt + (med i j).conduc / 2) * addedE g srcs ((m + 1) * g.dt) i j + I ((m + 1 / 2) * g.dt) (i * g.dx) (j * g.dx)| ≤ δ ∧
      |I ((m + 1 / 2) * g.dt) (i * g.dx) (j * g.dx)| ≤ M := by
    intro i j hm
    have hm' := hm
    unfold Box.Mem updatedNodes at hm'
    simp only at hm'
    constructor
    · have := hk.node m i j (by omega) (by omega) (by omega) (by omega) tc
      rwa [← (H.med i j hm).1, ← (H.med i j hm).2.1] at this
    · exact H.current _ _ _ tb0 tb (inner i j hm)
  obtain ⟨a, ha⟩ : ∃ a : ℤ → ℤ → ℝ, a = fun i j => rE i j + ((swingRes inn p i j).flow (K ((m + 1 : ℕ) * g.dt) (i * g.dx) (j * g.dx)) +
            (swingRes inn p i j).flow (K (m * g.dt) (i * g.dx) (j * g.dx))) / 2 -
            ((med i j).eps / g.dt + (med i j).conduc / 2) * addedE g srcs ((m + 1) * g.dt) i j := ⟨_, rfl⟩
  have pos : ∀ {A B : ℝ} {rE rX rY rZ : ℤ → ℤ → ℝ}, g.dx ^ 2 * (updatedNodes g).sum (fun i j => rE i j ^ 2 + rX i j ^ 2 + rY i j ^ 2 + rZ i j ^ 2) ≤
      4 * (g.Lx * g.Ly * A ^ 2 + crossedArea S g (updatedNodes g) * B ^ 2) → 0 ≤ 4 * (g.Lx * g.Ly * A ^ 2 + crossedArea S g (updatedNodes g) * B ^ 2) := by
    intro A B rE rX rY rZ hh
    exact le_trans (mul_nonneg (sq_nonneg _) (Box.sum_nonneg _ fun i j _ => by positivity)) hh
  have D2 : D0 ^ 2 = 4 * (g.Lx * g.Ly * ((epsMax + sigMax + q + 9) / 16 * M * g.dx ^ 2 + δ) ^ 2 +
      crossedArea S g (updatedNodes g) * ((epsMax + sigMax + q + 4) * M + δ) ^ 2) := by
    have p0 := pos (spread_bound4 H.wide hl H.layer (S := S) (A := (epsMax + sigMax + q + 9) / 16 * M * g.dx ^ 2 + δ) (B := (epsMax + sigMax + q + 4) * M + δ)
      (rE := fun _ _ => 0) (rX := fun _ _ => 0) (rY := fun _ _ => 0) (rZ := fun _ _ => 0) fun i j hm => by
        have es0 : 0 ≤ epsMax + sigMax := by linarith [(H.med i j hm).2.2.2.2.1, (H.med i j hm).2.2.2.2.2, H.eps1]
        simp only [abs_zero, and_self]
        exact ⟨fun _ => by positivity, by positivity⟩)
    rw [hD0, ← hq]
    unfold swingNoise
    exact Real.sq_sqrt p0
  have noise := spread_bound4 H.wide hl H.layer (S := S) (A := (epsMax + sigMax + q + 9) / 16 * M * g.dx ^ 2 + δ) (B := (epsMax + sigMax + q + 4) * M + δ)
          (rE := a) (rX := fun i j => rX i j) (rY := fun i j => rY i j) (rZ := z) fun i j hm => by
            obtain ⟨k1, k2⟩ := key i j hm
            obtain ⟨p', p1, p2, p3⟩ := bd i j hm
            obtain ⟨z1, z2, z3⟩ := zb i j hm
            have W0 : 0 ≤ M * g.dx ^ 2 := by positivity
            have es0 : 0 ≤ epsMax + sigMax := by linarith [(H.med i j hm).2.2.2.2.1, (H.med i j hm).2.2.2.2.2, H.eps1]
            have y1 : 0 ≤ (epsMax + sigMax) * (M * g.dx ^ 2) := mul_nonneg es0 W0
            have y2 : 0 ≤ q * (M * g.dx ^ 2) := mul_nonneg q0 W0
            have y3 : 0 ≤ (epsMax + sigMax) * M := mul_nonneg es0 M0
            have y4 : 0 ≤ q * M := mul_nonneg q0 M0
            rw [ha]
            rw [abs_le] at k1 k2 p1 z3
            refine ⟨fun hc => ?_, ?_, by linarith, by linarith, by linarith⟩
            · obtain ⟨o1, o2, o3⟩ := p' hc
              obtain ⟨v1, v2⟩ := z1 hc
              refine ⟨?_, by linarith, by linarith, by linarith⟩
              simp only
              rw [abs_le] at o1 v2 ⊢
              constructor <;> linarith [o1.1, o1.2, v2.1, v2.2, k1.1, k1.2]
            · simp only
              rw [abs_le]
              constructor <;> linarith [k1.1, k1.2, k2.1, k2.2, p1.1, p1.2, z3.1, z3.2]
  rw [← D2] at noise
  obtain ⟨r, hr⟩ : ∃ r : ℤ → ℤ → ℝ, r = fun (i j : ℤ) => if inn i j then K ((m + 1) * g.dt) (i * g.dx) (j * g.dx) -
    (Pw ((m + 3 / 2) * g.dt) (i * g.dx) (j * g.dx) - Pw ((m + 1 / 2) * g.dt) (i * g.dx) (j * g.dx)) / g.dt else 0 := ⟨_, rfl⟩
  have rb : l2 g r ≤ D0 := by
    have k := spread_bound4 H.wide hl H.layer (S := S) (A := (epsMax + sigMax + q + 9) / 16 * M * g.dx ^ 2 + δ) (B := (epsMax + sigMax + q + 4) * M + δ)
      (rE := fun _ _ => 0) (rX := fun _ _ => 0) (rY := fun _ _ => 0) (rZ := r) fun i j hm => by
        have dom := inner i j hm
        have es0 : 0 ≤ epsMax + sigMax := by linarith [(H.med i j hm).2.2.2.2.1, (H.med i j hm).2.2.2.2.2, H.eps1]
        have W0 : 0 ≤ M * g.dx ^ 2 := by positivity
        have y1 : 0 ≤ (epsMax + sigMax) * (M * g.dx ^ 2) := mul_nonneg es0 W0
        have y2 : 0 ≤ q * (M * g.dx ^ 2) := mul_nonneg q0 W0
        have y3 : 0 ≤ (epsMax + sigMax) * M := mul_nonneg es0 M0
        have y4 : 0 ≤ q * M := mul_nonneg q0 M0
        have A0 : 0 ≤ (epsMax + sigMax + q + 9) / 16 * M * g.dx ^ 2 + δ := by positivity
        have B0 : 0 ≤ (epsMax + sigMax + q + 4) * M + δ := by positivity
        simp only [abs_zero]
        have sm : ∀ {a b : ℝ}, |a - b| ≤ M * ((m + 3 / 2) * g.dt - (m + 1 / 2) * g.dt) → |(a - b) / g.dt| ≤ M := by
          intro a b hh
          rw [abs_div, abs_of_pos dt0, div_le_iff₀ dt0]
          linarith
        by_cases hi : inn i j
        · have er : r i j = K ((m + 1) * g.dt) (i * g.dx) (j * g.dx) -
              (Pw ((m + 3 / 2) * g.dt) (i * g.dx) (j * g.dx) - Pw ((m + 1 / 2) * g.dt) (i * g.dx) (j * g.dx)) / g.dt := by rw [hr]; simp only [if_pos hi]
          refine ⟨fun nc => ⟨A0, A0, A0, ?_⟩, B0, B0, B0, ?_⟩
          · have s0' : S (i * g.dx) (j * g.dx) := by_contra fun hn => nc (.inl ⟨i * g.dx, by linarith, by linarith, hn⟩)
            have a3 := slope (H.swing.tameP _ _ dom s0') dt0 (p := (m + 1 / 2) * g.dt) (q := (m + 3 / 2) * g.dt) (s := (m + 1) * g.dt) (by ring) (by ring) tb0 hτ
            rw [B1] at a3
            rw [er, abs_sub_comm]
            linarith
          · have a1 := sm (H.swing.steadyP _ _ _ _ tb0 (by nlinarith) hτ dom)
            have a2 := H.swing.atMostK _ _ _ tc0 tc dom
            rw [er]
            rw [abs_le] at a1 a2 ⊢
            constructor <;> linarith [a1.1, a1.2, a2.1, a2.2]
        · have er : r i j = 0 := by rw [hr]; simp only [if_neg hi]
          rw [er, abs_zero]
          exact ⟨fun _ => ⟨A0, A0, A0, A0⟩, B0, B0, B0, B0⟩
    rw [← D2] at k
    unfold l2
    rw [← Real.sqrt_sq D00]
    refine Real.sqrt_le_sqrt (le_trans (le_of_eq ?_) k)
    simp
  refine ⟨rE, rX, rY, rJ, z, r, L, fun i j hm => ?_, fun i j hi => by rw [hz]; simp only [if_pos hi], fun i j hi => by rw [hz]; simp only [if_neg hi], ?_,
    fun i j hi => by rw [hr]; simp only [if_pos hi], fun i j hi => by rw [hr]; simp only [if_neg hi], rb⟩
  · rw [sE i j hm, sE1 i j hm, hrJ]
    unfold swingRes
    by_cases hi : inn i j
    · simp only [if_pos hi, Response.step]; ring
    · simp only [if_neg hi, Response.step]
  · rw [ha] at noise
    exact noise

set_option maxHeartbeats 2000000 in
/-- One step. -/
theorem swings_one {c : Core ℝ} (H : Swung w S c.g τ M eps sig Pw K Kt I inside med inn e p epsMax sigMax)
    (hδ : 0 ≤ δ) {m : ℕ} {n : String} {P : LorentzPol ℝ} {pE : Tensor ℝ} (h : Swings c n P pE med inn e p) (tm : c.t = m * c.g.dt)
    (hτ : ((m : ℝ) + 3 / 2) * c.g.dt ≤ τ) {srcs : List (Source ℝ)} (hf : ∀ s ∈ srcs, Fits c.g s) (hk : Spec.Carries c.g srcs eps sig I τ δ)
    (ho : ∀ t i j, inn i j → addedE c.g srcs t i j = 0) {X : ℝ} (hX : 0 ≤ X) {d : Flds ℝ} (hn : Near w c.g M Pw K med inn p m c P pE X d) :
    ∃ c1 l1 P1 d1, c.update srcs = .ok (c1, l1) ∧ Swings c1 n P1 c.f.Ez med inn e p ∧ c1.g = c.g ∧ c1.t = (m + 1 : ℕ) * c.g.dt ∧ List.Forall₂ SameSrc srcs l1 ∧
      (∀ s ∈ l1, Fits c.g s) ∧ Near w c.g M Pw K med inn p (m + 1) c1 P1 c.f.Ez
        ((1 + swingRate p epsMax sigMax c.g.dt * c.g.dt) * X + c.g.dt * swingError S c.g p M epsMax sigMax δ) d1 := by
  classical
  have T0 := H.layer
  have hl := H.lawful
  have hx := hl.dx
  have dt0 : 0 < c.g.dt := h.std.dt_pos
  have m0 : (0 : ℝ) ≤ m := Nat.cast_nonneg m
  have b1 : (updatedNodes c.g).l ≤ (updatedNodes c.g).r + 1 := by have := H.wide.nx; rw [T0] at this; simp only [updatedNodes]; omega
  have b2 : (updatedNodes c.g).b ≤ (updatedNodes c.g).t + 1 := by have := H.wide.ny; rw [T0] at this; simp only [updatedNodes]; omega
  obtain ⟨c1, l1, E2, E3, E4, f, u, St⟩ := Core.update_step h.std srcs hf
  obtain ⟨P1, h1, laws, poles, moves⟩ := swings_step h (by linarith [H.e1]) H.sound St hk ho
  obtain ⟨D0, hD0⟩ : ∃ D0, D0 = swingNoise S c.g M epsMax sigMax (swingStiff p) δ := ⟨_, rfl⟩
  have D00 : 0 ≤ D0 := by rw [hD0]; exact Real.sqrt_nonneg _
  obtain ⟨rE, rX, rY, rJ, z, r, L, ks, zi, zo, noise, ri, ro, rb⟩ := swing_residuals H hδ hτ hk c.f c1.f hD0
  rw [show ((m : ℝ) + 1) * c.g.dt = c.t + c.g.dt by rw [tm]; ring] at noise
  obtain ⟨d1, md1⟩ := mix_exists 1 (-1) c1.f (sampled w c.g (m + 1) c1.f)
  have qd : FrameQuiet d (updatedNodes c.g) := hn.mix.quiet h.frame (sampled_quiet ..)
  have qd1 : FrameQuiet d1 (updatedNodes c.g) := md1.quiet (by rw [← St.g]; exact h1.frame) (sampled_quiet ..)
  have inner : ∀ i j, (updatedNodes c.g).Mem i j → InDomain c.g (i * c.g.dx) (j * c.g.dx) := by
    intro i j hm
    unfold Box.Mem updatedNodes at hm
    simp only at hm
    exact ⟨node_pos hl (by omega), node_le_x hl (by omega), node_pos hl (by omega), node_le_y hl (by omega)⟩
  have M0 : 0 ≤ M := by
    refine (abs_nonneg (I 0 0 0)).trans (H.current 0 0 0 le_rfl ?_ ⟨le_rfl, ?_, le_rfl, ?_⟩)
    · refine le_trans ?_ hτ
      positivity
    · have := node_le_x hl (k := 0) (by have := H.wide.nx; omega)
      simpa using this
    · have := node_le_y hl (k := 0) (by have := H.wide.ny; omega)
      simpa using this
  have sE : ∀ i j, (updatedNodes c.g).Mem i j → (sampled w c.g m c.f).Ez.val i j = w.nodeE c.g m i j := fun i j hm => if_pos hm
  have sE1 : ∀ i j, (updatedNodes c.g).Mem i j → (sampled w c.g (m + 1) c1.f).Ez.val i j = w.nodeE c.g (m + 1) i j := fun i j hm => if_pos hm
  have ta : 0 ≤ (m : ℝ) * c.g.dt := by positivity
  have tb0 : 0 ≤ ((m : ℝ) + 1 / 2) * c.g.dt := by positivity
  have tb : ((m : ℝ) + 1 / 2) * c.g.dt ≤ τ := by nlinarith
  have tc : ((m : ℝ) + 1) * c.g.dt ≤ τ := by nlinarith
  have tc0 : 0 ≤ ((m : ℝ) + 1) * c.g.dt := by positivity
  have ta' : (m : ℝ) * c.g.dt ≤ τ := by nlinarith
  have cast : ((m + 1 : ℕ) : ℝ) = (m : ℝ) + 1 := by push_cast; ring
  have sd := Real.sqrt_pos.mpr H.sound.dEps
  have so := abs_pos.mpr H.sound.omega
  have osq : (Real.sqrt p.dEps * p.omega) ^ 2 = p.dEps * p.omega ^ 2 := by rw [mul_pow, Real.sq_sqrt H.sound.dEps.le]
  have s0 : 0 ≤ p.dEps * p.omega ^ 2 := mul_nonneg H.sound.dEps.le (sq_nonneg _)
  obtain ⟨a, ha⟩ : ∃ a : ℤ → ℤ → ℝ, a = fun (i j : ℤ) => rE i j + ((swingRes inn p i j).flow (K ((m + 1 : ℕ) * c.g.dt) (i * c.g.dx) (j * c.g.dx)) +
            (swingRes inn p i j).flow (K (m * c.g.dt) (i * c.g.dx) (j * c.g.dx))) / 2 -
            ((med i j).eps / c.g.dt + (med i j).conduc / 2) * addedE c.g srcs (c.t + c.g.dt) i j := ⟨_, rfl⟩
  have noise' : c.g.dx ^ 2 * (updatedNodes c.g).sum (fun i j => a i j ^ 2 + rX i j ^ 2 + rY i j ^ 2 + z i j ^ 2) ≤ D0 ^ 2 := by rw [ha]; exact noise
  clear noise
  obtain ⟨ℓ, hℓ⟩ : ∃ ℓ, ℓ = leakRate p epsMax sigMax c.g.dt := ⟨_, rfl⟩
  have lk : ∀ i j, (updatedNodes c.g).Mem i j → |leakage med inn e p c.g.dt i j| ≤ ℓ := fun i j hm => by
    rw [hℓ]; exact leakage_le H.sound dt0 H.e1 (H.med i j hm).2.2
  have hsig := H.sig0
  have ℓ0 : 0 ≤ ℓ := by
    have := H.eps1
    rw [hℓ]; unfold leakRate
    have : 0 ≤ epsMax := by linarith
    positivity
  obtain ⟨V, hV⟩ : ∃ V, V = polGap c.g Pw inn p m c P pE := ⟨_, rfl⟩
  have hpol := hn.pol
  rw [← hV] at hpol
  have hb0 : 0 ≤ l2 c.g V / Real.sqrt p.dEps := div_nonneg (l2_nonneg _ _) sd.le
  have step := polar_steps hl b1 b2 (med := med) (res := swingRes inn p) (fun i j hm => swingRes_passive H.sound inn i j) (epsMax := epsMax)
      (fun i j hm => ⟨(H.med i j hm).2.2.1, (H.med i j hm).2.2.2.1⟩) (fun i j hm => (H.med i j hm).2.2.2.2.1)
      (f := c.f) (f' := c1.f) (s := sampled w c.g m c.f) (s' := sampled w c.g (m + 1) c1.f)
      (K := fun i j => P.J.val i j 0) (K' := fun i j => P1.J.val i j 0)
      (L := fun i j => K (m * c.g.dt) (i * c.g.dx) (j * c.g.dx)) (L' := fun i j => K ((m + 1 : ℕ) * c.g.dt) (i * c.g.dx) (j * c.g.dx))
      (pE := fun i j => ((med i j).eps / c.g.dt + (med i j).conduc / 2) * addedE c.g srcs (c.t + c.g.dt) i j + leakage med inn e p c.g.dt i j * pE.val i j)
      (pX := fun _ _ => 0) (pY := fun _ _ => 0)
      (pJ := fun i j => - (p.omega ^ 2 * displaced p c.g.dt (c.f.Ez.val i j) (pE.val i j) (P.J.val i j 0) (P.prevJ.val i j 0)))
      (rE := fun i j => rE i j + ((swingRes inn p i j).flow (K ((m + 1 : ℕ) * c.g.dt) (i * c.g.dx) (j * c.g.dx)) +
            (swingRes inn p i j).flow (K (m * c.g.dt) (i * c.g.dx) (j * c.g.dx))) / 2)
      (rX := rX) (rY := rY) (rJ := rJ)
      (D := 2 * (D0 + ℓ * l2 c.g (fun i j => pE.val i j) + |p.omega| * (l2 c.g V / Real.sqrt p.dEps)))
      laws ⟨fun i j hm => by have := L.ampere i j hm; simpa only [add_sub_cancel_right] using this, L.faradayX, L.faradayY⟩ poles
      ks H.eps1
      (by have := l2_nonneg c.g (fun i j => pE.val i j); positivity) (by
        have n0 := l2_nonneg c.g (fun i j => pE.val i j)
        have n2 := l2_sq c.g (fun i j => pE.val i j)
        have v2 : (l2 c.g V / Real.sqrt p.dEps) ^ 2 = c.g.dx ^ 2 * (updatedNodes c.g).sum (fun i j => V i j ^ 2) / p.dEps := by
          rw [div_pow, l2_sq, Real.sq_sqrt H.sound.dEps.le]
        have pt : (updatedNodes c.g).sum (fun i j => (rE i j + ((swingRes inn p i j).flow (K ((m + 1 : ℕ) * c.g.dt) (i * c.g.dx) (j * c.g.dx)) +
              (swingRes inn p i j).flow (K (m * c.g.dt) (i * c.g.dx) (j * c.g.dx))) / 2 -
              (((med i j).eps / c.g.dt + (med i j).conduc / 2) * addedE c.g srcs (c.t + c.g.dt) i j + leakage med inn e p c.g.dt i j * pE.val i j)) ^ 2 +
              (rX i j - 0) ^ 2 + (rY i j - 0) ^ 2 + (swingRes inn p i j).weight *
                (rJ i j - -(p.omega ^ 2 * displaced p c.g.dt (c.f.Ez.val i j) (pE.val i j) (P.J.val i j 0) (P.prevJ.val i j 0))) ^ 2) ≤
            (updatedNodes c.g).sum fun i j => 2 * (a i j ^ 2 + rX i j ^ 2 + rY i j ^ 2 + z i j ^ 2) + (2 * ℓ ^ 2 * pE.val i j ^ 2 + 2 * (p.omega ^ 2 / p.dEps) * V i j ^ 2) := by
          refine Box.sum_le _ fun i j hm => ?_
          have e1 : (rE i j + ((swingRes inn p i j).flow (K ((m + 1 : ℕ) * c.g.dt) (i * c.g.dx) (j * c.g.dx)) +
              (swingRes inn p i j).flow (K (m * c.g.dt) (i * c.g.dx) (j * c.g.dx))) / 2 -
              (((med i j).eps / c.g.dt + (med i j).conduc / 2) * addedE c.g srcs (c.t + c.g.dt) i j + leakage med inn e p c.g.dt i j * pE.val i j)) =
              a i j - leakage med inn e p c.g.dt i j * pE.val i j := by rw [ha]; ring
          have e2 : (a i j - leakage med inn e p c.g.dt i j * pE.val i j) ^ 2 ≤ 2 * a i j ^ 2 + 2 * (leakage med inn e p c.g.dt i j * pE.val i j) ^ 2 := by
            nlinarith [sq_nonneg (a i j + leakage med inn e p c.g.dt i j * pE.val i j)]
          have e3 : (leakage med inn e p c.g.dt i j * pE.val i j) ^ 2 ≤ ℓ ^ 2 * pE.val i j ^ 2 := by
            rw [mul_pow]
            refine mul_le_mul_of_nonneg_right ?_ (sq_nonneg _)
            have := abs_le.mp (lk i j hm)
            exact sq_le_sq' this.1 this.2
          have e4 : (swingRes inn p i j).weight * (rJ i j - -(p.omega ^ 2 * displaced p c.g.dt (c.f.Ez.val i j) (pE.val i j) (P.J.val i j 0) (P.prevJ.val i j 0))) ^ 2 ≤
              2 * z i j ^ 2 + 2 * (p.omega ^ 2 / p.dEps) * V i j ^ 2 := by
            rw [hV]
            unfold swingRes polGap
            by_cases hi : inn i j
            · rw [zi i j hi]
              simp only [if_pos hi, Response.weight]
              obtain ⟨y, hy⟩ : ∃ y, y = Pw ((m + 1 / 2) * c.g.dt) (i * c.g.dx) (j * c.g.dx) := ⟨_, rfl⟩
              obtain ⟨x, hx'⟩ : ∃ x, x = displaced p c.g.dt (c.f.Ez.val i j) (pE.val i j) (P.J.val i j 0) (P.prevJ.val i j 0) := ⟨_, rfl⟩
              rw [← hy, ← hx', osq, div_pow, mul_pow, Real.sq_sqrt H.sound.dEps.le, sq_abs]
              have o2 : p.omega ^ 2 ≠ 0 := pow_ne_zero 2 H.sound.omega
              have dne := H.sound.dEps.ne'
              have : p.omega ^ 2 / p.dEps * (x - y) ^ 2 = (p.omega ^ 2 * (x - y)) ^ 2 / (p.dEps * p.omega ^ 2) := by field_simp
              rw [mul_assoc, this, one_div, inv_mul_eq_div, ← mul_div_assoc, ← mul_div_assoc, ← add_div]
              refine div_le_div_of_nonneg_right ?_ s0
              nlinarith [sq_nonneg (rJ i j + p.omega ^ 2 * y - p.omega ^ 2 * (x - y))]
            · rw [zo i j hi]
              simp only [if_neg hi, Response.weight]; norm_num
          rw [e1, sub_zero, sub_zero]
          linarith [sq_nonneg (rX i j), sq_nonneg (rY i j)]
        rw [Box.sum_add (updatedNodes c.g) (fun i j => 2 * (a i j ^ 2 + rX i j ^ 2 + rY i j ^ 2 + z i j ^ 2)),
          Box.sum_add (updatedNodes c.g) (fun i j => 2 * ℓ ^ 2 * pE.val i j ^ 2), Box.sum_mul, Box.sum_mul, Box.sum_mul] at pt
        have pt' := mul_le_mul_of_nonneg_left pt (sq_nonneg c.g.dx)
        refine pt'.trans ?_
        obtain ⟨N, hN⟩ : ∃ N, N = l2 c.g (fun i j => pE.val i j) := ⟨_, rfl⟩
        obtain ⟨B, hB⟩ : ∃ B, B = l2 c.g V / Real.sqrt p.dEps := ⟨_, rfl⟩
        rw [← hN] at n0 n2
        rw [← hB] at hb0 v2
        rw [← hN, ← hB]
        have e5 : c.g.dx ^ 2 * (2 * (updatedNodes c.g).sum (fun i j => a i j ^ 2 + rX i j ^ 2 + rY i j ^ 2 + z i j ^ 2) +
            (2 * ℓ ^ 2 * (updatedNodes c.g).sum (fun i j => pE.val i j ^ 2) + 2 * (p.omega ^ 2 / p.dEps) * (updatedNodes c.g).sum fun i j => V i j ^ 2)) =
            2 * (c.g.dx ^ 2 * (updatedNodes c.g).sum (fun i j => a i j ^ 2 + rX i j ^ 2 + rY i j ^ 2 + z i j ^ 2)) + 2 * ℓ ^ 2 * N ^ 2 + 2 * p.omega ^ 2 * B ^ 2 := by
          rw [n2, v2]; ring
        rw [e5]
        have e6 : (|p.omega| * B) ^ 2 = p.omega ^ 2 * B ^ 2 := by rw [mul_pow, sq_abs]
        have f1 : 0 ≤ ℓ * N := mul_nonneg ℓ0 n0
        have f2 : 0 ≤ |p.omega| * B := mul_nonneg so.le hb0
        have f3 := mul_nonneg D00 f1
        have f4 := mul_nonneg D00 f2
        have f5 := mul_nonneg f1 f2
        nlinarith [sq_nonneg D0, sq_nonneg (ℓ * N), sq_nonneg (|p.omega| * B)]) hn.mix md1 qd qd1
  obtain ⟨κ, hκ⟩ : ∃ κ, κ = Real.sqrt ((epsMax + 2) / 2) := ⟨_, rfl⟩
  have κ0 : 0 ≤ κ := by rw [hκ]; exact Real.sqrt_nonneg _
  obtain ⟨N0, hN0⟩ : ∃ N0, N0 = M * Real.sqrt (c.g.Lx * c.g.Ly) := ⟨_, rfl⟩
  have N00 : 0 ≤ N0 := by rw [hN0]; positivity
  obtain ⟨fr, hfr⟩ : ∃ fr, fr = fieldRate p epsMax sigMax c.g.dt := ⟨_, rfl⟩
  have efr : fr = 2 * κ * (3 * ℓ + |p.omega|) := by rw [hfr, hκ, hℓ]; rfl
  have fr0 : 0 ≤ fr := by rw [efr]; positivity
  obtain ⟨A1, hA1⟩ : ∃ A1, A1 = Real.sqrt (ptotal c.g med (swingRes inn p) d1 (fun i j => P1.J.val i j 0 - K ((m + 1 : ℕ) * c.g.dt) (i * c.g.dx) (j * c.g.dx)) (updatedNodes c.g)) := ⟨_, rfl⟩
  obtain ⟨G1, hG1⟩ : ∃ G1, G1 = 2 * κ * (D0 + ℓ * N0) := ⟨_, rfl⟩
  have G10 : 0 ≤ G1 := by rw [hG1]; positivity
  have first : A1 ≤ X * (1 + fr * c.g.dt) + c.g.dt * G1 := by
    rw [← hA1, ← hκ] at step
    have last := hn.last
    rw [← hN0] at last
    have i1 := mul_le_mul_of_nonneg_left last ℓ0
    have i2 := mul_le_mul_of_nonneg_left hpol so.le
    have i3 : D0 + ℓ * l2 c.g (fun i j => pE.val i j) + |p.omega| * (l2 c.g V / Real.sqrt p.dEps) ≤ D0 + ℓ * (N0 + 3 * X) + |p.omega| * X := by linarith
    have i4 := mul_le_mul_of_nonneg_left i3 (by positivity : 0 ≤ κ * (c.g.dt * 2))
    have fld := hn.field
    rw [efr, hG1]
    linarith
  have swr : swingRate p epsMax sigMax c.g.dt = fr + 2 * |p.omega| * (1 + fr * c.g.dt) := by rw [hfr]; rfl
  have swe : swingError S c.g p M epsMax sigMax δ = (1 + 2 * |p.omega| * c.g.dt) * G1 + D0 / Real.sqrt p.dEps := by
    rw [hG1, hκ, hD0, hℓ, hN0]; rfl
  rw [swr, swe]
  have t1 : 0 ≤ D0 / Real.sqrt p.dEps := div_nonneg D00 sd.le
  have t2 : 0 ≤ |p.omega| * c.g.dt := mul_nonneg so.le dt0.le
  have t3 : 0 ≤ fr * c.g.dt := mul_nonneg fr0 dt0.le
  have t4 : 0 ≤ |p.omega| * c.g.dt * (1 + fr * c.g.dt) * X := by positivity
  have t5 : 0 ≤ |p.omega| * c.g.dt * (c.g.dt * G1) := by positivity
  have t6 : 0 ≤ c.g.dt * (D0 / Real.sqrt p.dEps) := by positivity
  have t7 : 0 ≤ c.g.dt * G1 := by positivity
  have t8 : 0 ≤ fr * c.g.dt * X := by positivity
  have A10 : 0 ≤ A1 := by rw [hA1]; exact Real.sqrt_nonneg _
  -- the polarization
  obtain ⟨Kx, hKx⟩ : ∃ Kx : ℤ → ℤ → ℝ, Kx = fun (i j : ℤ) => if inn i j then P1.J.val i j 0 - K ((m + 1 : ℕ) * c.g.dt) (i * c.g.dx) (j * c.g.dx) else 0 := ⟨_, rfl⟩
  have kb : l2 c.g Kx ≤ 2 * (Real.sqrt p.dEps * |p.omega|) * A1 := by
    have en := energy_nonneg hl b1 b2 (fun i j hm => (H.med i j hm).2.2.1) qd1
    have st : (updatedNodes c.g).sum (fun i j => Kx i j ^ 2) ≤ (updatedNodes c.g).sum fun i j => 2 * (p.dEps * p.omega ^ 2) *
        (swingRes inn p i j).store (d1.Ez.val i j) (P1.J.val i j 0 - K ((m + 1 : ℕ) * c.g.dt) (i * c.g.dx) (j * c.g.dx)) := by
      refine Box.sum_le _ fun i j hm => ?_
      rw [hKx]
      unfold swingRes
      by_cases hi : inn i j
      · simp only [if_pos hi, Response.store, osq]
        have : p.dEps * p.omega ^ 2 ≠ 0 := mul_ne_zero H.sound.dEps.ne' (pow_ne_zero 2 H.sound.omega)
        refine le_of_eq ?_
        generalize p.dEps * p.omega ^ 2 = y at this ⊢
        generalize P1.J.val i j 0 - K ((m + 1 : ℕ) * c.g.dt) (i * c.g.dx) (j * c.g.dx) = x
        field_simp
      · simp only [if_neg hi, Response.store]; norm_num
    rw [Box.sum_mul] at st
    have st' := mul_le_mul_of_nonneg_left st (sq_nonneg c.g.dx)
    have sq : l2 c.g Kx ^ 2 ≤ (2 * (Real.sqrt p.dEps * |p.omega|) * A1) ^ 2 := by
      have e1 : (2 * (Real.sqrt p.dEps * |p.omega|) * A1) ^ 2 = 4 * (p.dEps * p.omega ^ 2) * A1 ^ 2 := by
        rw [mul_pow, mul_pow, mul_pow, Real.sq_sqrt H.sound.dEps.le, sq_abs]; ring
      have p0 : 0 ≤ ptotal c.g med (swingRes inn p) d1 (fun i j => P1.J.val i j 0 - K ((m + 1 : ℕ) * c.g.dt) (i * c.g.dx) (j * c.g.dx)) (updatedNodes c.g) :=
        add_nonneg en (store_sum_nonneg (fun i j _ => swingRes_passive H.sound inn i j) _ _)
      have ss := store_sum_nonneg (g := c.g) (res := swingRes inn p) (R := updatedNodes c.g) (fun i j _ => swingRes_passive H.sound inn i j) d1
        (fun i j => P1.J.val i j 0 - K ((m + 1 : ℕ) * c.g.dt) (i * c.g.dx) (j * c.g.dx))
      rw [e1, l2_sq, hA1, Real.sq_sqrt p0]
      unfold ptotal
      have i1 := mul_nonneg s0 en
      have i2 := mul_nonneg s0 ss
      linarith
    exact le_of_sq_le_sq sq (by positivity)
  have move : ∀ i j, (updatedNodes c.g).Mem i j → polGap c.g Pw inn p (m + 1) c1 P1 c.f.Ez i j = V i j + (c.g.dt * Kx i j + c.g.dt * r i j) := by
    intro i j hm
    rw [hV, hKx]
    unfold polGap
    by_cases hi : inn i j
    · simp only [if_pos hi]
      rw [ri i j hi, moves i j hm hi, cast, show ((m : ℝ) + 1 + 1 / 2) = m + 3 / 2 by ring]
      field_simp
      ring
    · rw [ro i j hi]
      simp only [if_neg hi]; ring
  have second : l2 c.g (polGap c.g Pw inn p (m + 1) c1 P1 c.f.Ez) / Real.sqrt p.dEps ≤ X + c.g.dt * (2 * |p.omega| * A1) + c.g.dt * (D0 / Real.sqrt p.dEps) := by
    rw [l2_congr move]
    have i1 := l2_add c.g V fun i j => c.g.dt * Kx i j + c.g.dt * r i j
    have i2 := l2_add c.g (fun i j => c.g.dt * Kx i j) fun i j => c.g.dt * r i j
    rw [l2_mul c.g dt0.le, l2_mul c.g dt0.le] at i2
    have i3 := mul_le_mul_of_nonneg_left kb dt0.le
    have i4 := mul_le_mul_of_nonneg_left rb dt0.le
    have i5 : l2 c.g (fun i j => V i j + (c.g.dt * Kx i j + c.g.dt * r i j)) ≤ l2 c.g V + c.g.dt * (2 * (Real.sqrt p.dEps * |p.omega|) * A1) + c.g.dt * D0 := by linarith
    have i6 := div_le_div_of_nonneg_right i5 sd.le
    refine i6.trans ?_
    have e1 : (l2 c.g V + c.g.dt * (2 * (Real.sqrt p.dEps * |p.omega|) * A1) + c.g.dt * D0) / Real.sqrt p.dEps =
        l2 c.g V / Real.sqrt p.dEps + c.g.dt * (2 * |p.omega| * A1) + c.g.dt * (D0 / Real.sqrt p.dEps) := by field_simp
    rw [e1]
    linarith
  have third : l2 c.g (fun i j => c.f.Ez.val i j) ≤ N0 + 3 * X := by
    have e1 : l2 c.g (fun i j => c.f.Ez.val i j) = l2 c.g (fun i j => d.Ez.val i j + (sampled w c.g m c.f).Ez.val i j) :=
      l2_congr fun i j _ => by rw [hn.mix.Ez]; ring
    rw [e1]
    refine (l2_add ..).trans ?_
    have i1 : l2 c.g (fun i j => (sampled w c.g m c.f).Ez.val i j) ≤ N0 := by
      rw [hN0]
      refine l2_const H.wide hl H.layer M0 fun i j hm => ?_
      rw [sE i j hm]
      exact H.steady.E0 _ _ _ ta ta' (inner i j hm)
    have i2 : l2 c.g (fun i j => d.Ez.val i j) ≤ Real.sqrt (size c.g d (updatedNodes c.g)) := by
      refine Real.sqrt_le_sqrt (mul_le_mul_of_nonneg_left (Box.sum_le _ fun i j _ => ?_) (sq_nonneg _))
      linarith [sq_nonneg (d.Hx.val i j), sq_nonneg (d.Hy.val i j)]
    have i3 := sqrt_size hl (med := med) b1 b2 (fun i j hm => (H.med i j hm).2.2.1) qd
    have i4 : Real.sqrt (energy c.g med d (updatedNodes c.g)) ≤ X := by
      refine le_trans (Real.sqrt_le_sqrt ?_) hn.field
      unfold ptotal
      have := store_sum_nonneg (g := c.g) (res := swingRes inn p) (R := updatedNodes c.g) (fun i j _ => swingRes_passive H.sound inn i j) d
        (fun i j => P.J.val i j 0 - K (m * c.g.dt) (i * c.g.dx) (j * c.g.dx))
      linarith
    have i5 : Real.sqrt 8 ≤ 3 := by rw [Real.sqrt_le_left (by norm_num)]; norm_num
    have i6 := mul_le_mul i5 i4 (Real.sqrt_nonneg _) (by norm_num)
    linarith
  have firstX := mul_le_mul_of_nonneg_left first (by positivity : 0 ≤ c.g.dt * (2 * |p.omega|))
  refine ⟨c1, l1, P1, d1, u, h1, St.g, by rw [St.t, tm]; push_cast; ring, St.same, by rw [← St.g]; exact St.fits, md1, ?_, ?_, ?_⟩
  · rw [← hA1]
    linarith
  · refine second.trans ?_
    linarith
  · rw [← hN0]
    refine third.trans ?_
    linarith

end Qbox
