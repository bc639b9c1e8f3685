import Verif.Lemmas.FluxWave

/-! # C96: recorded flux is the energy flow of the electromagnetic wave -/

namespace Qbox
open Scalar Spec Props

/-- How far values along the line are from those of a wave, if the fields are within `B` of it. -/
noncomputable def lineError (g : Grid ℝ) (N : ℕ) (M B : ℝ) : ℝ := B / Real.sqrt g.dx + 5 * M * g.dx * Real.sqrt (N * g.dx)

theorem bilinear_value {F : Tensor ℝ} {ps : V2 ℝ} {v : ℝ} (h : bilinear F ps = .ok v) : v = bilin F.val ps.x ps.y := by
  by_cases c : Around F ps
  · rw [bilinear_ok F ps c] at h
    exact (Except.ok.inj h).symm
  · rw [bilinear_oob F ps c] at h
    cases h

theorem outflow_vertical (φ : TM) (σ : ℝ) : φ.outflow ⟨σ, 0⟩ = -σ * (φ.Ez * (starRingEnd ℂ) φ.Hy).re := by
  rw [outflow_eq]; simp; ring

theorem outflow_horizontal (φ : TM) (σ : ℝ) : φ.outflow ⟨0, σ⟩ = σ * (φ.Ez * (starRingEnd ℂ) φ.Hx).re := by
  rw [outflow_eq]; simp; ring

/-- The energy flow of the wave through the line as an integral over the cells. -/
theorem flow_cells (w : Spec.Wave) {g : Grid ℝ} (hg : 0 < g.dx) (f T : ℝ) (A B : V2 ℤ) (n : V2 ℝ) {N : ℕ} {τ : V2 ℤ} (hτ : |τ.x| + |τ.y| = 1) (hx : B.x = A.x + N * τ.x)
    (hy : B.y = A.y + N * τ.y) :
    w.flow f T (g.toReal A) (g.toReal B) n = g.dx * ∫ r in (0 : ℝ)..N, (w.phasor f T ((A.x + r * τ.x) * g.dx) ((A.y + r * τ.y) * g.dx)).outflow n := by
  have txy : |(τ.x : ℝ)| + |(τ.y : ℝ)| = 1 := by exact_mod_cast hτ
  have ex : (g.toReal B).x - (g.toReal A).x = N * τ.x * g.dx := by simp only [Grid.toReal, hx, ofInt_real]; push_cast; ring
  have ey : (g.toReal B).y - (g.toReal A).y = N * τ.y * g.dx := by simp only [Grid.toReal, hy, ofInt_real]; push_cast; ring
  unfold Wave.flow
  rw [ex, ey]
  have len : |(N : ℝ) * τ.x * g.dx| + |(N : ℝ) * τ.y * g.dx| = g.dx * N := by
    simp only [abs_mul, abs_of_pos hg, Nat.abs_cast]
    linear_combination (N : ℝ) * g.dx * txy
  rw [len, mul_assoc]
  congr 1
  have := intervalIntegral.smul_integral_comp_mul_left (a := 0) (b := 1) (f := fun r => (w.phasor f T ((A.x + r * τ.x) * g.dx) ((A.y + r * τ.y) * g.dx)).outflow n) (N : ℝ)
  rw [mul_zero, mul_one, smul_eq_mul] at this
  rw [← this]
  congr 2
  funext s
  congr 2 <;> simp only [Grid.toReal, ofInt_real] <;> ring

/-- The line of a monitor in the fields of a scene, if fields that are the same near the line are close to a wave. -/
theorem line_flow_near (g : Grid ℝ) (hl : Lawful g) (hd : g.dx ≤ 1) (a b : V2 ℝ) (sg : Sgn) (s : Surf ℝ) (tag : DftTag)
    (ht : tag = .all ∨ tag = .tangent) (hs : Surf.make a b sg = .ok s) (hne : g.toGrid a ≠ g.toGrid b)
    (xa : 2 ≤ (g.toGrid a).x ∧ (g.toGrid a).x ≤ g.Nx - 2) (ya : 2 ≤ (g.toGrid a).y ∧ (g.toGrid a).y ≤ g.Ny - 2)
    (xb : 2 ≤ (g.toGrid b).x ∧ (g.toGrid b).x ≤ g.Nx - 2) (yb : 2 ≤ (g.toGrid b).y ∧ (g.toGrid b).y ≤ g.Ny - 2)
    (sce : Scene) (n : ℕ) (qs : List (Flds ℝ × ℝ)) (is : ISurf) (ss : List (Snap ℝ)) (k3 : qs.length = n) (hi : g.toGridS s = .ok is)
    (k4 : List.Forall₂ (fun q r => Finds (cells g a b) (surfKeys tag is) (surfReads g s is q) r) qs ss)
    (sc : ∀ m (hm : m < qs.length), ∃ c c', sce.run g m = .ok c ∧ sce.run g (m + 1) = .ok c' ∧ (qs[m]).2 = (m + 1) * g.dt ∧ (qs[m]).1.Ez = c'.f.Ez ∧
      (∀ i j, (qs[m]).1.Hx.val i j = c.f.Hx.val i j) ∧ (∀ i j, (qs[m]).1.Hy.val i j = c.f.Hy.val i j))
    (w : Spec.Wave) (τ M B : ℝ) (hM : 0 ≤ M) (hst : w.Steady g τ M) (hev : w.Even g τ M) (hr : w.AtRest g) (hτ : n * g.dt ≤ τ)
    (close : ∀ m ≤ n, ∃ c F, sce.run g m = .ok c ∧ (∀ i j, Nearby (g.toGrid a) (g.toGrid b) i j →
      c.f.Ez.val i j = F.Ez.val i j ∧ c.f.Hx.val i j = F.Hx.val i j ∧ c.f.Hy.val i j = F.Hy.val i j) ∧ Real.sqrt (gap w g m F (updatedNodes g)) ≤ B) :
    ∀ f S, S = n * g.dt * (lineError g (cells g a b) M B + Real.sqrt (cells g a b * g.dx) * (g.dt * (M + 2 * Real.pi * |f| * (M * (n * g.dt))))) →
      |g.dt ^ 2 * (∑ i ∈ Finset.range (cells g a b), (phasors f i (midway (fun _ => 0) ss)).outflow (lineNormal a b sg) * g.dx) -
          w.flow f (n * g.dt) (g.toReal (g.toGrid a)) (g.toReal (g.toGrid b)) (lineNormal a b sg)| ≤
        S * (2 * (M * (n * g.dt) * (n * g.dt)) * Real.sqrt (cells g a b * g.dx) + S) := by
  have d0 := hl.dx
  have dt0 : 0 < g.dt := by rw [hl.dt]; linarith
  have n0 : (0 : ℝ) ≤ n := Nat.cast_nonneg n
  have T0 : 0 ≤ n * g.dt := by positivity
  have lss : ss.length = n := by rw [← k4.length_eq, k3]
  obtain ⟨p1, p2, p3, p4, p5, p6⟩ := surfPoint_cell g d0 a b sg s hs hne is hi
  set N := cells g a b with hN
  set A := g.toGrid a with hA
  have L : Lined g A N is.tangent := ⟨p1, xa, ya, by rw [← p2]; exact xb, by rw [← p3]; exact yb⟩
  have nb : ∀ i < N, ∀ sx sy : ℝ, 0 ≤ sx → sx ≤ 1 → 0 ≤ sy → sy ≤ 1 → ∀ p q, Corner (A.x + ((i : ℝ) + 1 / 2) * is.tangent.x - sx) (A.y + ((i : ℝ) + 1 / 2) * is.tangent.y - sy) p q →
      Nearby A (g.toGrid b) p q := fun i hi sx sy q1 q2 q3 q4 p q hc => by
    have i1 : ((i : ℝ) + 1 : ℝ) ≤ N := by exact_mod_cast hi
    exact corner_nearby p2 p3 q1 q2 q3 q4 (by positivity) (by linarith) hc
  -- what is found
  have found : ∀ m (hm : m < n), ∃ c c', sce.run g m = .ok c ∧
      sce.run g (m + 1) = .ok c' ∧ (ss[m]'(by omega)).t = (m + 1) * g.dt ∧
      (∀ i : ℕ, i < N → (ss[m]'(by omega)).e i = bilin c'.f.Ez.val (A.x + ((i : ℝ) + 1 / 2) * is.tangent.x - 0) (A.y + ((i : ℝ) + 1 / 2) * is.tangent.y - 0)) ∧
      (a.x ≠ b.x → ∀ i : ℕ, i < N → (ss[m]'(by omega)).h "Hx" i = bilin c.f.Hx.val (A.x + ((i : ℝ) + 1 / 2) * is.tangent.x - 0) (A.y + ((i : ℝ) + 1 / 2) * is.tangent.y - g.dx)) ∧
      (a.x = b.x → ∀ i : ℕ, i < N → (ss[m]'(by omega)).h "Hy" i = bilin c.f.Hy.val (A.x + ((i : ℝ) + 1 / 2) * is.tangent.x - g.dx) (A.y + ((i : ℝ) + 1 / 2) * is.tangent.y - 0)) := fun m hm => by
    obtain ⟨c, c', e1, e2, e3, e4, e5, e6⟩ := sc m (by omega)
    obtain ⟨f1, f2, f3⟩ := (List.forall₂_iff_get.mp k4).2 m (by omega) (by omega)
    simp only [List.get_eq_getElem] at f1 f2 f3
    refine ⟨c, c', e1, e2, f1.symm.trans e3, fun i hi => ?_, fun hx i hi => ?_, fun hx i hi => ?_⟩
    · have q := f2 i (by omega) (by omega)
      simp only [surfReads, Flds.interpolate, Flds.get, Except.ok_bind] at q
      have q := bilinear_value q
      rw [interpPos_real] at q
      dsimp only at q
      rw [(p6 i).1, (p6 i).2, e4] at q
      rw [q, sub_zero, sub_zero]
      rfl
    · have q := f3 "Hx" (by rcases ht with rfl | rfl <;> simp [surfKeys, p5 hx]) (by decide) i (by omega) (by omega)
      simp only [surfReads, if_true, Flds.interpolate, Flds.get, Except.ok_bind] at q
      have q := bilinear_value q
      rw [interpPos_real] at q
      dsimp only at q
      rw [(p6 i).1, (p6 i).2] at q
      rw [q, sub_zero, show (qs[m]).1.Hx.val = c.f.Hx.val from funext fun i => funext fun j => e5 i j]
      rfl
    · have q := f3 "Hy" (by rcases ht with rfl | rfl <;> simp [surfKeys, p4 hx]) (by decide) i (by omega) (by omega)
      simp only [surfReads, if_neg (show ¬ ("Hy" = "Hx") by decide), if_true, Flds.interpolate, Flds.get, Except.ok_bind] at q
      have q := bilinear_value q
      rw [interpPos_real] at q
      dsimp only at q
      rw [(p6 i).1, (p6 i).2] at q
      rw [q, sub_zero, show (qs[m]).1.Hy.val = c.f.Hy.val from funext fun i => funext fun j => e6 i j]
      rfl
  -- the samples
  set smp := midway (fun _ => 0) ss with hsmp
  have lsm : smp.length = n := by rw [hsmp, midway_length, lss]
  set r : String → ℕ → ℕ → ℝ := fun x m i => ((smp[m]?).map fun q => q.v x i).getD 0 with hrd
  have rv : ∀ x m (hm : m < n) (i : ℕ), r x m i = (smp[m]'(by omega)).v x i := fun x m hm i => by
    rw [hrd]
    simp only [List.getElem?_eq_getElem (show m < smp.length by omega), Option.map_some, Option.getD_some]
  have four : ∀ f x (i : ℕ), fourierSum f x i smp = ∑ m ∈ Finset.range n, (r x m i : ℂ) * wavelet f ((m + 1) * g.dt) := fun f x i => by
    unfold fourierSum
    rw [← lsm]
    refine sum_indexed _ smp _ fun m hm => ?_
    rw [rv x m (by omega)]
    obtain ⟨c, c', -, -, e3, -⟩ := found m (by omega)
    have et : (smp[m]).t = (m + 1) * g.dt := by
      rw [← e3]
      simp only [hsmp, midway_get ss _ m (by omega)]
    rw [et]
    simp only [wavelet]
  have M5 : 0 ≤ M * g.dx * Real.sqrt (N * g.dx) := by positivity
  -- the electric field
  have boundE : ∀ u : ℝ, 0 ≤ u → u ≤ 1 → ∀ m < n, ll g.dx N (fun i => r "Ez" m i -
      w.E ((m + 1) * g.dt) ((A.x + (i + u) * is.tangent.x) * g.dx) ((A.y + (i + u) * is.tangent.y) * g.dx)) ≤ lineError g N M B := fun u u0 u1 m hm => by
    have lip := lip_E hst hr
    have base : ∀ k (hk : k < n), ll g.dx N (fun i => (ss[k]'(by omega)).e i -
        w.E ((k + 1) * g.dt) ((A.x + (i + u) * is.tangent.x) * g.dx) ((A.y + (i + u) * is.tangent.y) * g.dx)) ≤ B / Real.sqrt g.dx + 4 * M * g.dx * Real.sqrt (N * g.dx) := fun k hk => by
      obtain ⟨c, c', -, e2, -, e4, -⟩ := found k hk
      obtain ⟨d, F, d1, dn, d2⟩ := close (k + 1) hk
      obtain rfl := Except.ok.inj (e2.symm.trans d1)
      have kn : ((k : ℝ) + 1) ≤ n := by exact_mod_cast hk
      have := line_close hl L lip hM F.Ez.val (ox := 0) (oy := 0) (sx := 0) (sy := 0) le_rfl zero_le_one le_rfl zero_le_one le_rfl zero_le_one le_rfl zero_le_one (by norm_num)
        (t := (k + 1) * g.dt) (by positivity) ((mul_le_mul_of_nonneg_right kn dt0.le).trans hτ) (B := B) (by
          refine le_trans (le_of_eq (l2_congr fun i j _ => ?_)) (gap_parts d2).1
          simp only [Wave.nodeE, add_zero]
          push_cast
          rfl) u0 u1
      refine le_trans (ll_mono d0.le fun i hi => ?_) this
      rw [e4 i hi, bil_congr fun p q hc => (dn p q (nb i hi 0 0 le_rfl zero_le_one le_rfl zero_le_one p q hc)).1]
    have prev : ll g.dx N (fun i => (if m = 0 then 0 else ((ss[m - 1]?).map fun s => s.e (i : ℤ)).getD 0) -
        w.E (m * g.dt) ((A.x + (i + u) * is.tangent.x) * g.dx) ((A.y + (i + u) * is.tangent.y) * g.dx)) ≤ B / Real.sqrt g.dx + 4 * M * g.dx * Real.sqrt (N * g.dx) := by
      cases m with
      | zero =>
        have B0 : 0 ≤ B := (Real.sqrt_nonneg _).trans (close 0 (Nat.zero_le _)).choose_spec.choose_spec.2.2
        have : ll g.dx N (fun i => (if (0 : ℕ) = 0 then 0 else ((ss[0 - 1]?).map fun s => s.e (i : ℤ)).getD 0) -
            w.E ((0 : ℕ) * g.dt) ((A.x + (i + u) * is.tangent.x) * g.dx) ((A.y + (i + u) * is.tangent.y) * g.dx)) ≤ 0 := by
          refine le_trans (ll_mono (k := fun _ => 0) d0.le fun i hi => ?_) (le_of_eq (ll_zero _ _))
          have i1 : ((i : ℝ) + 1 : ℝ) ≤ N := by exact_mod_cast hi
          rw [if_pos rfl, Nat.cast_zero, zero_mul, lip.rest _ _ (L.inDomain hl (by positivity) (by linarith)), sub_zero]
        refine this.trans (by positivity)
      | succ m =>
        have := base m (by omega)
        refine le_trans (le_of_eq ?_) this
        congr 1
        funext i
        rw [if_neg (Nat.succ_ne_zero m), Nat.add_sub_cancel, List.getElem?_eq_getElem (show m < ss.length by omega), Option.map_some, Option.getD_some]
        push_cast
        rfl
    have bm := base m hm
    have mn : ((m : ℝ) + 1) ≤ n := by exact_mod_cast hm
    have split : ∀ i < N, |r "Ez" m i - w.E ((m + 1) * g.dt) ((A.x + (i + u) * is.tangent.x) * g.dx) ((A.y + (i + u) * is.tangent.y) * g.dx)| ≤
        |1 / 2 * |(ss[m]'(by omega)).e i - w.E ((m + 1) * g.dt) ((A.x + (i + u) * is.tangent.x) * g.dx) ((A.y + (i + u) * is.tangent.y) * g.dx)| +
          1 / 2 * |(if m = 0 then 0 else ((ss[m - 1]?).map fun s => s.e (i : ℤ)).getD 0) - w.E (m * g.dt) ((A.x + (i + u) * is.tangent.x) * g.dx) ((A.y + (i + u) * is.tangent.y) * g.dx)| +
          M * g.dx| := fun i hi => by
      have i1 : ((i : ℝ) + 1 : ℝ) ≤ N := by exact_mod_cast hi
      have tt := lip.t (m * g.dt) ((m + 1) * g.dt) _ _ (by positivity) (by nlinarith) ((mul_le_mul_of_nonneg_right mn dt0.le).trans hτ)
        (L.inDomain hl (r := i + u) (by positivity) (by linarith))
      have e : r "Ez" m i = ((ss[m]'(by omega)).e i + (if m = 0 then 0 else ((ss[m - 1]?).map fun s => s.e (i : ℤ)).getD 0)) / 2 := by
        rw [rv _ m hm]
        simp only [hsmp, midway_get ss _ m (by omega), if_true]
      rw [e]
      set z := (if m = 0 then 0 else ((ss[m - 1]?).map fun s => s.e (i : ℤ)).getD 0)
      set y := (ss[m]'(by omega)).e i
      set v := w.E ((m + 1) * g.dt) ((A.x + (i + u) * is.tangent.x) * g.dx) ((A.y + (i + u) * is.tangent.y) * g.dx)
      set v' := w.E (m * g.dt) ((A.x + (i + u) * is.tangent.x) * g.dx) ((A.y + (i + u) * is.tangent.y) * g.dx)
      refine le_trans ?_ (le_abs_self _)
      have md : M * ((m + 1) * g.dt - m * g.dt) ≤ 2 * (M * g.dx) := by
        rw [hl.dt]
        have := mul_nonneg hM d0.le
        linarith
      calc |(y + z) / 2 - v| = |1 / 2 * (y - v) + 1 / 2 * (z - v') + -(1 / 2 * (v - v'))| := by congr 1; ring
        _ ≤ |1 / 2 * (y - v)| + |1 / 2 * (z - v')| + |-(1 / 2 * (v - v'))| := (abs_add_le _ _).trans (add_le_add (abs_add_le _ _) le_rfl)
        _ = 1 / 2 * |y - v| + 1 / 2 * |z - v'| + 1 / 2 * |v - v'| := by rw [abs_neg, abs_mul, abs_mul, abs_mul, abs_of_pos (by norm_num : (0 : ℝ) < 1 / 2)]
        _ ≤ _ := by linarith
    refine (ll_mono d0.le split).trans ((ll_add d0.le N _ _).trans (le_trans (add_le_add ((ll_add d0.le N _ _).trans (add_le_add
      (le_of_eq (ll_smul g.dx N (by norm_num) _)) (le_of_eq (ll_smul g.dx N (by norm_num) _))))
      (ll_const d0.le N (k := M * g.dx) (by positivity) fun _ _ => by rw [abs_of_nonneg (by positivity)])) ?_))
    have c1 := (ll_mono d0.le (h := fun i : ℕ => |(ss[m]'(by omega)).e i - w.E ((m + 1) * g.dt) ((A.x + (i + u) * is.tangent.x) * g.dx) ((A.y + (i + u) * is.tangent.y) * g.dx)|)
      fun i _ => by rw [abs_abs]).trans bm
    have c2 := (ll_mono d0.le (h := fun i : ℕ => |(if m = 0 then 0 else ((ss[m - 1]?).map fun s => s.e (i : ℤ)).getD 0) -
        w.E (m * g.dt) ((A.x + (i + u) * is.tangent.x) * g.dx) ((A.y + (i + u) * is.tangent.y) * g.dx)|)
      fun i _ => by rw [abs_abs]).trans prev
    unfold lineError
    linarith
  -- everything from the magnetic field
  intro f S hS
  have main : ∀ (V : ℝ → ℝ → ℝ → ℝ) (x : String) (C : TM → ℂ) (κ : ℝ), |κ| = 1 → (∀ φ : TM, φ.outflow (lineNormal a b sg) = κ * (φ.Ez * (starRingEnd ℂ) (C φ)).re) →
      Lip V g τ M → (∀ f T x y, C (w.phasor f T x y) = spectrum (fun t => V t x y) f T) → (∀ f i l, C (phasors f i l) = fourierSum f x i l) →
      (∀ u : ℝ, 0 ≤ u → u ≤ 1 → ∀ m < n, ll g.dx N (fun i => r x m i -
        V ((m + 1 / 2) * g.dt) ((A.x + (i + u) * is.tangent.x) * g.dx) ((A.y + (i + u) * is.tangent.y) * g.dx)) ≤ lineError g N M B) →
      |g.dt ^ 2 * (∑ i ∈ Finset.range N, (phasors f i smp).outflow (lineNormal a b sg) * g.dx) -
        w.flow f (n * g.dt) (g.toReal A) (g.toReal (g.toGrid b)) (lineNormal a b sg)| ≤ S * (2 * (M * (n * g.dt) * (n * g.dt)) * Real.sqrt (N * g.dx) + S) := by
    intro V x C κ hκ hout lip hC hC' hb
    have lipE := lip_E hst hr
    rw [flow_cells w d0 f (n * g.dt) A (g.toGrid b) (lineNormal a b sg) p1 p2 p3]
    set ψ : ℝ → ℝ := fun q => (w.phasor f (n * g.dt) ((A.x + q * is.tangent.x) * g.dx) ((A.y + q * is.tangent.y) * g.dx)).outflow (lineNormal a b sg) with hψ
    have cψ : ContinuousOn ψ (Set.Icc 0 (N : ℝ)) := by
      have c1 := spectrum_continuous hl L lipE hM T0 hτ f
      have c2 := spectrum_continuous hl L lip hM T0 hτ f
      have : ψ = fun q => κ * ((spectrum (fun t => w.E t ((A.x + q * is.tangent.x) * g.dx) ((A.y + q * is.tangent.y) * g.dx)) f (n * g.dt)) *
          (starRingEnd ℂ) (spectrum (fun t => V t ((A.x + q * is.tangent.x) * g.dx) ((A.y + q * is.tangent.y) * g.dx)) f (n * g.dt))).re := by
        funext q
        rw [hψ]
        dsimp only
        rw [hout, hC]
        rfl
      rw [this]
      exact continuousOn_const.mul (Complex.continuous_re.comp_continuousOn (c1.mul (Complex.continuous_conj.comp_continuousOn c2)))
    have key := sum_flow (d := g.dx) N (fun i => g.dt ^ 2 * (phasors f i smp).outflow (lineNormal a b sg)) ψ cψ (K := S * (2 * (M * (n * g.dt) * (n * g.dt)) * Real.sqrt (N * g.dx) + S))
      fun u u0 u1 => by
        have i1 : ∀ i : ℕ, i < N → ((i : ℝ) + 1 : ℝ) ≤ N := fun i hi => by exact_mod_cast hi
        have i0 : ∀ i : ℕ, (0 : ℝ) ≤ i := fun i => Nat.cast_nonneg i
        have dom : ∀ i < N, InDomain g ((A.x + (i + u) * is.tangent.x) * g.dx) ((A.y + (i + u) * is.tangent.y) * g.dx) := fun i hi =>
          L.inDomain hl (r := i + u) (by linarith [i0 i]) (by linarith [i1 i hi])
        have sE := spectra_ll d0.le dt0.le hM N (fun i t => w.E t ((A.x + (i + u) * is.tangent.x) * g.dx) ((A.y + (i + u) * is.tangent.y) * g.dx))
          (fun i hi t t' p q z => lipE.t t t' _ _ p q z (dom i hi)) (fun i hi => lipE.rest _ _ (dom i hi)) f n hτ (r "Ez") 1 zero_le_one le_rfl _ (boundE u u0 u1)
        have sV := spectra_ll d0.le dt0.le hM N (fun i t => V t ((A.x + (i + u) * is.tangent.x) * g.dx) ((A.y + (i + u) * is.tangent.y) * g.dx))
          (fun i hi t t' p q z => lip.t t t' _ _ p q z (dom i hi)) (fun i hi => lip.rest _ _ (dom i hi)) f n hτ (r x) (1 / 2) (by norm_num) (by norm_num) _ (hb u u0 u1)
        rw [← hS] at sE sV
        have aE : ∀ i < N, ‖spectrum (fun t => w.E t ((A.x + (i + u) * is.tangent.x) * g.dx) ((A.y + (i + u) * is.tangent.y) * g.dx)) f (n * g.dt)‖ ≤ M * (n * g.dt) * (n * g.dt) := fun i hi =>
          spectrum_le T0 hM (fun t t' p q z => lipE.t t t' _ _ p q (z.trans hτ) (dom i hi)) (lipE.rest _ _ (dom i hi)) f
        have aV : ∀ i < N, ‖spectrum (fun t => V t ((A.x + (i + u) * is.tangent.x) * g.dx) ((A.y + (i + u) * is.tangent.y) * g.dx)) f (n * g.dt)‖ ≤ M * (n * g.dt) * (n * g.dt) := fun i hi =>
          spectrum_le T0 hM (fun t t' p q z => lip.t t t' _ _ p q (z.trans hτ) (dom i hi)) (lip.rest _ _ (dom i hi)) f
        have fl := flow_ll d0.le N _ _ _ _ sE sV (by positivity) aE aV
        rw [abs_of_pos d0]
        refine le_trans (le_of_eq ?_) fl
        congr 1
        refine Finset.sum_congr rfl fun i _ => ?_
        rw [hψ]
        dsimp only
        rw [hout, hout, hC, hC', four, show (phasors f i smp).Ez = fourierSum f "Ez" i smp from rfl, four]
        set e := ∑ m ∈ Finset.range n, (r "Ez" m i : ℂ) * wavelet f ((m + 1) * g.dt)
        set v := ∑ m ∈ Finset.range n, (r x m i : ℂ) * wavelet f ((m + 1) * g.dt)
        have sq : g.dt ^ 2 * (e * (starRingEnd ℂ) v).re = ((g.dt : ℂ) * e * (starRingEnd ℂ) ((g.dt : ℂ) * v)).re := by
          rw [map_mul, Complex.conj_ofReal, show (g.dt : ℂ) * e * ((g.dt : ℂ) * (starRingEnd ℂ) v) = ((g.dt ^ 2 : ℝ) : ℂ) * (e * (starRingEnd ℂ) v) by push_cast; ring, Complex.re_ofReal_mul]
        rw [← sq, show g.dt ^ 2 * (κ * (e * (starRingEnd ℂ) v).re) = κ * (g.dt ^ 2 * (e * (starRingEnd ℂ) v).re) by ring, ← mul_sub, abs_mul, hκ, one_mul]
        rfl
    refine le_trans (le_of_eq ?_) key
    congr 2
    rw [Finset.mul_sum, Finset.mul_sum]
    exact Finset.sum_congr rfl fun i _ => by ring
  have sg1 : |(sg.toInt : ℝ)| = 1 := by cases sg <;> simp [Sgn.toInt]
  have hdd : |1 / 2 - g.dx| ≤ 1 / 2 := abs_le.mpr ⟨by linarith, by linarith⟩
  have le : B / Real.sqrt g.dx + 4 * M * g.dx * Real.sqrt (N * g.dx) ≤ lineError g N M B := by
    unfold lineError
    linarith
  by_cases hx : a.x = b.x
  · refine main w.Y "Hy" TM.Hy (-(sg.toInt : ℝ)) (by rw [abs_neg, sg1]) (fun φ => ?_) (lip_Y hst hev hr) (fun _ _ _ _ => rfl) (fun _ _ _ => rfl) fun u u0 u1 m hm => ?_
    · rw [lineNormal, if_pos hx, outflow_vertical]
    · obtain ⟨c, c', e1, -, -, -, -, e4⟩ := found m hm
      obtain ⟨d, F, d1, dn, d2⟩ := close m hm.le
      obtain rfl := Except.ok.inj (e1.symm.trans d1)
      have mn : ((m : ℝ) + 1) ≤ n := by exact_mod_cast hm
      have := line_close hl L (lip_Y hst hev hr) hM F.Hy.val (ox := 1 / 2) (oy := 0) (sx := g.dx) (sy := 0) (by norm_num) (by norm_num) le_rfl zero_le_one d0.le hd le_rfl zero_le_one
        (by rw [sub_zero, abs_zero, add_zero]; exact hdd) (t := (m + 1 / 2) * g.dt) (by positivity) ((mul_le_mul_of_nonneg_right (by linarith : (m : ℝ) + 1 / 2 ≤ n) dt0.le).trans hτ)
        (B := B) (by
          refine le_trans (le_of_eq (l2_congr fun i j _ => ?_)) (gap_parts d2).2.2
          simp only [Wave.nodeY, add_zero]) u0 u1
      refine le_trans (ll_mono d0.le fun i hi => ?_) (this.trans le)
      rw [← bil_congr fun p q hc => (dn p q (nb i hi _ _ d0.le hd le_rfl zero_le_one p q hc)).2.2, rv _ m hm, ← e4 hx i hi]
      simp only [hsmp, midway_get ss _ m (by omega), if_neg (show ¬ ("Hy" = "Ez") by decide)]
      exact le_rfl
  · refine main w.X "Hx" TM.Hx (sg.toInt : ℝ) sg1 (fun φ => ?_) (lip_X hst hev hr) (fun _ _ _ _ => rfl) (fun _ _ _ => rfl) fun u u0 u1 m hm => ?_
    · rw [lineNormal, if_neg hx, outflow_horizontal]
    · obtain ⟨c, c', e1, -, -, -, e4, -⟩ := found m hm
      obtain ⟨d, F, d1, dn, d2⟩ := close m hm.le
      obtain rfl := Except.ok.inj (e1.symm.trans d1)
      have mn : ((m : ℝ) + 1) ≤ n := by exact_mod_cast hm
      have := line_close hl L (lip_X hst hev hr) hM F.Hx.val (ox := 0) (oy := 1 / 2) (sx := 0) (sy := g.dx) le_rfl zero_le_one (by norm_num) (by norm_num) le_rfl zero_le_one d0.le hd
        (by rw [sub_zero, abs_zero, zero_add]; exact hdd) (t := (m + 1 / 2) * g.dt) (by positivity) ((mul_le_mul_of_nonneg_right (by linarith : (m : ℝ) + 1 / 2 ≤ n) dt0.le).trans hτ)
        (B := B) (by
          refine le_trans (le_of_eq (l2_congr fun i j _ => ?_)) (gap_parts d2).2.1
          simp only [Wave.nodeX, add_zero]) u0 u1
      refine le_trans (ll_mono d0.le fun i hi => ?_) (this.trans le)
      rw [← bil_congr fun p q hc => (dn p q (nb i hi _ _ le_rfl zero_le_one d0.le hd p q hc)).2.1, rv _ m hm, ← e4 hx i hi]
      simp only [hsmp, midway_get ss _ m (by omega), if_neg (show ¬ ("Hx" = "Ez") by decide)]
      exact le_rfl

/-- The line of a monitor in the fields of a scene that are close to a wave. -/
theorem line_flow (g : Grid ℝ) (hl : Lawful g) (hd : g.dx ≤ 1) (a b : V2 ℝ) (sg : Sgn) (s : Surf ℝ) (tag : DftTag)
    (ht : tag = .all ∨ tag = .tangent) (hs : Surf.make a b sg = .ok s) (hne : g.toGrid a ≠ g.toGrid b)
    (xa : 2 ≤ (g.toGrid a).x ∧ (g.toGrid a).x ≤ g.Nx - 2) (ya : 2 ≤ (g.toGrid a).y ∧ (g.toGrid a).y ≤ g.Ny - 2)
    (xb : 2 ≤ (g.toGrid b).x ∧ (g.toGrid b).x ≤ g.Nx - 2) (yb : 2 ≤ (g.toGrid b).y ∧ (g.toGrid b).y ≤ g.Ny - 2)
    (sce : Scene) (n : ℕ) (qs : List (Flds ℝ × ℝ)) (is : ISurf) (ss : List (Snap ℝ)) (k3 : qs.length = n) (hi : g.toGridS s = .ok is)
    (k4 : List.Forall₂ (fun q r => Finds (cells g a b) (surfKeys tag is) (surfReads g s is q) r) qs ss)
    (sc : ∀ m (hm : m < qs.length), ∃ c c', sce.run g m = .ok c ∧ sce.run g (m + 1) = .ok c' ∧ (qs[m]).2 = (m + 1) * g.dt ∧ (qs[m]).1.Ez = c'.f.Ez ∧
      (∀ i j, (qs[m]).1.Hx.val i j = c.f.Hx.val i j) ∧ (∀ i j, (qs[m]).1.Hy.val i j = c.f.Hy.val i j))
    (w : Spec.Wave) (τ M B : ℝ) (hM : 0 ≤ M) (hst : w.Steady g τ M) (hev : w.Even g τ M) (hr : w.AtRest g) (hτ : n * g.dt ≤ τ)
    (close : ∀ m ≤ n, ∃ c, sce.run g m = .ok c ∧ Real.sqrt (gap w g m c.f (updatedNodes g)) ≤ B) :
    ∀ f S, S = n * g.dt * (lineError g (cells g a b) M B + Real.sqrt (cells g a b * g.dx) * (g.dt * (M + 2 * Real.pi * |f| * (M * (n * g.dt))))) →
      |g.dt ^ 2 * (∑ i ∈ Finset.range (cells g a b), (phasors f i (midway (fun _ => 0) ss)).outflow (lineNormal a b sg) * g.dx) -
          w.flow f (n * g.dt) (g.toReal (g.toGrid a)) (g.toReal (g.toGrid b)) (lineNormal a b sg)| ≤
        S * (2 * (M * (n * g.dt) * (n * g.dt)) * Real.sqrt (cells g a b * g.dx) + S) :=
  line_flow_near g hl hd a b sg s tag ht hs hne xa ya xb yb sce n qs is ss k3 hi k4 sc w τ M B hM hst hev hr hτ fun m hm => by
    obtain ⟨c, e1, e2⟩ := close m hm
    exact ⟨c, c.f, e1, fun _ _ _ => ⟨rfl, rfl, rfl⟩, e2⟩

theorem inner_of_two {g : Grid ℝ} {q : V2 ℤ} (h1 : 2 ≤ q.x ∧ q.x ≤ g.Nx - 2) (h2 : 2 ≤ q.y ∧ q.y ≤ g.Ny - 2) (hd : g.dx ≤ 1) : InnerNode g q := by
  have e1 : (2 : ℝ) ≤ q.x := by exact_mod_cast h1.1
  have e2 : (2 : ℝ) ≤ q.y := by exact_mod_cast h2.1
  exact ⟨by linarith, by linarith, by omega, by omega⟩

/-- A surface monitor in a program whose fields are close to a wave. -/
theorem flux_close (now : ℕ → ℝ) (g : Grid ℝ) (hl : Lawful g) (hd : g.dx ≤ 1) (cs1 cs2 later : List (Call ℝ)) (name : String) (a b : V2 ℝ) (sg : Sgn) (s : Surf ℝ) (tag : DftTag)
    (ht : tag = .all ∨ tag = .tangent) (freq : List ℝ) (hs : Surf.make a b sg = .ok s) (hne : g.toGrid a ≠ g.toGrid b)
    (xa : 2 ≤ (g.toGrid a).x ∧ (g.toGrid a).x ≤ g.Nx - 2) (ya : 2 ≤ (g.toGrid a).y ∧ (g.toGrid a).y ≤ g.Ny - 2)
    (xb : 2 ≤ (g.toGrid b).x ∧ (g.toGrid b).x ≤ g.Nx - 2) (yb : 2 ≤ (g.toGrid b).y ∧ (g.toGrid b).y ≤ g.Ny - 2)
    (w1 w2 w3 w4 : World ℝ) (h : Watched now g cs1 (.surf (.make name s tag freq)) cs2 w1 w2)
    (hf : Furnishes (simOps cs1)) (ha : Advances (simOps cs2)) (he : ∀ s ∈ sourcesOf (simOps cs1), ∀ C i j, Drives g s C ⟨i, j⟩ → C = .Ez)
    (hw : w2.step now (.report w1.sim.mons.length .flux) = .ok w3) (hla : w3.run now later = .ok w4) (n : ℕ) (hn : n = (simOps cs2).countP isUpdate)
    (w : Spec.Wave) (τ M B : ℝ) (hM : 0 ≤ M) (hst : w.Steady g τ M) (hev : w.Even g τ M) (hr : w.AtRest g) (hτ : n * g.dt ≤ τ)
    (close : ∀ m ≤ n, ∃ c, (⟨objectsOf (simOps cs1), sourcesOf (simOps cs1), none⟩ : Scene).run g m = .ok c ∧
      Real.sqrt (gap w g m c.f (updatedNodes g)) ≤ B) :
    ∃ F : ℝ → ℝ, w4.tree.at ["monitors", "surface_monitor", name, "flux"] = some (.nums (freq.map F)) ∧
      ∀ f S, S = n * g.dt * (lineError g (cells g a b) M B + Real.sqrt (cells g a b * g.dx) * (g.dt * (M + 2 * Real.pi * |f| * (M * (n * g.dt))))) →
        |g.dt ^ 2 * F f - w.flow f (n * g.dt) (g.toReal (g.toGrid a)) (g.toReal (g.toGrid b)) (lineNormal a b sg)| ≤
          S * (2 * (M * (n * g.dt) * (n * g.dt)) * Real.sqrt (cells g a b * g.dx) + S) := by
  have hc : ∀ op ∈ simOps cs2, isClear op = false := fun op ho => by
    rcases ha op ho with k | rfl
    · cases op <;> first | rfl | cases k
    · rfl
  obtain ⟨s2, qs, is, ss, k1, k2, k3, hi, k4, k5⟩ := C67_flux_partial now g cs1 cs2 later name a b sg s tag ht freq hs hne (inner_of_two xa ya hd) (inner_of_two xb yb hd) w1 w2 w3 w4 h hc hw hla
  exact ⟨_, k5, line_flow g hl hd a b sg s tag ht hs hne xa ya xb yb _ n qs is ss (k3.trans hn.symm) hi k4 (shown_scene h hf ha he k1 k2) w τ M B hM hst hev hr hτ close⟩

namespace Props

/-- A program on a file makes a closed domain, adds objects and sources, then a surface monitor from `a` to `b` that is two nodes away from the walls; it takes `n` steps and
writes the flux. In between it may call whatever only looks, and afterwards it may do anything: `w4` is the file then. -/
structure LineWritten (now : ℕ → ℝ) (g : Grid ℝ) (cs1 cs2 later : List (Call ℝ)) (name : String) (a b : V2 ℝ) (sg : Sgn) (tag : DftTag) (freq : List ℝ) (n : ℕ) (w4 : World ℝ) :
    Prop where
  lawful : Lawful g
  closed : g.T = 0
  fine : g.dx ≤ 1
  wide : g.Wide
  furnishes : Furnishes (simOps cs1)
  advances : Advances (simOps cs2)
  steps : n = (simOps cs2).countP isUpdate
  records : tag = .all ∨ tag = .tangent
  line : g.toGrid a ≠ g.toGrid b
  ax : 2 ≤ (g.toGrid a).x ∧ (g.toGrid a).x ≤ g.Nx - 2
  ay : 2 ≤ (g.toGrid a).y ∧ (g.toGrid a).y ≤ g.Ny - 2
  bx : 2 ≤ (g.toGrid b).x ∧ (g.toGrid b).x ≤ g.Nx - 2
  by' : 2 ≤ (g.toGrid b).y ∧ (g.toGrid b).y ≤ g.Ny - 2
  runs : ∃ s w1 w2 w3, Surf.make a b sg = .ok s ∧ Watched now g cs1 (.surf (.make name s tag freq)) cs2 w1 w2 ∧ w2.step now (.report w1.sim.mons.length .flux) = .ok w3 ∧
    w3.run now later = .ok w4

/-- The file has a list of numbers, one per frequency; `dt ^ 2` times the number of frequency `f` differs from the energy of this frequency that flows through the line up to
time `T` by at most `bound f`. The line is the one between the nodes at the ends of the monitor. -/
def HoldsFlux (w4 : World ℝ) (g : Grid ℝ) (name : String) (a b : V2 ℝ) (sg : Sgn) (freq : List ℝ) (w : Spec.Wave) (T : ℝ) (bound : ℝ → ℝ) : Prop :=
  ∃ F : ℝ → ℝ, w4.tree.at ["monitors", "surface_monitor", name, "flux"] = some (.nums (freq.map F)) ∧
    ∀ f, |g.dt ^ 2 * F f - w.flow f T (g.toReal (g.toGrid a)) (g.toReal (g.toGrid b)) (lineNormal a b sg)| ≤ bound f

/-- How far the spectra along a line of `N` cells are from those of a wave, if the fields are within `B` of it at all steps. -/
noncomputable def lineSpectralError (g : Grid ℝ) (N : ℕ) (M T B f : ℝ) : ℝ :=
  T * (lineError g N M B + Real.sqrt (N * g.dx) * (g.dt * (M + 2 * Real.pi * |f| * (M * T))))

/-- What this makes of the energy flow. -/
noncomputable def flowError (g : Grid ℝ) (N : ℕ) (M T B f : ℝ) : ℝ :=
  lineSpectralError g N M T B f * (2 * (M * T * T) * Real.sqrt (N * g.dx) + lineSpectralError g N M T B f)

theorem holdsFlux_close {now : ℕ → ℝ} {g : Grid ℝ} {cs1 cs2 later : List (Call ℝ)} {name : String} {a b : V2 ℝ} {sg : Sgn} {tag : DftTag} {freq : List ℝ} {n : ℕ} {w4 : World ℝ}
    (h : LineWritten now g cs1 cs2 later name a b sg tag freq n w4) {s : Surf ℝ} (hs : Surf.make a b sg = .ok s)
    (w1 w2 w3 : World ℝ) (hw : Watched now g cs1 (.surf (.make name s tag freq)) cs2 w1 w2) (he : ∀ s ∈ sourcesOf (simOps cs1), ∀ C i j, Drives g s C ⟨i, j⟩ → C = .Ez)
    (k2 : w2.step now (.report w1.sim.mons.length .flux) = .ok w3) (k3 : w3.run now later = .ok w4)
    (w : Spec.Wave) (τ M B : ℝ) (hM : 0 ≤ M) (hst : w.Steady g τ M) (hev : w.Even g τ M) (hr : w.AtRest g) (hτ : n * g.dt ≤ τ)
    (close : ∀ m ≤ n, ∃ c, (⟨objectsOf (simOps cs1), sourcesOf (simOps cs1), none⟩ : Scene).run g m = .ok c ∧ Real.sqrt (gap w g m c.f (updatedNodes g)) ≤ B) :
    HoldsFlux w4 g name a b sg freq w (n * g.dt) (flowError g (cells g a b) M (n * g.dt) B) := by
  obtain ⟨F, f1, f2⟩ := flux_close now g h.lawful h.fine cs1 cs2 later name a b sg s tag h.records freq hs h.line h.ax h.ay h.bx h.by' w1 w2 w3 w4 hw h.furnishes h.advances he k2 k3 n
    h.steps w τ M B hM hst hev hr hτ close
  exact ⟨F, f1, fun f => f2 f _ rfl⟩

/-- **C96**, simple media. Objects of passive simple media and sources of `Ez` that carry the current of a solution of Maxwell's equations that starts from rest: what the
monitor writes as flux is the energy flow of the solution through its line, up to the error of the fields (C84), divided by the root of the size of a cell, and terms of first
order in it. -/
theorem C96_simple {now : ℕ → ℝ} {g : Grid ℝ} {cs1 cs2 later : List (Call ℝ)} {name : String} {a b : V2 ℝ} {sg : Sgn} {tag : DftTag} {freq : List ℝ} {n : ℕ}
    {w4 : World ℝ} (h : LineWritten now g cs1 cs2 later name a b sg tag freq n w4) (objs : List (Object ℝ)) (srcs : List (Source ℝ)) (ho : objectsOf (simOps cs1) = objs)
    (hsr : sourcesOf (simOps cs1) = srcs) (hb : ∀ o ∈ objs, BoxSound o)
    (hc : ∀ o ∈ objs, ClearOfUnguardedEdges g o) (hp : ∀ o ∈ objs, PassiveObject o) (epsMax sigMax : ℝ) (he : AtMost epsMax objs)
    (hs : ConductAtMost sigMax objs) (eps sig : ℝ → ℝ → ℝ) (hmed : MediumOf objs eps sig) (w : Spec.Wave) (S : ℝ → ℝ → Prop) (J : ℝ → ℝ → ℝ → ℝ) (τ M δ : ℝ)
    (hsm : w.Smooth S g τ M) (hst : w.Steady g τ M) (hev : w.Even g τ M) (hmx : w.Driven S eps sig J g τ) (hJ : CurrentAtMost J g τ M) (hwl : w.Walls g τ) (hr : w.AtRest g)
    (fits : ∀ s ∈ srcs, Fits g s) (hδ : 0 ≤ δ) (hk : Spec.Carries g srcs eps sig J τ δ) (hn : ((n : ℝ) + 1 / 2) * g.dt ≤ τ) :
    HoldsFlux w4 g name a b sg freq w (n * g.dt)
      (flowError g (cells g a b) M (n * g.dt) (restError S g M epsMax + n * g.dt * drivenError S g M epsMax sigMax δ)) := by
  subst ho hsr
  obtain ⟨s, w1, w2, w3, k0, k1, k2, k3⟩ := h.runs
  have dt0 : 0 < g.dt := by rw [h.lawful.dt]; linarith [h.lawful.dx]
  have n0 : (0 : ℝ) ≤ n := Nat.cast_nonneg n
  refine holdsFlux_close h k0 w1 w2 w3 k1
    (fun s hs C i j hd => (hk.electric s hs C i j hd).1) k2 k3 w τ M _ (current_nonneg h.wide h.lawful h.closed hJ (by nlinarith)) hst hev hr (by nlinarith) fun m hm => ?_
  obtain ⟨c, e1, e2⟩ := C84_radiates m g h.wide h.lawful h.closed _ hb hc hp epsMax sigMax he hs eps sig hmed w S J τ M δ hsm hst hmx hJ hwl hr _ fits hδ hk
    (earlier hm dt0 hn).1
  exact ⟨c, e1, e2.trans (add_le_add_right (mul_le_mul_of_nonneg_right (earlier hm dt0 hn).2 (Real.sqrt_nonneg _)) _)⟩

/-- **C96**, Debye and Drude media of one pole: as `C96_simple`, with the error of the fields of C85. -/
theorem C96_dispersive {now : ℕ → ℝ} {g : Grid ℝ} {cs1 cs2 later : List (Call ℝ)} {name : String} {a b : V2 ℝ} {sg : Sgn} {tag : DftTag} {freq : List ℝ} {n : ℕ}
    {w4 : World ℝ} (h : LineWritten now g cs1 cs2 later name a b sg tag freq n w4) (objs : List (Object ℝ)) (srcs : List (Source ℝ)) (hob : objectsOf (simOps cs1) = objs)
    (hsr : sourcesOf (simOps cs1) = srcs) (hb : ∀ o ∈ objs, BoxSound o)
    (hc : ∀ o ∈ objs, ClearOfUnguardedEdges g o) (hp : ∀ o ∈ objs, PassiveKind o.mat.kind) (hnm : OneMeaning objs) (hu : Uncovered g objs)
    (eps sig : ℝ → ℝ → ℝ) (res : ℝ → ℝ → Response) (hmat : MatterOf objs eps sig res) (epsMax sigMax q : ℝ) (hmax : MatterAtMost eps sig res epsMax sigMax q)
    (w : Spec.Wave) (K Kt I : ℝ → ℝ → ℝ → ℝ) (S : ℝ → ℝ → Prop) (τ M δ : ℝ) (hsm : w.Smooth S g τ M) (hst : w.Steady g τ M) (hev : w.Even g τ M)
    (hmx : w.Driven S eps sig (fun t x y => K t x y + I t x y) g τ) (hK : w.Polarized K Kt S res g τ M) (hI : CurrentAtMost I g τ M) (hwl : w.Walls g τ)
    (hr : w.AtRest g) (hrK : ∀ x y, InDomain g x y → K 0 x y = 0) (fits : ∀ s ∈ srcs, Fits g s) (hδ : 0 ≤ δ)
    (hk : Spec.Carries g srcs eps sig I τ δ) (ho : OutsideMemory g objs srcs) (hn : ((n : ℝ) + 1 / 2) * g.dt ≤ τ) :
    HoldsFlux w4 g name a b sg freq w (n * g.dt)
      (flowError g (cells g a b) M (n * g.dt) (restError S g M (epsMax + q ^ 2) + n * g.dt * polarError S g M epsMax sigMax q δ)) := by
  subst hob hsr
  obtain ⟨s, w1, w2, w3, k0, k1, k2, k3⟩ := h.runs
  have dt0 : 0 < g.dt := by rw [h.lawful.dt]; linarith [h.lawful.dx]
  have n0 : (0 : ℝ) ≤ n := Nat.cast_nonneg n
  refine holdsFlux_close h k0 w1 w2 w3 k1
    (fun s hs C i j hd => (hk.electric s hs C i j hd).1) k2 k3 w τ M _ (current_nonneg h.wide h.lawful h.closed hI (by nlinarith)) hst hev hr (by nlinarith) fun m hm => ?_
  obtain ⟨c, e1, e2⟩ := C85_solves m g h.wide h.lawful h.closed _ hb hc hp hnm hu eps sig res hmat epsMax sigMax q hmax w K Kt I S τ M δ hsm hst hmx hK hI hwl hr hrK _
    fits hδ hk ho (earlier hm dt0 hn).1
  exact ⟨c, e1, e2.trans (add_le_add_right (mul_le_mul_of_nonneg_right (earlier hm dt0 hn).2 (Real.sqrt_nonneg _)) _)⟩

/-- **C96**, a Lorentz medium of one pole on top of passive simple media: as `C96_simple`, with the error of the fields of C93. -/
theorem C96_lorentz {now : ℕ → ℝ} {g : Grid ℝ} {cs1 cs2 later : List (Call ℝ)} {name : String} {a b : V2 ℝ} {sg : Sgn} {tag : DftTag} {freq : List ℝ} {n : ℕ}
    {w4 : World ℝ} (h : LineWritten now g cs1 cs2 later name a b sg tag freq n w4) (objs : List (Object ℝ)) (srcs : List (Source ℝ)) (o : Object ℝ)
    (hob : objectsOf (simOps cs1) = objs ++ [o]) (hsr : sourcesOf (simOps cs1) = srcs) (hb : ∀ o ∈ objs, BoxSound o)
    (hc : ∀ o ∈ objs, ClearOfUnguardedEdges g o) (hp : ∀ o ∈ objs, PassiveObject o) (epsMax sigMax : ℝ) (he : AtMost epsMax objs)
    (hs : ConductAtMost sigMax objs) (eps sig : ℝ → ℝ → ℝ) (hmed : MediumOf objs eps sig) (e : ℝ) (p : LorentzPole ℝ)
    (hk : o.mat.kind = .lorentz ⟨e, [p]⟩) (bo : BoxSound o) (co : ClearOfUnguardedEdges g o) (e1 : 1 ≤ e) (e2 : e ≤ epsMax)
    (p1 : p.omega ≠ 0) (p2 : 0 < p.dEps) (p3 : 0 ≤ p.gamma)
    (w : Spec.Wave) (S : ℝ → ℝ → Prop) (P K Kt I : ℝ → ℝ → ℝ → ℝ) (τ M δ : ℝ) (hsm : w.Smooth S g τ M) (hst : w.Steady g τ M) (hev : w.Even g τ M)
    (hmx : w.Driven S (coated o e eps) (coated o 0 sig) (fun t x y => K t x y + I t x y) g τ)
    (hq : w.Swinging P K Kt S (fun x y => o.inside ⟨x, y⟩ = true) p g τ M) (hI : CurrentAtMost I g τ M) (hwl : w.Walls g τ) (hr : w.AtRest g)
    (hP : ∀ x y, InDomain g x y → P 0 x y = 0 ∧ K 0 x y = 0)
    (fits : ∀ s ∈ srcs, Fits g s) (hδ : 0 ≤ δ) (hcr : Spec.Carries g srcs (coated o e eps) (coated o 0 sig) I τ δ)
    (ho : ∀ t (i j : ℤ), o.inside ⟨i * g.dx, j * g.dx⟩ = true → addedE g srcs t i j = 0) (hn : ((n : ℝ) + 1 / 2) * g.dt ≤ τ) :
    HoldsFlux w4 g name a b sg freq w (n * g.dt)
      (flowError g (cells g a b) M (n * g.dt) (3 * (Real.exp (swingRate p epsMax sigMax g.dt * (n * g.dt)) *
        (swingStart S g p M epsMax + n * g.dt * swingError S g p M epsMax sigMax δ)))) := by
  subst hsr
  obtain ⟨s, w1, w2, w3, k0, k1, k2, k3⟩ := h.runs
  have dt0 : 0 < g.dt := by rw [h.lawful.dt]; linarith [h.lawful.dx]
  have n0 : (0 : ℝ) ≤ n := Nat.cast_nonneg n
  have M0 : 0 ≤ M := current_nonneg h.wide h.lawful h.closed hI (by nlinarith)
  have s0 : 0 ≤ swingStart S g p M epsMax := by
    unfold swingStart restError
    have := h.lawful.dx
    positivity
  obtain ⟨l0, f0, r0⟩ := rates_nonneg (p := p) ⟨p1, p2, p3⟩ (by linarith : 0 ≤ epsMax) hs.1 dt0.le
  have q0 : 0 ≤ swingNoise S g M epsMax sigMax (swingStiff p) δ := by unfold swingNoise; positivity
  have w0 : 0 ≤ swingError S g p M epsMax sigMax δ := by unfold swingError; positivity
  refine holdsFlux_close h k0 w1 w2 w3 k1
    (fun s hs C i j hd => (hcr.electric s hs C i j hd).1) k2 k3 w τ M _ M0 hst hev hr (by nlinarith) fun m hm => ?_
  obtain ⟨c, c1, c2⟩ := C93_solves m g h.wide h.lawful h.closed objs hb hc hp epsMax sigMax he hs eps sig hmed o e p hk bo co e1 e2 p1 p2 p3 w S P K Kt I τ M δ hsm hst
    hmx hq hI hwl hr hP _ fits hδ hcr ho (earlier hm dt0 hn).1
  rw [hob]
  have mn := (earlier hm dt0 hn).2
  refine ⟨c, c1, c2.trans (mul_le_mul_of_nonneg_left (mul_le_mul (Real.exp_le_exp.mpr (mul_le_mul_of_nonneg_left mn r0))
    (add_le_add_right (mul_le_mul_of_nonneg_right mn w0) _) (add_nonneg s0 (by positivity)) (Real.exp_nonneg _)) (by norm_num))⟩

end Props
end Qbox
