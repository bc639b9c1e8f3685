import Verif.Props.BoxWaveProps
import Verif.Spec.ForceWaveSpec

/-! # C102: the force of box monitors is the momentum flow of the electromagnetic wave -/

namespace Qbox
open Scalar Spec Props

/-- The three components by number. -/
def partOf (φ : TM) : Fin 3 → ℂ := ![φ.Ez, φ.Hx, φ.Hy]
/-- the components of a wave -/
def sideOf (w : Spec.Wave) : Fin 3 → ℝ → ℝ → ℝ → ℝ := ![w.E, w.X, w.Y]
/-- their names -/
def keyOf : Fin 3 → String := !["Ez", "Hx", "Hy"]
/-- the part of a step after which they are found -/
noncomputable def lateOf : Fin 3 → ℝ := ![1, 1 / 2, 1 / 2]

/-- A form of second degree in the components with the coefficients `κ`. -/
noncomputable def formOf (κ : Fin 3 → Fin 3 → ℝ) (φ : TM) : ℝ := ∑ p, ∑ q, κ p q * (partOf φ p * (starRingEnd ℂ) (partOf φ q)).re

theorem partOf_phasor (w : Spec.Wave) (f T x y : ℝ) (p : Fin 3) : partOf (w.phasor f T x y) p = spectrum (fun t => sideOf w p t x y) f T := by
  fin_cases p <;> rfl

theorem partOf_phasors (f : ℝ) (i : ℤ) (l : List (Sample ℝ ℤ)) (p : Fin 3) : partOf (phasors f i l) p = fourierSum f (keyOf p) i l := by
  fin_cases p <;> rfl

/-- Forms of second degree along the line of a monitor that records all components, if fields that are the same near the line are close to a wave. The coefficients may vary
along the line: those of the sum are at most `K`, and within `ε` of those of the integral. -/
theorem line_form_near (g : Grid ℝ) (hl : Lawful g) (hd : g.dx ≤ 1) (a b : V2 ℝ) (sg : Sgn) (s : Surf ℝ) (hs : Surf.make a b sg = .ok s) (hne : g.toGrid a ≠ g.toGrid b)
    (xa : 2 ≤ (g.toGrid a).x ∧ (g.toGrid a).x ≤ g.Nx - 2) (ya : 2 ≤ (g.toGrid a).y ∧ (g.toGrid a).y ≤ g.Ny - 2)
    (xb : 2 ≤ (g.toGrid b).x ∧ (g.toGrid b).x ≤ g.Nx - 2) (yb : 2 ≤ (g.toGrid b).y ∧ (g.toGrid b).y ≤ g.Ny - 2)
    (sce : Scene) (n : ℕ) (qs : List (Flds ℝ × ℝ)) (is : ISurf) (ss : List (Snap ℝ)) (k3 : qs.length = n) (hi : g.toGridS s = .ok is)
    (k4 : List.Forall₂ (fun q r => Finds (cells g a b) (surfKeys .all is) (surfReads g s is q) r) qs ss)
    (sc : ∀ m (hm : m < qs.length), ∃ c c', sce.run g m = .ok c ∧ sce.run g (m + 1) = .ok c' ∧ (qs[m]).2 = (m + 1) * g.dt ∧ (qs[m]).1.Ez = c'.f.Ez ∧
      (∀ i j, (qs[m]).1.Hx.val i j = c.f.Hx.val i j) ∧ (∀ i j, (qs[m]).1.Hy.val i j = c.f.Hy.val i j))
    (w : Spec.Wave) (τ M B : ℝ) (hM : 0 ≤ M) (hst : w.Steady g τ M) (hev : w.Even g τ M) (hr : w.AtRest g) (hτ : n * g.dt ≤ τ)
    (close : ∀ m ≤ n, ∃ c F, sce.run g m = .ok c ∧ (∀ i j, Nearby (g.toGrid a) (g.toGrid b) i j →
      c.f.Ez.val i j = F.Ez.val i j ∧ c.f.Hx.val i j = F.Hx.val i j ∧ c.f.Hy.val i j = F.Hy.val i j) ∧ Real.sqrt (gap w g m F (updatedNodes g)) ≤ B)
    (κ : ℕ → Fin 3 → Fin 3 → ℝ) (κ' : ℝ → Fin 3 → Fin 3 → ℝ) (K ε : Fin 3 → Fin 3 → ℝ) (hK : ∀ p q, 0 ≤ K p q) (hκ : ∀ i < cells g a b, ∀ p q, |κ i p q| ≤ K p q)
    (hε : ∀ i < cells g a b, ∀ u : ℝ, 0 ≤ u → u ≤ 1 → ∀ p q, |κ i p q - κ' (i + u) p q| ≤ ε p q) (hκ' : ∀ p q, Continuous fun r => κ' r p q) :
    ∀ f S, S = n * g.dt * (lineError g (cells g a b) M B + Real.sqrt (cells g a b * g.dx) * (g.dt * (M + 2 * Real.pi * |f| * (M * (n * g.dt))))) →
      |g.dt ^ 2 * (∑ i ∈ Finset.range (cells g a b), formOf (κ i) (phasors f i (midway (fun _ => 0) ss)) * g.dx) -
          g.dx * ∫ r in (0 : ℝ)..cells g a b, formOf (κ' r) (w.phasor f (n * g.dt) (((g.toGrid a).x + r * is.tangent.x) * g.dx) (((g.toGrid a).y + r * is.tangent.y) * g.dx))| ≤
        ∑ p, ∑ q, (K p q * (S * (2 * (M * (n * g.dt) * (n * g.dt)) * Real.sqrt (cells g a b * g.dx) + S)) +
          ε p q * (cells g a b * g.dx * (M * (n * g.dt) * (n * g.dt)) ^ 2)) := by
  have d0 := hl.dx
  have dt0 : 0 < g.dt := by rw [hl.dt]; linarith
  have n0 : (0 : ℝ) ≤ n := Nat.cast_nonneg n
  have T0 : 0 ≤ n * g.dt := by positivity
  have lss : ss.length = n := by rw [← k4.length_eq, k3]
  obtain ⟨p1, p2, p3, -, -, p6⟩ := surfPoint_cell g d0 a b sg s hs hne is hi
  set N := cells g a b with hN
  set A := g.toGrid a with hA
  have L : Lined g A N is.tangent := ⟨p1, xa, ya, by rw [← p2]; exact xb, by rw [← p3]; exact yb⟩
  have nb : ∀ i < N, ∀ sx sy : ℝ, 0 ≤ sx → sx ≤ 1 → 0 ≤ sy → sy ≤ 1 → ∀ p q, Corner (A.x + ((i : ℝ) + 1 / 2) * is.tangent.x - sx) (A.y + ((i : ℝ) + 1 / 2) * is.tangent.y - sy) p q →
      Nearby A (g.toGrid b) p q := fun i hi sx sy q1 q2 q3 q4 p q hc => by
    have i1 : ((i : ℝ) + 1 : ℝ) ≤ N := by exact_mod_cast hi
    exact corner_nearby p2 p3 q1 q2 q3 q4 (by positivity) (by linarith) hc
  -- what is found
  have found : ∀ m (hm : m < n), ∃ c c', sce.run g m = .ok c ∧
      sce.run g (m + 1) = .ok c' ∧ (ss[m]'(by omega)).t = (m + 1) * g.dt ∧
      (∀ i : ℕ, i < N → (ss[m]'(by omega)).e i = bilin c'.f.Ez.val (A.x + ((i : ℝ) + 1 / 2) * is.tangent.x - 0) (A.y + ((i : ℝ) + 1 / 2) * is.tangent.y - 0)) ∧
      (∀ i : ℕ, i < N → (ss[m]'(by omega)).h "Hx" i = bilin c.f.Hx.val (A.x + ((i : ℝ) + 1 / 2) * is.tangent.x - 0) (A.y + ((i : ℝ) + 1 / 2) * is.tangent.y - g.dx)) ∧
      (∀ i : ℕ, i < N → (ss[m]'(by omega)).h "Hy" i = bilin c.f.Hy.val (A.x + ((i : ℝ) + 1 / 2) * is.tangent.x - g.dx) (A.y + ((i : ℝ) + 1 / 2) * is.tangent.y - 0)) := fun m hm => by
    obtain ⟨c, c', e1, e2, e3, e4, e5, e6⟩ := sc m (by omega)
    obtain ⟨f1, f2, f3⟩ := (List.forall₂_iff_get.mp k4).2 m (by omega) (by omega)
    simp only [List.get_eq_getElem] at f1 f2 f3
    refine ⟨c, c', e1, e2, f1.symm.trans e3, fun i hi => ?_, fun i hi => ?_, fun i hi => ?_⟩
    · have q := f2 i (by omega) (by omega)
      simp only [surfReads, Flds.interpolate, Flds.get, Except.ok_bind] at q
      have q := bilinear_value q
      rw [interpPos_real] at q
      dsimp only at q
      rw [(p6 i).1, (p6 i).2, e4] at q
      rw [q, sub_zero, sub_zero]
      rfl
    · have q := f3 "Hx" (by simp [surfKeys]) (by decide) i (by omega) (by omega)
      simp only [surfReads, if_true, Flds.interpolate, Flds.get, Except.ok_bind] at q
      have q := bilinear_value q
      rw [interpPos_real] at q
      dsimp only at q
      rw [(p6 i).1, (p6 i).2] at q
      rw [q, sub_zero, show (qs[m]).1.Hx.val = c.f.Hx.val from funext fun i => funext fun j => e5 i j]
      rfl
    · have q := f3 "Hy" (by simp [surfKeys]) (by decide) i (by omega) (by omega)
      simp only [surfReads, if_neg (show ¬ ("Hy" = "Hx") by decide), if_true, Flds.interpolate, Flds.get, Except.ok_bind] at q
      have q := bilinear_value q
      rw [interpPos_real] at q
      dsimp only at q
      rw [(p6 i).1, (p6 i).2] at q
      rw [q, sub_zero, show (qs[m]).1.Hy.val = c.f.Hy.val from funext fun i => funext fun j => e6 i j]
      rfl
  -- the samples
  set smp := midway (fun _ => 0) ss with hsmp
  have lsm : smp.length = n := by rw [hsmp, midway_length, lss]
  set r : String → ℕ → ℕ → ℝ := fun x m i => ((smp[m]?).map fun q => q.v x i).getD 0 with hrd
  have rv : ∀ x m (hm : m < n) (i : ℕ), r x m i = (smp[m]'(by omega)).v x i := fun x m hm i => by
    rw [hrd]
    simp only [List.getElem?_eq_getElem (show m < smp.length by omega), Option.map_some, Option.getD_some]
  have four : ∀ f x (i : ℕ), fourierSum f x i smp = ∑ m ∈ Finset.range n, (r x m i : ℂ) * wavelet f ((m + 1) * g.dt) := fun f x i => by
    unfold fourierSum
    rw [← lsm]
    refine sum_indexed _ smp _ fun m hm => ?_
    rw [rv x m (by omega)]
    obtain ⟨c, c', -, -, e3, -⟩ := found m (by omega)
    have et : (smp[m]).t = (m + 1) * g.dt := by
      rw [← e3]
      simp only [hsmp, midway_get ss _ m (by omega)]
    rw [et]
    simp only [wavelet]
  have M5 : 0 ≤ M * g.dx * Real.sqrt (N * g.dx) := by positivity
  -- the electric field
  have boundE : ∀ u : ℝ, 0 ≤ u → u ≤ 1 → ∀ m < n, ll g.dx N (fun i => r "Ez" m i -
      w.E ((m + 1) * g.dt) ((A.x + (i + u) * is.tangent.x) * g.dx) ((A.y + (i + u) * is.tangent.y) * g.dx)) ≤ lineError g N M B := fun u u0 u1 m hm => by
    have lip := lip_E hst hr
    have base : ∀ k (hk : k < n), ll g.dx N (fun i => (ss[k]'(by omega)).e i -
        w.E ((k + 1) * g.dt) ((A.x + (i + u) * is.tangent.x) * g.dx) ((A.y + (i + u) * is.tangent.y) * g.dx)) ≤ B / Real.sqrt g.dx + 4 * M * g.dx * Real.sqrt (N * g.dx) := fun k hk => by
      obtain ⟨c, c', -, e2, -, e4, -⟩ := found k hk
      obtain ⟨d, F, d1, dn, d2⟩ := close (k + 1) hk
      obtain rfl := Except.ok.inj (e2.symm.trans d1)
      have kn : ((k : ℝ) + 1) ≤ n := by exact_mod_cast hk
      have := line_close hl L lip hM F.Ez.val (ox := 0) (oy := 0) (sx := 0) (sy := 0) le_rfl zero_le_one le_rfl zero_le_one le_rfl zero_le_one le_rfl zero_le_one (by norm_num)
        (t := (k + 1) * g.dt) (by positivity) ((mul_le_mul_of_nonneg_right kn dt0.le).trans hτ) (B := B) (by
          refine le_trans (le_of_eq (l2_congr fun i j _ => ?_)) (gap_parts d2).1
          simp only [Wave.nodeE, add_zero]
          push_cast
          rfl) u0 u1
      refine le_trans (ll_mono d0.le fun i hi => ?_) this
      rw [e4 i hi, bil_congr fun p q hc => (dn p q (nb i hi 0 0 le_rfl zero_le_one le_rfl zero_le_one p q hc)).1]
    have prev : ll g.dx N (fun i => (if m = 0 then 0 else ((ss[m - 1]?).map fun s => s.e (i : ℤ)).getD 0) -
        w.E (m * g.dt) ((A.x + (i + u) * is.tangent.x) * g.dx) ((A.y + (i + u) * is.tangent.y) * g.dx)) ≤ B / Real.sqrt g.dx + 4 * M * g.dx * Real.sqrt (N * g.dx) := by
      cases m with
      | zero =>
        have B0 : 0 ≤ B := (Real.sqrt_nonneg _).trans (close 0 (Nat.zero_le _)).choose_spec.choose_spec.2.2
        have : ll g.dx N (fun i => (if (0 : ℕ) = 0 then 0 else ((ss[0 - 1]?).map fun s => s.e (i : ℤ)).getD 0) -
            w.E ((0 : ℕ) * g.dt) ((A.x + (i + u) * is.tangent.x) * g.dx) ((A.y + (i + u) * is.tangent.y) * g.dx)) ≤ 0 := by
          refine le_trans (ll_mono (k := fun _ => 0) d0.le fun i hi => ?_) (le_of_eq (ll_zero _ _))
          have i1 : ((i : ℝ) + 1 : ℝ) ≤ N := by exact_mod_cast hi
          rw [if_pos rfl, Nat.cast_zero, zero_mul, lip.rest _ _ (L.inDomain hl (by positivity) (by linarith)), sub_zero]
        refine this.trans (by positivity)
      | succ m =>
        have := base m (by omega)
        refine le_trans (le_of_eq ?_) this
        congr 1
        funext i
        rw [if_neg (Nat.succ_ne_zero m), Nat.add_sub_cancel, List.getElem?_eq_getElem (show m < ss.length by omega), Option.map_some, Option.getD_some]
        push_cast
        rfl
    have bm := base m hm
    have mn : ((m : ℝ) + 1) ≤ n := by exact_mod_cast hm
    have split : ∀ i < N, |r "Ez" m i - w.E ((m + 1) * g.dt) ((A.x + (i + u) * is.tangent.x) * g.dx) ((A.y + (i + u) * is.tangent.y) * g.dx)| ≤
        |1 / 2 * |(ss[m]'(by omega)).e i - w.E ((m + 1) * g.dt) ((A.x + (i + u) * is.tangent.x) * g.dx) ((A.y + (i + u) * is.tangent.y) * g.dx)| +
          1 / 2 * |(if m = 0 then 0 else ((ss[m - 1]?).map fun s => s.e (i : ℤ)).getD 0) - w.E (m * g.dt) ((A.x + (i + u) * is.tangent.x) * g.dx) ((A.y + (i + u) * is.tangent.y) * g.dx)| +
          M * g.dx| := fun i hi => by
      have i1 : ((i : ℝ) + 1 : ℝ) ≤ N := by exact_mod_cast hi
      have tt := lip.t (m * g.dt) ((m + 1) * g.dt) _ _ (by positivity) (by nlinarith) ((mul_le_mul_of_nonneg_right mn dt0.le).trans hτ)
        (L.inDomain hl (r := i + u) (by positivity) (by linarith))
      have e : r "Ez" m i = ((ss[m]'(by omega)).e i + (if m = 0 then 0 else ((ss[m - 1]?).map fun s => s.e (i : ℤ)).getD 0)) / 2 := by
        rw [rv _ m hm]
        simp only [hsmp, midway_get ss _ m (by omega), if_true]
      rw [e]
      set z := (if m = 0 then 0 else ((ss[m - 1]?).map fun s => s.e (i : ℤ)).getD 0)
      set y := (ss[m]'(by omega)).e i
      set v := w.E ((m + 1) * g.dt) ((A.x + (i + u) * is.tangent.x) * g.dx) ((A.y + (i + u) * is.tangent.y) * g.dx)
      set v' := w.E (m * g.dt) ((A.x + (i + u) * is.tangent.x) * g.dx) ((A.y + (i + u) * is.tangent.y) * g.dx)
      refine le_trans ?_ (le_abs_self _)
      have md : M * ((m + 1) * g.dt - m * g.dt) ≤ 2 * (M * g.dx) := by
        rw [hl.dt]
        have := mul_nonneg hM d0.le
        linarith
      calc |(y + z) / 2 - v| = |1 / 2 * (y - v) + 1 / 2 * (z - v') + -(1 / 2 * (v - v'))| := by congr 1; ring
        _ ≤ |1 / 2 * (y - v)| + |1 / 2 * (z - v')| + |-(1 / 2 * (v - v'))| := (abs_add_le _ _).trans (add_le_add (abs_add_le _ _) le_rfl)
        _ = 1 / 2 * |y - v| + 1 / 2 * |z - v'| + 1 / 2 * |v - v'| := by rw [abs_neg, abs_mul, abs_mul, abs_mul, abs_of_pos (by norm_num : (0 : ℝ) < 1 / 2)]
        _ ≤ _ := by linarith
    refine (ll_mono d0.le split).trans ((ll_add d0.le N _ _).trans (le_trans (add_le_add ((ll_add d0.le N _ _).trans (add_le_add
      (le_of_eq (ll_smul g.dx N (by norm_num) _)) (le_of_eq (ll_smul g.dx N (by norm_num) _))))
      (ll_const d0.le N (k := M * g.dx) (by positivity) fun _ _ => by rw [abs_of_nonneg (by positivity)])) ?_))
    have c1 := (ll_mono d0.le (h := fun i : ℕ => |(ss[m]'(by omega)).e i - w.E ((m + 1) * g.dt) ((A.x + (i + u) * is.tangent.x) * g.dx) ((A.y + (i + u) * is.tangent.y) * g.dx)|)
      fun i _ => by rw [abs_abs]).trans bm
    have c2 := (ll_mono d0.le (h := fun i : ℕ => |(if m = 0 then 0 else ((ss[m - 1]?).map fun s => s.e (i : ℤ)).getD 0) -
        w.E (m * g.dt) ((A.x + (i + u) * is.tangent.x) * g.dx) ((A.y + (i + u) * is.tangent.y) * g.dx)|)
      fun i _ => by rw [abs_abs]).trans prev
    unfold lineError
    linarith
  have hdd : |1 / 2 - g.dx| ≤ 1 / 2 := abs_le.mpr ⟨by linarith, by linarith⟩
  have le : B / Real.sqrt g.dx + 4 * M * g.dx * Real.sqrt (N * g.dx) ≤ lineError g N M B := by
    unfold lineError
    linarith
  -- all components
  have bound : ∀ p : Fin 3, ∀ u : ℝ, 0 ≤ u → u ≤ 1 → ∀ m < n, ll g.dx N (fun i => r (keyOf p) m i -
      sideOf w p ((m + lateOf p) * g.dt) ((A.x + (i + u) * is.tangent.x) * g.dx) ((A.y + (i + u) * is.tangent.y) * g.dx)) ≤ lineError g N M B := fun p u u0 u1 m hm => by
    fin_cases p
    · exact boundE u u0 u1 m hm
    · obtain ⟨c, c', e1, -, -, -, e4, -⟩ := found m hm
      obtain ⟨d, F, d1, dn, d2⟩ := close m hm.le
      obtain rfl := Except.ok.inj (e1.symm.trans d1)
      have mn : ((m : ℝ) + 1) ≤ n := by exact_mod_cast hm
      have := line_close hl L (lip_X hst hev hr) hM F.Hx.val (ox := 0) (oy := 1 / 2) (sx := 0) (sy := g.dx) le_rfl zero_le_one (by norm_num) (by norm_num) le_rfl zero_le_one d0.le hd
        (by rw [sub_zero, abs_zero, zero_add]; exact hdd) (t := (m + 1 / 2) * g.dt) (by positivity) ((mul_le_mul_of_nonneg_right (by linarith : (m : ℝ) + 1 / 2 ≤ n) dt0.le).trans hτ)
        (B := B) (by
          refine le_trans (le_of_eq (l2_congr fun i j _ => ?_)) (gap_parts d2).2.1
          simp only [Wave.nodeX, add_zero]) u0 u1
      refine le_trans (ll_mono d0.le fun i hi => ?_) (this.trans le)
      rw [← bil_congr fun p q hc => (dn p q (nb i hi _ _ le_rfl zero_le_one d0.le hd p q hc)).2.1, rv _ m hm, ← e4 i hi]
      simp only [hsmp, midway_get ss _ m (by omega)]
      exact le_rfl
    · obtain ⟨c, c', e1, -, -, -, -, e4⟩ := found m hm
      obtain ⟨d, F, d1, dn, d2⟩ := close m hm.le
      obtain rfl := Except.ok.inj (e1.symm.trans d1)
      have mn : ((m : ℝ) + 1) ≤ n := by exact_mod_cast hm
      have := line_close hl L (lip_Y hst hev hr) hM F.Hy.val (ox := 1 / 2) (oy := 0) (sx := g.dx) (sy := 0) (by norm_num) (by norm_num) le_rfl zero_le_one d0.le hd le_rfl zero_le_one
        (by rw [sub_zero, abs_zero, add_zero]; exact hdd) (t := (m + 1 / 2) * g.dt) (by positivity) ((mul_le_mul_of_nonneg_right (by linarith : (m : ℝ) + 1 / 2 ≤ n) dt0.le).trans hτ)
        (B := B) (by
          refine le_trans (le_of_eq (l2_congr fun i j _ => ?_)) (gap_parts d2).2.2
          simp only [Wave.nodeY, add_zero]) u0 u1
      refine le_trans (ll_mono d0.le fun i hi => ?_) (this.trans le)
      rw [← bil_congr fun p q hc => (dn p q (nb i hi _ _ d0.le hd le_rfl zero_le_one p q hc)).2.2, rv _ m hm, ← e4 i hi]
      simp only [hsmp, midway_get ss _ m (by omega)]
      exact le_rfl
  have lip : ∀ p, Lip (sideOf w p) g τ M := fun p => by
    fin_cases p
    · exact lip_E hst hr
    · exact lip_X hst hev hr
    · exact lip_Y hst hev hr
  have late : ∀ p, 0 ≤ lateOf p ∧ lateOf p ≤ 1 := fun p => by fin_cases p <;> simp [lateOf] <;> norm_num
  intro f S hS
  set Q := M * (n * g.dt) * (n * g.dt) with hQ
  have Q0 : 0 ≤ Q := by positivity
  set ψ : ℝ → ℝ := fun q => formOf (κ' q) (w.phasor f (n * g.dt) ((A.x + q * is.tangent.x) * g.dx) ((A.y + q * is.tangent.y) * g.dx)) with hψ
  have cψ : ContinuousOn ψ (Set.Icc 0 (N : ℝ)) := by
    have c := fun p => spectrum_continuous hl L (lip p) hM T0 hτ f
    have : ψ = fun z => ∑ p, ∑ q, κ' z p q * ((spectrum (fun t => sideOf w p t ((A.x + z * is.tangent.x) * g.dx) ((A.y + z * is.tangent.y) * g.dx)) f (n * g.dt)) *
        (starRingEnd ℂ) (spectrum (fun t => sideOf w q t ((A.x + z * is.tangent.x) * g.dx) ((A.y + z * is.tangent.y) * g.dx)) f (n * g.dt))).re := by
      funext z
      simp only [hψ, formOf, partOf_phasor]
    rw [this]
    exact continuousOn_finsetSum _ fun p _ => continuousOn_finsetSum _ fun q _ =>
      (hκ' p q).continuousOn.mul (Complex.continuous_re.comp_continuousOn ((c p).mul (Complex.continuous_conj.comp_continuousOn (c q))))
  have key := sum_flow (d := g.dx) N (fun i => g.dt ^ 2 * formOf (κ i) (phasors f i smp)) ψ cψ
    (K := ∑ p, ∑ q, (K p q * (S * (2 * Q * Real.sqrt (N * g.dx) + S)) + ε p q * (N * g.dx * Q ^ 2)))
    fun u u0 u1 => by
      have i1 : ∀ i : ℕ, i < N → ((i : ℝ) + 1 : ℝ) ≤ N := fun i hi => by exact_mod_cast hi
      have i0 : ∀ i : ℕ, (0 : ℝ) ≤ i := fun i => Nat.cast_nonneg i
      have dom : ∀ i < N, InDomain g ((A.x + (i + u) * is.tangent.x) * g.dx) ((A.y + (i + u) * is.tangent.y) * g.dx) := fun i hi =>
        L.inDomain hl (r := i + u) (by linarith [i0 i]) (by linarith [i1 i hi])
      have sP := fun p => spectra_ll d0.le dt0.le hM N (fun i t => sideOf w p t ((A.x + (i + u) * is.tangent.x) * g.dx) ((A.y + (i + u) * is.tangent.y) * g.dx))
        (fun i hi t t' k1 k2 z => (lip p).t t t' _ _ k1 k2 z (dom i hi)) (fun i hi => (lip p).rest _ _ (dom i hi)) f n hτ (r (keyOf p)) (lateOf p) (late p).1 (late p).2 _ (bound p u u0 u1)
      rw [← hS] at sP
      have aP : ∀ p, ∀ i < N, ‖spectrum (fun t => sideOf w p t ((A.x + (i + u) * is.tangent.x) * g.dx) ((A.y + (i + u) * is.tangent.y) * g.dx)) f (n * g.dt)‖ ≤ Q := fun p i hi =>
        spectrum_le T0 hM (fun t t' k1 k2 z => (lip p).t t t' _ _ k1 k2 (z.trans hτ) (dom i hi)) ((lip p).rest _ _ (dom i hi)) f
      have fl := fun p q => flow_ll d0.le N _ _ _ _ (sP p) (sP q) Q0 (aP p) (aP q)
      rw [abs_of_pos d0]
      set a' : Fin 3 → ℕ → ℂ := fun p i => (g.dt : ℂ) * ∑ m ∈ Finset.range n, (r (keyOf p) m i : ℂ) * wavelet f ((m + 1) * g.dt) with ha'
      set b' : Fin 3 → ℕ → ℂ := fun p i => spectrum (fun t => sideOf w p t ((A.x + (i + u) * is.tangent.x) * g.dx) ((A.y + (i + u) * is.tangent.y) * g.dx)) f (n * g.dt) with hb'
      have one : ∀ i < N, |g.dt ^ 2 * formOf (κ i) (phasors f i smp) - ψ (i + u)| ≤
          ∑ p, ∑ q, (K p q * |(a' p i * (starRingEnd ℂ) (a' q i)).re - (b' p i * (starRingEnd ℂ) (b' q i)).re| + ε p q * Q ^ 2) := fun i hi => by
        have e : g.dt ^ 2 * formOf (κ i) (phasors f i smp) - ψ (i + u) =
            ∑ p, ∑ q, (κ i p q * (a' p i * (starRingEnd ℂ) (a' q i)).re - κ' (i + u) p q * (b' p i * (starRingEnd ℂ) (b' q i)).re) := by
          simp only [hψ, formOf, partOf_phasor, partOf_phasors, four]
          rw [Finset.mul_sum, ← Finset.sum_sub_distrib]
          refine Finset.sum_congr rfl fun p _ => ?_
          rw [Finset.mul_sum, ← Finset.sum_sub_distrib]
          refine Finset.sum_congr rfl fun q _ => ?_
          congr 1
          rw [ha']
          dsimp only
          set e := ∑ m ∈ Finset.range n, (r (keyOf p) m i : ℂ) * wavelet f ((m + 1) * g.dt)
          set v := ∑ m ∈ Finset.range n, (r (keyOf q) m i : ℂ) * wavelet f ((m + 1) * g.dt)
          rw [map_mul, Complex.conj_ofReal, show (g.dt : ℂ) * e * ((g.dt : ℂ) * (starRingEnd ℂ) v) = ((g.dt ^ 2 : ℝ) : ℂ) * (e * (starRingEnd ℂ) v) by push_cast; ring, Complex.re_ofReal_mul]
          ring
        rw [e]
        refine (Finset.abs_sum_le_sum_abs _ _).trans (Finset.sum_le_sum fun p _ => (Finset.abs_sum_le_sum_abs _ _).trans (Finset.sum_le_sum fun q _ => ?_))
        set x := (a' p i * (starRingEnd ℂ) (a' q i)).re
        have hy : |(b' p i * (starRingEnd ℂ) (b' q i)).re| ≤ Q ^ 2 := by
          refine (Complex.abs_re_le_norm _).trans ?_
          rw [norm_mul, RCLike.norm_conj, pow_two]
          exact mul_le_mul (aP p i hi) (aP q i hi) (norm_nonneg _) Q0
        set y := (b' p i * (starRingEnd ℂ) (b' q i)).re
        have h1 := mul_le_mul_of_nonneg_right (hκ i hi p q) (abs_nonneg (x - y))
        have h2 := mul_le_mul (hε i hi u u0 u1 p q) hy (abs_nonneg _) ((abs_nonneg _).trans (hε i hi u u0 u1 p q))
        calc |κ i p q * x - κ' (i + u) p q * y| = |κ i p q * (x - y) + (κ i p q - κ' (i + u) p q) * y| := by congr 1; ring
          _ ≤ |κ i p q| * |x - y| + |κ i p q - κ' (i + u) p q| * |y| := by rw [← abs_mul, ← abs_mul]; exact abs_add_le _ _
          _ ≤ _ := add_le_add h1 h2
      refine (mul_le_mul_of_nonneg_left (Finset.sum_le_sum fun i hi => one i (Finset.mem_range.mp hi)) d0.le).trans ?_
      rw [Finset.sum_comm, Finset.mul_sum]
      refine Finset.sum_le_sum fun p _ => ?_
      rw [Finset.sum_comm, Finset.mul_sum]
      refine Finset.sum_le_sum fun q _ => ?_
      rw [Finset.sum_add_distrib, ← Finset.mul_sum, Finset.sum_const, Finset.card_range, nsmul_eq_mul]
      have := mul_le_mul_of_nonneg_left (fl p q) (hK p q)
      calc _ = K p q * (g.dx * ∑ i ∈ Finset.range N, |(a' p i * (starRingEnd ℂ) (a' q i)).re - (b' p i * (starRingEnd ℂ) (b' q i)).re|) + ε p q * (N * g.dx * Q ^ 2) := by ring
        _ ≤ _ := by linarith
  refine le_trans (le_of_eq ?_) key
  congr 2
  rw [Finset.mul_sum, Finset.mul_sum]
  exact Finset.sum_congr rfl fun i _ => by ring

/-! ## Traction and moment as forms -/

/-- the traction along `x` on the normal `n` -/
noncomputable def pullX (n : V2 ℝ) : Fin 3 → Fin 3 → ℝ := ![![-(n.x / 2), 0, 0], ![0, n.x / 2, n.y], ![0, 0, -(n.x / 2)]]
/-- the traction along `y` -/
noncomputable def pullY (n : V2 ℝ) : Fin 3 → Fin 3 → ℝ := ![![-(n.y / 2), 0, 0], ![0, -(n.y / 2), n.x], ![0, 0, n.y / 2]]
/-- the moment of the traction at `r` -/
noncomputable def twistOf (n r : V2 ℝ) (p q : Fin 3) : ℝ := r.x * pullY n p q - r.y * pullX n p q

theorem formOf_pullX (n : V2 ℝ) (φ : TM) : formOf (pullX n) φ = φ.traction n 0 := by
  rw [(traction_eq φ n).1]
  simp [formOf, partOf, pullX, Fin.sum_univ_three, Complex.normSq_apply]
  ring

theorem formOf_pullY (n : V2 ℝ) (φ : TM) : formOf (pullY n) φ = φ.traction n 1 := by
  rw [(traction_eq φ n).2]
  simp [formOf, partOf, pullY, Fin.sum_univ_three, Complex.normSq_apply]
  ring

theorem formOf_twist (n r : V2 ℝ) (φ : TM) : formOf (twistOf n r) φ = φ.moment n r := by
  rw [moment_eq, ← formOf_pullX, ← formOf_pullY]
  simp only [formOf, twistOf, Finset.mul_sum, ← Finset.sum_sub_distrib]
  exact Finset.sum_congr rfl fun p _ => Finset.sum_congr rfl fun q _ => by ring

theorem pull_sums (n : V2 ℝ) (h : |n.x| + |n.y| = 1) :
    ∑ p, ∑ q, |pullX n p q| ≤ 3 / 2 ∧ ∑ p, ∑ q, |pullY n p q| ≤ 3 / 2 ∧ ∑ p, ∑ q, (|pullY n p q| + |pullX n p q|) = 5 / 2 := by
  have h2 : ∀ x : ℝ, |x / 2| = |x| / 2 := fun x => by rw [abs_div, abs_of_pos (by norm_num : (0 : ℝ) < 2)]
  have px := abs_nonneg n.x
  have py := abs_nonneg n.y
  refine ⟨?_, ?_, ?_⟩ <;> simp only [pullX, pullY, Fin.sum_univ_three, Matrix.cons_val_zero, Matrix.cons_val_one, Matrix.cons_val, abs_neg, h2, abs_zero] <;> linarith

theorem lineNormal_unit (a b : V2 ℝ) (sg : Sgn) : |(lineNormal a b sg).x| + |(lineNormal a b sg).y| = 1 := by
  unfold lineNormal
  split_ifs <;> cases sg <;> simp [Sgn.toInt]

/-- An integral along the line as an integral over the cells. -/
theorem line_cells {g : Grid ℝ} (hg : 0 < g.dx) (F : ℝ → ℝ → ℝ) (A B : V2 ℤ) {N : ℕ} {τ : V2 ℤ} (hτ : |τ.x| + |τ.y| = 1) (hx : B.x = A.x + N * τ.x)
    (hy : B.y = A.y + N * τ.y) :
    (|(g.toReal B).x - (g.toReal A).x| + |(g.toReal B).y - (g.toReal A).y|) * (∫ s in (0 : ℝ)..1, F ((g.toReal A).x + s * ((g.toReal B).x - (g.toReal A).x))
      ((g.toReal A).y + s * ((g.toReal B).y - (g.toReal A).y))) = g.dx * ∫ r in (0 : ℝ)..N, F ((A.x + r * τ.x) * g.dx) ((A.y + r * τ.y) * g.dx) := by
  have txy : |(τ.x : ℝ)| + |(τ.y : ℝ)| = 1 := by exact_mod_cast hτ
  have ex : (g.toReal B).x - (g.toReal A).x = N * τ.x * g.dx := by simp only [Grid.toReal, hx, ofInt_real]; push_cast; ring
  have ey : (g.toReal B).y - (g.toReal A).y = N * τ.y * g.dx := by simp only [Grid.toReal, hy, ofInt_real]; push_cast; ring
  rw [ex, ey]
  have len : |(N : ℝ) * τ.x * g.dx| + |(N : ℝ) * τ.y * g.dx| = g.dx * N := by
    simp only [abs_mul, abs_of_pos hg, Nat.abs_cast]
    linear_combination (N : ℝ) * g.dx * txy
  rw [len, mul_assoc]
  congr 1
  have := intervalIntegral.smul_integral_comp_mul_left (a := 0) (b := 1) (f := fun r => F ((A.x + r * τ.x) * g.dx) ((A.y + r * τ.y) * g.dx)) (N : ℝ)
  rw [mul_zero, mul_one, smul_eq_mul] at this
  rw [← this]
  congr 2
  funext s
  congr 1 <;> simp only [Grid.toReal, ofInt_real] <;> ring

/-- The middles of the cells of a monitor are within a cell of those between the nodes. -/
theorem midPoint_near (g : Grid ℝ) (hg : 0 < g.dx) (a b : V2 ℝ) (sg : Sgn) (s : Surf ℝ) (hs : Surf.make a b sg = .ok s) (hne : g.toGrid a ≠ g.toGrid b) (is : ISurf)
    (hi : g.toGridS s = .ok is) (i : ℕ) (u : ℝ) (u0 : 0 ≤ u) (u1 : u ≤ 1) :
    |(midPoint a b g.dx i).x - ((g.toGrid a).x + (i + u) * is.tangent.x) * g.dx| ≤ g.dx ∧ |(midPoint a b g.dx i).y - ((g.toGrid a).y + (i + u) * is.tangent.y) * g.dx| ≤ g.dx := by
  obtain ⟨p1, -, -, -, -, p6⟩ := surfPoint_cell g hg a b sg s hs hne is hi
  obtain ⟨is', j1, -, -, j4⟩ := toGridS_make g a b sg s hs hne
  obtain rfl := Except.ok.inj (hi.symm.trans j1)
  have ht : s.tangent = ⟨(b.x - a.x) / Real.sqrt ((b.x - a.x) ^ 2 + (b.y - a.y) ^ 2),
      (b.y - a.y) / Real.sqrt ((b.x - a.x) ^ 2 + (b.y - a.y) ^ 2)⟩ := by
    unfold Surf.make at hs
    simp only at hs
    split_ifs at hs <;>
    · rw [← Except.ok.inj hs]
      simp only [V2.sdiv, V2.norm, V2.sqNorm, V2.sub_x, V2.sub_y, sqrt_real, pow_two]
  have q := p6 0
  simp only [surfPoint, ht, Grid.toReal, ofInt_real, j4, V2.add_x, V2.add_y, V2.smul_x, V2.smul_y] at q
  obtain ⟨q1, q2⟩ := q
  push_cast at q1 q2
  have t1 : (b.x - a.x) / Real.sqrt ((b.x - a.x) ^ 2 + (b.y - a.y) ^ 2) = is.tangent.x := by
    field_simp at q1 ⊢
    nlinarith
  have t2 : (b.y - a.y) / Real.sqrt ((b.x - a.x) ^ 2 + (b.y - a.y) ^ 2) = is.tangent.y := by
    field_simp at q2 ⊢
    nlinarith
  have node : ∀ x : ℝ, |x - roundAway (x / g.dx) * g.dx| ≤ g.dx / 2 := fun x => by
    have := mul_le_mul_of_nonneg_right (roundAway_abs_sub_le (x / g.dx)) hg.le
    rw [← abs_of_pos hg, ← abs_mul, abs_of_pos hg, sub_mul, div_mul_cancel₀ _ hg.ne', abs_sub_comm] at this
    linarith
  have shift : ∀ t : ℤ, |t| ≤ 1 → |(1 / 2 - u) * t * g.dx| ≤ g.dx / 2 := fun t h => by
    have h1 : |(t : ℝ)| ≤ 1 := by exact_mod_cast h
    have h2 : |1 / 2 - u| ≤ 1 / 2 := abs_le.mpr ⟨by linarith, by linarith⟩
    rw [abs_mul, abs_mul, abs_of_pos hg]
    have := mul_le_mul h2 h1 (abs_nonneg _) (by norm_num)
    nlinarith
  have n1 := abs_nonneg is.tangent.x
  have n2 := abs_nonneg is.tangent.y
  constructor
  · have e : (midPoint a b g.dx i).x - ((g.toGrid a).x + (i + u) * is.tangent.x) * g.dx = (a.x - roundAway (a.x / g.dx) * g.dx) + (1 / 2 - u) * is.tangent.x * g.dx := by
      simp only [midPoint, t1, Grid.toGrid, roundI_real]
      ring
    rw [e]
    exact (abs_add_le _ _).trans (by linarith [node a.x, shift is.tangent.x (by omega)])
  · have e : (midPoint a b g.dx i).y - ((g.toGrid a).y + (i + u) * is.tangent.y) * g.dx = (a.y - roundAway (a.y / g.dx) * g.dx) + (1 / 2 - u) * is.tangent.y * g.dx := by
      simp only [midPoint, t2, Grid.toGrid, roundI_real]
      ring
    rw [e]
    exact (abs_add_le _ _).trans (by linarith [node a.y, shift is.tangent.y (by omega)])

/-- The error of the flow is not negative. -/
theorem flowError_nonneg {g : Grid ℝ} (hl : Lawful g) (N : ℕ) {M T B : ℝ} (hM : 0 ≤ M) (hT : 0 ≤ T) (hB : 0 ≤ B) (f : ℝ) : 0 ≤ flowError g N M T B f := by
  have d0 := hl.dx
  have dt0 : 0 < g.dt := by rw [hl.dt]; linarith
  unfold flowError lineSpectralError lineError
  positivity

/-- The force on the line of a monitor. -/
theorem line_pull_near (g : Grid ℝ) (hl : Lawful g) (hd : g.dx ≤ 1) (a b : V2 ℝ) (sg : Sgn) (s : Surf ℝ) (hs : Surf.make a b sg = .ok s) (hne : g.toGrid a ≠ g.toGrid b)
    (xa : 2 ≤ (g.toGrid a).x ∧ (g.toGrid a).x ≤ g.Nx - 2) (ya : 2 ≤ (g.toGrid a).y ∧ (g.toGrid a).y ≤ g.Ny - 2)
    (xb : 2 ≤ (g.toGrid b).x ∧ (g.toGrid b).x ≤ g.Nx - 2) (yb : 2 ≤ (g.toGrid b).y ∧ (g.toGrid b).y ≤ g.Ny - 2)
    (sce : Scene) (n : ℕ) (qs : List (Flds ℝ × ℝ)) (is : ISurf) (ss : List (Snap ℝ)) (k3 : qs.length = n) (hi : g.toGridS s = .ok is)
    (k4 : List.Forall₂ (fun q r => Finds (cells g a b) (surfKeys .all is) (surfReads g s is q) r) qs ss)
    (sc : ∀ m (hm : m < qs.length), ∃ c c', sce.run g m = .ok c ∧ sce.run g (m + 1) = .ok c' ∧ (qs[m]).2 = (m + 1) * g.dt ∧ (qs[m]).1.Ez = c'.f.Ez ∧
      (∀ i j, (qs[m]).1.Hx.val i j = c.f.Hx.val i j) ∧ (∀ i j, (qs[m]).1.Hy.val i j = c.f.Hy.val i j))
    (w : Spec.Wave) (τ M B : ℝ) (hM : 0 ≤ M) (hst : w.Steady g τ M) (hev : w.Even g τ M) (hr : w.AtRest g) (hτ : n * g.dt ≤ τ)
    (close : ∀ m ≤ n, ∃ c F, sce.run g m = .ok c ∧ (∀ i j, Nearby (g.toGrid a) (g.toGrid b) i j →
      c.f.Ez.val i j = F.Ez.val i j ∧ c.f.Hx.val i j = F.Hx.val i j ∧ c.f.Hy.val i j = F.Hy.val i j) ∧ Real.sqrt (gap w g m F (updatedNodes g)) ≤ B) (f : ℝ) :
    |g.dt ^ 2 * (∑ i ∈ Finset.range (cells g a b), (phasors f i (midway (fun _ => 0) ss)).traction (lineNormal a b sg) 0 * g.dx) -
        w.pull f (n * g.dt) (g.toReal (g.toGrid a)) (g.toReal (g.toGrid b)) (lineNormal a b sg) 0| ≤ 3 / 2 * flowError g (cells g a b) M (n * g.dt) B f ∧
    |g.dt ^ 2 * (∑ i ∈ Finset.range (cells g a b), (phasors f i (midway (fun _ => 0) ss)).traction (lineNormal a b sg) 1 * g.dx) -
        w.pull f (n * g.dt) (g.toReal (g.toGrid a)) (g.toReal (g.toGrid b)) (lineNormal a b sg) 1| ≤ 3 / 2 * flowError g (cells g a b) M (n * g.dt) B f := by
  obtain ⟨p1, p2, p3, -, -, -⟩ := surfPoint_cell g hl.dx a b sg s hs hne is hi
  have dt0 : 0 < g.dt := by rw [hl.dt]; linarith [hl.dx]
  have B0 : 0 ≤ B := (Real.sqrt_nonneg _).trans (close 0 (Nat.zero_le _)).choose_spec.choose_spec.2.2
  have F0 := flowError_nonneg hl (cells g a b) hM (T := n * g.dt) (by positivity) B0 f
  have gen : ∀ κ : Fin 3 → Fin 3 → ℝ, ∀ k : Fin 3, (∀ φ, formOf κ φ = φ.traction (lineNormal a b sg) k) → ∑ p, ∑ q, |κ p q| ≤ 3 / 2 →
      |g.dt ^ 2 * (∑ i ∈ Finset.range (cells g a b), (phasors f i (midway (fun _ => 0) ss)).traction (lineNormal a b sg) k * g.dx) -
        w.pull f (n * g.dt) (g.toReal (g.toGrid a)) (g.toReal (g.toGrid b)) (lineNormal a b sg) k| ≤ 3 / 2 * flowError g (cells g a b) M (n * g.dt) B f := fun κ k hk hs' => by
    have := line_form_near g hl hd a b sg s hs hne xa ya xb yb sce n qs is ss k3 hi k4 sc w τ M B hM hst hev hr hτ close (fun _ => κ) (fun _ => κ) (fun p q => |κ p q|) (fun _ _ => 0)
      (fun _ _ => abs_nonneg _) (fun _ _ _ _ => le_rfl) (fun _ _ _ _ _ _ _ => by rw [sub_self, abs_zero]) (fun _ _ => continuous_const) f _ rfl
    simp only [hk, zero_mul, add_zero, ← Finset.sum_mul] at this
    unfold Wave.pull
    rw [line_cells hl.dx (fun x y => (w.phasor f (n * g.dt) x y).traction (lineNormal a b sg) k) _ _ p1 p2 p3]
    rw [← Finset.sum_mul]
    exact this.trans (mul_le_mul_of_nonneg_right hs' F0)
  obtain ⟨s1, s2, -⟩ := pull_sums _ (lineNormal_unit a b sg)
  exact ⟨gen _ 0 (formOf_pullX _) s1, gen _ 1 (formOf_pullY _) s2⟩

/-- The torque on the line of a monitor, about `c`; the one of the wave is about `c'`, which is less than a cell away. -/
theorem line_twist_near (g : Grid ℝ) (hl : Lawful g) (hd : g.dx ≤ 1) (a b : V2 ℝ) (sg : Sgn) (s : Surf ℝ) (hs : Surf.make a b sg = .ok s) (hne : g.toGrid a ≠ g.toGrid b)
    (xa : 2 ≤ (g.toGrid a).x ∧ (g.toGrid a).x ≤ g.Nx - 2) (ya : 2 ≤ (g.toGrid a).y ∧ (g.toGrid a).y ≤ g.Ny - 2)
    (xb : 2 ≤ (g.toGrid b).x ∧ (g.toGrid b).x ≤ g.Nx - 2) (yb : 2 ≤ (g.toGrid b).y ∧ (g.toGrid b).y ≤ g.Ny - 2)
    (sce : Scene) (n : ℕ) (qs : List (Flds ℝ × ℝ)) (is : ISurf) (ss : List (Snap ℝ)) (k3 : qs.length = n) (hi : g.toGridS s = .ok is)
    (k4 : List.Forall₂ (fun q r => Finds (cells g a b) (surfKeys .all is) (surfReads g s is q) r) qs ss)
    (sc : ∀ m (hm : m < qs.length), ∃ c c', sce.run g m = .ok c ∧ sce.run g (m + 1) = .ok c' ∧ (qs[m]).2 = (m + 1) * g.dt ∧ (qs[m]).1.Ez = c'.f.Ez ∧
      (∀ i j, (qs[m]).1.Hx.val i j = c.f.Hx.val i j) ∧ (∀ i j, (qs[m]).1.Hy.val i j = c.f.Hy.val i j))
    (w : Spec.Wave) (τ M B : ℝ) (hM : 0 ≤ M) (hst : w.Steady g τ M) (hev : w.Even g τ M) (hr : w.AtRest g) (hτ : n * g.dt ≤ τ)
    (close : ∀ m ≤ n, ∃ c F, sce.run g m = .ok c ∧ (∀ i j, Nearby (g.toGrid a) (g.toGrid b) i j →
      c.f.Ez.val i j = F.Ez.val i j ∧ c.f.Hx.val i j = F.Hx.val i j ∧ c.f.Hy.val i j = F.Hy.val i j) ∧ Real.sqrt (gap w g m F (updatedNodes g)) ≤ B) (c c' : V2 ℝ) (hcx : |c.x - c'.x| ≤ g.dx / 2) (hcy : |c.y - c'.y| ≤ g.dx / 2) (R : ℝ)
    (hR : ∀ i < cells g a b, |(midPoint a b g.dx i - c).x| ≤ R ∧ |(midPoint a b g.dx i - c).y| ≤ R) (hR0 : 0 ≤ R) (f : ℝ) :
    |g.dt ^ 2 * (∑ i ∈ Finset.range (cells g a b), (phasors f i (midway (fun _ => 0) ss)).moment (lineNormal a b sg) (midPoint a b g.dx i - c) * g.dx) -
        w.twist f (n * g.dt) c' (g.toReal (g.toGrid a)) (g.toReal (g.toGrid b)) (lineNormal a b sg)| ≤
      5 / 2 * (R * flowError g (cells g a b) M (n * g.dt) B f + 3 / 2 * g.dx * (cells g a b * g.dx * (M * (n * g.dt) * (n * g.dt)) ^ 2)) := by
  obtain ⟨p1, p2, p3, -, -, -⟩ := surfPoint_cell g hl.dx a b sg s hs hne is hi
  set N := lineNormal a b sg
  set A := g.toGrid a
  have tw : ∀ (r : V2 ℝ) (D : ℝ), |r.x| ≤ D → |r.y| ≤ D → ∀ p q, |r.x * pullY N p q - r.y * pullX N p q| ≤ D * (|pullY N p q| + |pullX N p q|) := fun r D h1 h2 p q => by
    have e1 := mul_le_mul_of_nonneg_right h1 (abs_nonneg (pullY N p q))
    have e2 := mul_le_mul_of_nonneg_right h2 (abs_nonneg (pullX N p q))
    calc |r.x * pullY N p q - r.y * pullX N p q| ≤ |r.x * pullY N p q| + |r.y * pullX N p q| := abs_sub _ _
      _ = |r.x| * |pullY N p q| + |r.y| * |pullX N p q| := by rw [abs_mul, abs_mul]
      _ ≤ _ := by linarith
  have := line_form_near g hl hd a b sg s hs hne xa ya xb yb sce n qs is ss k3 hi k4 sc w τ M B hM hst hev hr hτ close
    (fun i => twistOf N (midPoint a b g.dx i - c)) (fun r => twistOf N (⟨(A.x + r * is.tangent.x) * g.dx, (A.y + r * is.tangent.y) * g.dx⟩ - c'))
    (fun p q => R * (|pullY N p q| + |pullX N p q|)) (fun p q => 3 / 2 * g.dx * (|pullY N p q| + |pullX N p q|))
    (fun _ _ => by positivity) (fun i hi' p q => tw _ R (hR i hi').1 (hR i hi').2 p q)
    (fun i hi' u u0 u1 p q => by
      obtain ⟨m1, m2⟩ := midPoint_near g hl.dx a b sg s hs hne is hi i u u0 u1
      have e : twistOf N (midPoint a b g.dx i - c) p q - twistOf N (⟨(A.x + (i + u) * is.tangent.x) * g.dx, (A.y + (i + u) * is.tangent.y) * g.dx⟩ - c') p q =
          ((midPoint a b g.dx i).x - (A.x + (i + u) * is.tangent.x) * g.dx - (c.x - c'.x)) * pullY N p q -
          ((midPoint a b g.dx i).y - (A.y + (i + u) * is.tangent.y) * g.dx - (c.y - c'.y)) * pullX N p q := by
        simp only [twistOf, V2.sub_x, V2.sub_y]
        ring
      rw [e]
      exact tw ⟨_, _⟩ _ ((abs_sub _ _).trans (by linarith)) ((abs_sub _ _).trans (by linarith)) p q)
    (fun p q => by simp only [twistOf, V2.sub_x, V2.sub_y]; fun_prop) f _ rfl
  simp only [formOf_twist] at this
  unfold Wave.twist
  rw [line_cells hl.dx (fun x y => (w.phasor f (n * g.dt) x y).moment N (⟨x, y⟩ - c')) _ _ p1 p2 p3]
  refine this.trans (le_of_eq ?_)
  rw [← (pull_sums N (lineNormal_unit a b sg)).2.2, Finset.sum_mul]
  refine Finset.sum_congr rfl fun p _ => ?_
  rw [Finset.sum_mul]
  refine Finset.sum_congr rfl fun q _ => ?_
  unfold flowError lineSpectralError
  ring

/-! ## Boxes -/

/-- What a box monitor of all components has recorded. -/
theorem box_kept (now : ℕ → ℝ) (g : Grid ℝ) (cs1 cs2 : List (Call ℝ)) (name : String) (a b : V2 ℝ) (freq : List ℝ) (m0 : BoxMon ℝ)
    (hm0 : BoxMon.make name (Vol.make a b) .all freq = .ok m0)
    (hx : (g.toGrid a).x < (g.toGrid b).x) (hy : (g.toGrid a).y < (g.toGrid b).y) (ha : InnerNode g (g.toGrid a)) (hb : InnerNode g (g.toGrid b))
    (w1 w2 : World ℝ) (h : Watched now g cs1 (.box m0) cs2 w1 w2) (hc : ∀ op ∈ simOps cs2, isClear op = false) :
    ∃ s2 qs, w1.sim.step now (.addMonitor (.box m0)) = .ok s2 ∧ Watch now s2 (simOps cs2) qs w2.sim ∧ qs.length = (simOps cs2).countP isUpdate ∧
      ∃ (s : Fin 4 → Surf ℝ) (is : Fin 4 → ISurf) (ss : Fin 4 → List (Snap ℝ)) (M : BoxMon ℝ) (nx ny : ℕ),
        (∀ f, Surf.make (boxFace a b f).1 (boxFace a b f).2.1 (boxFace a b f).2.2 = .ok (s f) ∧
          g.toGridS (s f) = .ok (is f) ∧
          List.Forall₂ (fun q r => Finds (cells g (boxFace a b f).1 (boxFace a b f).2.1) (surfKeys .all (is f)) (surfReads g (s f) (is f) q) r) qs (ss f)) ∧
        w2.sim.mons[w1.sim.mons.length]? = some (.box M) ∧ M.nfreq = freq.length ∧ (Monitor.box M).path = ["monitors", "box_monitor", name] ∧
        (∀ f, cells g (boxFace a b f).1 (boxFace a b f).2.1 = faceCount nx ny f) ∧
        BoxRecordedAll M a b nx ny freq.length (fun f => lineField freq (midway (fun _ => 0) (ss f))) := by
  obtain ⟨s2, qs, m1, m2, e0, w, hl', hq, e1, -, e2, hm, hd⟩ := Qbox.Props.attaches h.attaches
  have hgf : ∀ f, g.toGrid (boxFace a b f).1 ≠ g.toGrid (boxFace a b f).2.1 := by
    intro f e
    have e1 := congrArg V2.x e
    have e2 := congrArg V2.y e
    simp only [Grid.toGrid, roundI_real] at hx hy e1 e2
    fin_cases f <;> simp [boxFace] at e1 e2 <;> omega
  have h1 : ∀ f, InnerNode g (g.toGrid (boxFace a b f).1) := by
    intro f
    obtain ⟨a1, a2, a3, a4⟩ := ha
    obtain ⟨b1, b2, b3, b4⟩ := hb
    fin_cases f <;> refine ⟨?_, ?_, ?_, ?_⟩ <;> assumption
  have h2 : ∀ f, InnerNode g (g.toGrid (boxFace a b f).2.1) := by
    intro f
    obtain ⟨a1, a2, a3, a4⟩ := ha
    obtain ⟨b1, b2, b3, b4⟩ := hb
    fin_cases f <;> refine ⟨?_, ?_, ?_, ?_⟩ <;> assumption
  choose s hs using boxFace_make a b
  choose is hi _ _ _ using fun f => toGridS_make g _ _ _ (s f) (hs f) (hgf f)
  choose ss hf ht' using fun f => surf_finds g h.dx _ _ _ (s f) (hs f) (hgf f) (h1 f) (h2 f) (is f) (hi f) .all qs hq
  obtain ⟨nx, hnx⟩ : ∃ nx : ℕ, (g.toGrid b).x - (g.toGrid a).x = nx := ⟨((g.toGrid b).x - (g.toGrid a).x).toNat, by omega⟩
  obtain ⟨ny, hny⟩ : ∃ ny : ℕ, (g.toGrid b).y - (g.toGrid a).y = ny := ⟨((g.toGrid b).y - (g.toGrid a).y).toNat, by omega⟩
  have hcc : ∀ f, cells g (boxFace a b f).1 (boxFace a b f).2.1 = faceCount nx ny f := by
    intro f
    simp only [Grid.toGrid, roundI_real] at hnx hny
    fin_cases f <;> simp [cells, boxFace, faceCount, Grid.toGrid] <;> omega
  obtain ⟨m0', M1, M, r0, r1, r2, -, -, -, r6⟩ := box_recorded g name a b hx hy .all (.inl rfl) freq qs ss nx ny hnx hny (by
    intro f s' is' hs' hi'
    obtain rfl := Except.ok.inj (hs'.symm.trans (hs f))
    obtain rfl := Except.ok.inj (hi'.symm.trans (hi f))
    rw [← hcc]
    exact hf f)
  obtain rfl := Except.ok.inj (r0.symm.trans hm0)
  have : m1 = .box M1 := by
    unfold Monitor.setF at e1
    simp only [r1, Except.ok_bind] at e1
    exact (Except.ok.inj e1).symm
  subst this
  rw [runs_box, r2] at e2
  obtain rfl : m2 = .box M := (Except.ok.inj e2).symm
  have hp := h.path hm
  have hn := boxMake_name hm0
  have nf : M.nfreq = freq.length := by
    rw [boxRuns_nfreq qs r2, ← hn.2]
    unfold BoxMon.setF at r1
    obtain ⟨l, -, r1⟩ := (Except.bind_ok ..).mp r1
    cases r1
    rfl
  refine ⟨s2, qs, e0, w, hl', s, is, ss, M, nx, ny, fun f => ⟨hs f, hi f, hf f⟩, hm, nf, ?_, hcc, ?_⟩
  · rw [hp, ← hn.1]
    rfl
  · have : (fun f => lineField freq (averaged 0 (fun _ => 0) (ss f))) = fun f => lineField freq (midway (fun _ => 0) (ss f)) := by
      funext f
      rw [averaged_midway (ss f) 0 _ (by rw [ht' f]; exact hd hc)]
    rw [← this]
    exact r6 rfl

/-- A result that has been computed is in the file. -/
theorem report_stays (now : ℕ → ℝ) (later : List (Call ℝ)) (w2 w3 w4 : World ℝ) (k : ℕ) (m : Monitor ℝ) (qty : Quantity ℝ) (v : H5Obj ℝ) (hm : w2.sim.mons[k]? = some m)
    (hv : m.compute w2.sim.core.g qty = some (.ok v)) (nums : ∃ l, v = .nums l) (hw : w2.step now (.report k qty) = .ok w3) (hl : w3.run now later = .ok w4) :
    w4.tree.at (m.path ++ [qty.name]) = some v := by
  unfold World.step at hw
  simp only [hm, hv] at hw
  obtain ⟨v', hv', hw⟩ := tryM_ok hw
  obtain rfl := (Except.ok.inj hv')
  obtain ⟨hput, hw⟩ := World.write_ok hw
  have e := Tree.puts_mem _ hput (m.path ++ [qty.name], v) (List.mem_append_right _ (List.mem_singleton.mpr rfl))
  have e3 : w3.tree = _ := congrArg World.tree (Res.ok.inj hw).symm
  dsimp only at e3 e
  rw [← e3] at e
  obtain ⟨l, rfl⟩ := nums
  exact (C62_values now w3 w4 later hl _ _ e (by simp)).symm ▸ rfl

namespace Props

/-- A program on a file makes a closed domain, does something (`cs1`), adds a box monitor of all components with the lower left corner `a` and the upper right corner `b`, two nodes
away from the walls; it takes `n` steps and writes a result `qty`. In between it may call whatever only looks, and afterwards it may do anything: `w4` is the file then. -/
structure BoxAsked (qty : Quantity ℝ) (now : ℕ → ℝ) (g : Grid ℝ) (cs1 cs2 later : List (Call ℝ)) (name : String) (a b : V2 ℝ) (freq : List ℝ) (n : ℕ) (w4 : World ℝ) :
    Prop where
  lawful : Lawful g
  closed : g.T = 0
  fine : g.dx ≤ 1
  wide : g.Wide
  advances : Advances (simOps cs2)
  steps : n = (simOps cs2).countP isUpdate
  x : 2 ≤ (g.toGrid a).x ∧ (g.toGrid a).x < (g.toGrid b).x ∧ (g.toGrid b).x ≤ g.Nx - 2
  y : 2 ≤ (g.toGrid a).y ∧ (g.toGrid a).y < (g.toGrid b).y ∧ (g.toGrid b).y ≤ g.Ny - 2
  runs : ∃ m0 w1 w2 w3, BoxMon.make name (Vol.make a b) .all freq = .ok m0 ∧ Watched now g cs1 (.box m0) cs2 w1 w2 ∧ w2.step now (.report w1.sim.mons.length qty) = .ok w3 ∧
    w3.run now later = .ok w4

/-- The file has two lists of numbers, one per frequency; `dt ^ 2` times the numbers of frequency `f` differ from the components of the force of this frequency on the box up to
time `T` by at most `bound f`. The box is the one between the nodes at the corners of the monitor. -/
def HoldsBoxForce (w4 : World ℝ) (g : Grid ℝ) (name : String) (a b : V2 ℝ) (freq : List ℝ) (w : Spec.Wave) (T : ℝ) (bound : ℝ → ℝ) : Prop :=
  ∃ Fx Fy : ℝ → ℝ, w4.tree.at ["monitors", "box_monitor", name, "force"] = some (.nums (freq.map Fx ++ freq.map Fy)) ∧
    ∀ f, |g.dt ^ 2 * Fx f - w.boxForce f T (g.toReal (g.toGrid a)) (g.toReal (g.toGrid b)) 0| ≤ bound f ∧
      |g.dt ^ 2 * Fy f - w.boxForce f T (g.toReal (g.toGrid a)) (g.toReal (g.toGrid b)) 1| ≤ bound f

/-- The same for the torque about the centre of the box. -/
def HoldsBoxTorque (w4 : World ℝ) (g : Grid ℝ) (name : String) (a b : V2 ℝ) (freq : List ℝ) (w : Spec.Wave) (T : ℝ) (bound : ℝ → ℝ) : Prop :=
  ∃ F : ℝ → ℝ, w4.tree.at ["monitors", "box_monitor", name, "torque"] = some (.nums (freq.map F)) ∧
    ∀ f, |g.dt ^ 2 * F f - w.boxTorque f T (g.toReal (g.toGrid a)) (g.toReal (g.toGrid b))| ≤ bound f

/-- The error of the torque: that of the flow times the size of the box, and one of first order in the size of a cell for the lever arms. -/
noncomputable def boxTorqueError (g : Grid ℝ) (A B : V2 ℤ) (M T E f : ℝ) : ℝ :=
  5 / 2 * (((B.x - A.x + (B.y - A.y) + 3) / 2 * g.dx) * boxFlowError g A B M T E f + 3 * g.dx * ((B.x - A.x + (B.y - A.y)) * g.dx * (M * T * T) ^ 2))

/-- Force and torque of a box, if fields that are the same near its faces are close to a wave. -/
theorem holdsBoxForce_near {qty : Quantity ℝ} {now : ℕ → ℝ} {g : Grid ℝ} {cs1 cs2 later : List (Call ℝ)} {name : String} {a b : V2 ℝ} {freq : List ℝ} {n : ℕ} {w4 : World ℝ}
    (h : BoxAsked qty now g cs1 cs2 later name a b freq n w4) {m0 : BoxMon ℝ} (hm0 : BoxMon.make name (Vol.make a b) .all freq = .ok m0)
    (w1 w2 w3 : World ℝ) (hw : Watched now g cs1 (.box m0) cs2 w1 w2) (sce : Scene)
    (sc : ∀ s2 qs, w1.sim.step now (.addMonitor (.box m0)) = .ok s2 → Watch now s2 (simOps cs2) qs w2.sim → ∀ m (hm : m < qs.length), ∃ c c', sce.run g m = .ok c ∧
      sce.run g (m + 1) = .ok c' ∧ (qs[m]).2 = (m + 1) * g.dt ∧ (qs[m]).1.Ez = c'.f.Ez ∧
      (∀ i j, (qs[m]).1.Hx.val i j = c.f.Hx.val i j) ∧ (∀ i j, (qs[m]).1.Hy.val i j = c.f.Hy.val i j))
    (k2 : w2.step now (.report w1.sim.mons.length qty) = .ok w3) (k3 : w3.run now later = .ok w4)
    (w : Spec.Wave) (τ M B : ℝ) (hM : 0 ≤ M) (hst : w.Steady g τ M) (hev : w.Even g τ M) (hr : w.AtRest g) (hτ : n * g.dt ≤ τ)
    (close : ∀ m ≤ n, ∃ c F, sce.run g m = .ok c ∧ (∀ f i j, Nearby (g.toGrid (boxFace a b f).1) (g.toGrid (boxFace a b f).2.1) i j →
      c.f.Ez.val i j = F.Ez.val i j ∧ c.f.Hx.val i j = F.Hx.val i j ∧ c.f.Hy.val i j = F.Hy.val i j) ∧ Real.sqrt (gap w g m F (updatedNodes g)) ≤ B) :
    (qty = .force → HoldsBoxForce w4 g name a b freq w (n * g.dt) fun f => 3 / 2 * boxFlowError g (g.toGrid a) (g.toGrid b) M (n * g.dt) B f) ∧
    (∀ c, qty = .torque c → HoldsBoxTorque w4 g name a b freq w (n * g.dt) (boxTorqueError g (g.toGrid a) (g.toGrid b) M (n * g.dt) B)) := by
  have hc : ∀ op ∈ simOps cs2, isClear op = false := fun op ho => by
    rcases h.advances op ho with k | rfl
    · cases op <;> first | rfl | cases k
    · rfl
  obtain ⟨x1, x2, x3⟩ := h.x
  obtain ⟨y1, y2, y3⟩ := h.y
  obtain ⟨s2, qs, q1, q2, q3, s, is, ss, BM, nx, ny, q4, q5, q6, q7, q8, q9⟩ := box_kept now g cs1 cs2 name a b freq m0 hm0 x2 y2
    (inner_of_two ⟨x1, by omega⟩ ⟨y1, by omega⟩ h.fine) (inner_of_two ⟨by omega, x3⟩ ⟨by omega, y3⟩ h.fine) w1 w2 hw hc
  have hab : a.x < b.x := by
    by_contra c
    have := div_le_div_of_nonneg_right (not_lt.mp c) h.lawful.dx.le
    simp only [Grid.toGrid, roundI_real] at x2
    exact absurd x2 (not_lt.mpr (roundAway_mono this))
  have hab' : a.y < b.y := by
    by_contra c
    have := div_le_div_of_nonneg_right (not_lt.mp c) h.lawful.dx.le
    simp only [Grid.toGrid, roundI_real] at y2
    exact absurd y2 (not_lt.mpr (roundAway_mono this))
  have cx : ∀ f, 2 ≤ (g.toGrid (boxFace a b f).1).x ∧ (g.toGrid (boxFace a b f).1).x ≤ g.Nx - 2 := by
    intro f
    fin_cases f
    · exact ⟨x1, by show (g.toGrid a).x ≤ _; omega⟩
    · exact ⟨by show 2 ≤ (g.toGrid b).x; omega, x3⟩
    · exact ⟨by show 2 ≤ (g.toGrid b).x; omega, x3⟩
    · exact ⟨x1, by show (g.toGrid a).x ≤ _; omega⟩
  have cy : ∀ f, 2 ≤ (g.toGrid (boxFace a b f).1).y ∧ (g.toGrid (boxFace a b f).1).y ≤ g.Ny - 2 := by
    intro f
    fin_cases f
    · exact ⟨y1, by show (g.toGrid a).y ≤ _; omega⟩
    · exact ⟨y1, by show (g.toGrid a).y ≤ _; omega⟩
    · exact ⟨by show 2 ≤ (g.toGrid b).y; omega, y3⟩
    · exact ⟨by show 2 ≤ (g.toGrid b).y; omega, y3⟩
  have dx : ∀ f, 2 ≤ (g.toGrid (boxFace a b f).2.1).x ∧ (g.toGrid (boxFace a b f).2.1).x ≤ g.Nx - 2 := by
    intro f
    fin_cases f
    · exact ⟨by show 2 ≤ (g.toGrid b).x; omega, x3⟩
    · exact ⟨by show 2 ≤ (g.toGrid b).x; omega, x3⟩
    · exact ⟨x1, by show (g.toGrid a).x ≤ _; omega⟩
    · exact ⟨x1, by show (g.toGrid a).x ≤ _; omega⟩
  have dy : ∀ f, 2 ≤ (g.toGrid (boxFace a b f).2.1).y ∧ (g.toGrid (boxFace a b f).2.1).y ≤ g.Ny - 2 := by
    intro f
    fin_cases f
    · exact ⟨y1, by show (g.toGrid a).y ≤ _; omega⟩
    · exact ⟨by show 2 ≤ (g.toGrid b).y; omega, y3⟩
    · exact ⟨by show 2 ≤ (g.toGrid b).y; omega, y3⟩
    · exact ⟨y1, by show (g.toGrid a).y ≤ _; omega⟩
  have hne : ∀ f, g.toGrid (boxFace a b f).1 ≠ g.toGrid (boxFace a b f).2.1 := by
    intro f e
    have e1 := congrArg V2.x e
    have e2 := congrArg V2.y e
    simp only [Grid.toGrid, roundI_real] at x2 y2 e1 e2
    fin_cases f <;> simp [boxFace] at e1 e2 <;> omega
  have c0 : cells g (boxFace a b 0).1 (boxFace a b 0).2.1 = ((g.toGrid b).x - (g.toGrid a).x).toNat := by
    simp only [Grid.toGrid, roundI_real] at x2 ⊢; simp [cells, boxFace, Grid.toGrid]; omega
  have c1 : cells g (boxFace a b 1).1 (boxFace a b 1).2.1 = ((g.toGrid b).y - (g.toGrid a).y).toNat := by
    simp only [Grid.toGrid, roundI_real] at y2 ⊢; simp [cells, boxFace, Grid.toGrid]; omega
  have c2 : cells g (boxFace a b 2).1 (boxFace a b 2).2.1 = ((g.toGrid b).x - (g.toGrid a).x).toNat := by
    simp only [Grid.toGrid, roundI_real] at x2 ⊢; simp [cells, boxFace, Grid.toGrid]; omega
  have c3 : cells g (boxFace a b 3).1 (boxFace a b 3).2.1 = ((g.toGrid b).y - (g.toGrid a).y).toNat := by
    simp only [Grid.toGrid, roundI_real] at y2 ⊢; simp [cells, boxFace, Grid.toGrid]; omega
  constructor
  · rintro rfl
    obtain ⟨S, S1, S2⟩ := C42_box_force g BM a b hab hab' nx ny _ _ q9
    have rep := report_stays now later w2 w3 w4 _ _ .force _ q5 (by rw [hw.grid]; simp only [Monitor.compute, S1]; rfl) ⟨_, rfl⟩ k2 k3
    rw [q7, q6] at rep
    refine ⟨fun x => ∑ f, ∑ i ∈ Finset.range (cells g (boxFace a b f).1 (boxFace a b f).2.1), (phasors x i (midway (fun _ => 0) (ss f))).traction (outward f) 0 * g.dx,
      fun x => ∑ f, ∑ i ∈ Finset.range (cells g (boxFace a b f).1 (boxFace a b f).2.1), (phasors x i (midway (fun _ => 0) (ss f))).traction (outward f) 1 * g.dx, ?_, fun x => ?_⟩
    · rw [show ["monitors", "box_monitor", name, "force"] = ["monitors", "box_monitor", name] ++ [(Quantity.force : Quantity ℝ).name] from rfl, rep]
      congr 2
      unfold overFreq
      congr 1
      · refine freq_map freq _ _ fun k hk => ?_
        rw [(S2 k hk).1]
        refine Finset.sum_congr rfl fun f _ => ?_
        simp only [q8, lineField, getD_lt freq hk]
      · refine freq_map freq _ _ fun k hk => ?_
        rw [(S2 k hk).2]
        refine Finset.sum_congr rfl fun f _ => ?_
        simp only [q8, lineField, getD_lt freq hk]
    have face := fun f => line_pull_near g h.lawful h.fine (boxFace a b f).1 (boxFace a b f).2.1 (boxFace a b f).2.2 (s f) (q4 f).1 (hne f) (cx f) (cy f) (dx f) (dy f)
      sce n qs (is f) (ss f) (q3.trans h.steps.symm) (q4 f).2.1 (q4 f).2.2 (sc s2 qs q1 q2) w τ M B hM hst hev hr hτ
      (fun m hm => by obtain ⟨c, F, e1, e2, e3⟩ := close m hm; exact ⟨c, F, e1, e2 f, e3⟩) x
    simp only [boxFace_normal a b hab.ne] at face
    have f0 := face 0
    have f1 := face 1
    have f2 := face 2
    have f3 := face 3
    simp only [Fin.sum_univ_four]
    rw [c0] at f0 ⊢
    rw [c1] at f1 ⊢
    rw [c2] at f2 ⊢
    rw [c3] at f3 ⊢
    unfold boxFlowError Wave.boxForce
    refine ⟨?_, ?_⟩
    · have g0 := f0.1; have g1 := f1.1; have g2 := f2.1; have g3 := f3.1
      rw [abs_le] at g0 g1 g2 g3 ⊢
      constructor
      · exact le_trans (le_of_eq (by ring)) (le_trans (add_le_add (add_le_add (add_le_add g0.1 g1.1) g2.1) g3.1) (le_of_eq (by simp only [boxFace, outward]; simp [Grid.toReal, Grid.toGrid]; ring)))
      · exact le_trans (le_of_eq (by simp only [boxFace, outward]; simp [Grid.toReal, Grid.toGrid]; ring)) (le_trans (add_le_add (add_le_add (add_le_add g0.2 g1.2) g2.2) g3.2) (le_of_eq (by ring)))
    · have g0 := f0.2; have g1 := f1.2; have g2 := f2.2; have g3 := f3.2
      rw [abs_le] at g0 g1 g2 g3 ⊢
      constructor
      · exact le_trans (le_of_eq (by ring)) (le_trans (add_le_add (add_le_add (add_le_add g0.1 g1.1) g2.1) g3.1) (le_of_eq (by simp only [boxFace, outward]; simp [Grid.toReal, Grid.toGrid]; ring)))
      · exact le_trans (le_of_eq (by simp only [boxFace, outward]; simp [Grid.toReal, Grid.toGrid]; ring)) (le_trans (add_le_add (add_le_add (add_le_add g0.2 g1.2) g2.2) g3.2) (le_of_eq (by ring)))
  · rintro ctr rfl
    have d0 := h.lawful.dx
    obtain ⟨S, S1, S2⟩ := C42_box_torque g BM a b hab hab' nx ny _ _ q9
    have rep := report_stays now later w2 w3 w4 _ _ (.torque ctr) _ q5 (by rw [hw.grid]; simp only [Monitor.compute, S1]; rfl) ⟨_, rfl⟩ k2 k3
    rw [q7, q6] at rep
    set c : V2 ℝ := ⟨(a.x + b.x) / 2, (a.y + b.y) / 2⟩ with hcd
    set c' : V2 ℝ := ⟨((g.toReal (g.toGrid a)).x + (g.toReal (g.toGrid b)).x) / 2, ((g.toReal (g.toGrid a)).y + (g.toReal (g.toGrid b)).y) / 2⟩ with hcd'
    refine ⟨fun x => ∑ f, ∑ i ∈ Finset.range (cells g (boxFace a b f).1 (boxFace a b f).2.1),
      (phasors x i (midway (fun _ => 0) (ss f))).moment (outward f) (midPoint (boxFace a b f).1 (boxFace a b f).2.1 g.dx i - c) * g.dx, ?_, fun x => ?_⟩
    · rw [show ["monitors", "box_monitor", name, "torque"] = ["monitors", "box_monitor", name] ++ [(Quantity.torque ctr : Quantity ℝ).name] from rfl, rep]
      congr 2
      unfold overFreq
      refine freq_map freq _ _ fun k hk => ?_
      rw [S2 k hk]
      refine Finset.sum_congr rfl fun f _ => ?_
      simp only [q8, lineField, getD_lt freq hk]
    have node : ∀ x : ℝ, |x - roundAway (x / g.dx) * g.dx| ≤ g.dx / 2 := fun x => by
      have := mul_le_mul_of_nonneg_right (roundAway_abs_sub_le (x / g.dx)) d0.le
      rw [← abs_of_pos d0, ← abs_mul, abs_of_pos d0, sub_mul, div_mul_cancel₀ _ d0.ne', abs_sub_comm] at this
      linarith
    have half : ∀ u v : ℝ, |(u + v) / 2 - (roundAway (u / g.dx) * g.dx + roundAway (v / g.dx) * g.dx) / 2| ≤ g.dx / 2 := fun u v => by
      have e1 := abs_le.mp (node u)
      have e2 := abs_le.mp (node v)
      exact abs_le.mpr ⟨by linarith, by linarith⟩
    have cxe : c'.x = ((g.toGrid a).x * g.dx + (g.toGrid b).x * g.dx) / 2 := by simp only [hcd', Grid.toReal, ofInt_real]; ring
    have cye : c'.y = ((g.toGrid a).y * g.dx + (g.toGrid b).y * g.dx) / 2 := by simp only [hcd', Grid.toReal, ofInt_real]; ring
    have hcx : |c.x - c'.x| ≤ g.dx / 2 := by rw [cxe]; exact half a.x b.x
    have hcy : |c.y - c'.y| ≤ g.dx / 2 := by rw [cye]; exact half a.y b.y
    set R : ℝ := (((g.toGrid b).x : ℝ) - (g.toGrid a).x + (((g.toGrid b).y : ℝ) - (g.toGrid a).y) + 3) / 2 * g.dx with hRd
    have wx : (1 : ℝ) ≤ ((g.toGrid b).x : ℝ) - (g.toGrid a).x := by
      have : (1 : ℤ) ≤ (g.toGrid b).x - (g.toGrid a).x := by omega
      exact_mod_cast this
    have wy : (1 : ℝ) ≤ ((g.toGrid b).y : ℝ) - (g.toGrid a).y := by
      have : (1 : ℤ) ≤ (g.toGrid b).y - (g.toGrid a).y := by omega
      exact_mod_cast this
    have R0 : 0 ≤ R := by rw [hRd]; have : 0 ≤ ((g.toGrid b).x : ℝ) - (g.toGrid a).x + (((g.toGrid b).y : ℝ) - (g.toGrid a).y) + 3 := by linarith
                          positivity
    -- the ends of the faces are corners
    have endx : ∀ f, ((g.toGrid (boxFace a b f).1).x = (g.toGrid a).x ∨ (g.toGrid (boxFace a b f).1).x = (g.toGrid b).x) ∧
        ((g.toGrid (boxFace a b f).2.1).x = (g.toGrid a).x ∨ (g.toGrid (boxFace a b f).2.1).x = (g.toGrid b).x) := fun f => by
      fin_cases f
      · exact ⟨.inl rfl, .inr rfl⟩
      · exact ⟨.inr rfl, .inr rfl⟩
      · exact ⟨.inr rfl, .inl rfl⟩
      · exact ⟨.inl rfl, .inl rfl⟩
    have endy : ∀ f, ((g.toGrid (boxFace a b f).1).y = (g.toGrid a).y ∨ (g.toGrid (boxFace a b f).1).y = (g.toGrid b).y) ∧
        ((g.toGrid (boxFace a b f).2.1).y = (g.toGrid a).y ∨ (g.toGrid (boxFace a b f).2.1).y = (g.toGrid b).y) := fun f => by
      fin_cases f
      · exact ⟨.inl rfl, .inl rfl⟩
      · exact ⟨.inl rfl, .inr rfl⟩
      · exact ⟨.inr rfl, .inr rfl⟩
      · exact ⟨.inr rfl, .inl rfl⟩
    have mid : ∀ (P Q lo hi' t : ℤ) (N : ℕ) (r : ℝ), lo ≤ P → P ≤ hi' → lo ≤ Q → Q ≤ hi' → Q = P + N * t → 0 ≤ r → r ≤ N → (lo : ℝ) ≤ P + r * t ∧ (P : ℝ) + r * t ≤ hi' :=
      fun P Q lo hi' t N r l1 l2 l3 l4 e r0 r1 => by
        have m1 : (lo : ℝ) ≤ P := by exact_mod_cast l1
        have m2 : (P : ℝ) ≤ hi' := by exact_mod_cast l2
        have m3 : (lo : ℝ) ≤ Q := by exact_mod_cast l3
        have m4 : (Q : ℝ) ≤ hi' := by exact_mod_cast l4
        have me : (Q : ℝ) = P + N * t := by exact_mod_cast e
        rcases le_total (0 : ℝ) t with ht | ht
        · have := mul_le_mul_of_nonneg_right r1 ht
          have := mul_nonneg r0 ht
          exact ⟨by linarith, by linarith⟩
        · have := mul_le_mul_of_nonpos_right r1 ht
          have := mul_nonpos_of_nonneg_of_nonpos r0 ht
          exact ⟨by linarith, by linarith⟩
    have hR : ∀ f, ∀ i < cells g (boxFace a b f).1 (boxFace a b f).2.1, |(midPoint (boxFace a b f).1 (boxFace a b f).2.1 g.dx i - c).x| ≤ R ∧
        |(midPoint (boxFace a b f).1 (boxFace a b f).2.1 g.dx i - c).y| ≤ R := fun f i hi => by
      obtain ⟨m1, m2⟩ := midPoint_near g d0 _ _ _ (s f) (q4 f).1 (hne f) (is f) (q4 f).2.1 i (1 / 2) (by norm_num) (by norm_num)
      obtain ⟨-, p2, p3, -, -, -⟩ := surfPoint_cell g d0 _ _ _ (s f) (q4 f).1 (hne f) (is f) (q4 f).2.1
      have i1 : ((i : ℝ) + 1 : ℝ) ≤ cells g (boxFace a b f).1 (boxFace a b f).2.1 := by exact_mod_cast hi
      have i0 : (0 : ℝ) ≤ i := Nat.cast_nonneg i
      obtain ⟨ex1, ex2⟩ := endx f
      obtain ⟨ey1, ey2⟩ := endy f
      have bx := mid _ _ (g.toGrid a).x (g.toGrid b).x _ _ ((i : ℝ) + 1 / 2) (by omega) (by omega) (by omega) (by omega) p2 (by linarith) (by linarith)
      have by' := mid _ _ (g.toGrid a).y (g.toGrid b).y _ _ ((i : ℝ) + 1 / 2) (by omega) (by omega) (by omega) (by omega) p3 (by linarith) (by linarith)
      have bx1 := mul_le_mul_of_nonneg_right bx.1 d0.le
      have bx2 := mul_le_mul_of_nonneg_right bx.2 d0.le
      have by1 := mul_le_mul_of_nonneg_right by'.1 d0.le
      have by2 := mul_le_mul_of_nonneg_right by'.2 d0.le
      have wx' := mul_le_mul_of_nonneg_right wx d0.le
      have wy' := mul_le_mul_of_nonneg_right wy d0.le
      have Re : R = ((g.toGrid b).x * g.dx - (g.toGrid a).x * g.dx + ((g.toGrid b).y * g.dx - (g.toGrid a).y * g.dx) + 3 * g.dx) / 2 := by rw [hRd]; ring
      rw [abs_le] at m1 m2 hcx hcy
      rw [V2.sub_x, V2.sub_y, abs_le, abs_le, Re]
      refine ⟨⟨by linarith, by linarith⟩, by linarith, by linarith⟩
    have face := fun f => line_twist_near g h.lawful h.fine (boxFace a b f).1 (boxFace a b f).2.1 (boxFace a b f).2.2 (s f) (q4 f).1 (hne f) (cx f) (cy f) (dx f) (dy f)
      sce n qs (is f) (ss f) (q3.trans h.steps.symm) (q4 f).2.1 (q4 f).2.2 (sc s2 qs q1 q2) w τ M B hM hst hev hr hτ
      (fun m hm => by obtain ⟨c, F, e1, e2, e3⟩ := close m hm; exact ⟨c, F, e1, e2 f, e3⟩) c c' hcx hcy R (hR f) R0 x
    simp only [boxFace_normal a b hab.ne] at face
    have f0 := face 0
    have f1 := face 1
    have f2 := face 2
    have f3 := face 3
    simp only [Fin.sum_univ_four]
    rw [c0] at f0 ⊢
    rw [c1] at f1 ⊢
    rw [c2] at f2 ⊢
    rw [c3] at f3 ⊢
    have ex : ((((g.toGrid b).x - (g.toGrid a).x).toNat : ℕ) : ℝ) = ((g.toGrid b).x : ℝ) - (g.toGrid a).x := by
      have : ((((g.toGrid b).x - (g.toGrid a).x).toNat : ℕ) : ℤ) = (g.toGrid b).x - (g.toGrid a).x := Int.toNat_of_nonneg (by omega)
      exact_mod_cast this
    have ey : ((((g.toGrid b).y - (g.toGrid a).y).toNat : ℕ) : ℝ) = ((g.toGrid b).y : ℝ) - (g.toGrid a).y := by
      have : ((((g.toGrid b).y - (g.toGrid a).y).toNat : ℕ) : ℤ) = (g.toGrid b).y - (g.toGrid a).y := Int.toNat_of_nonneg (by omega)
      exact_mod_cast this
    have tot : 5 / 2 * (R * flowError g ((g.toGrid b).x - (g.toGrid a).x).toNat M (n * g.dt) B x + 3 / 2 * g.dx * (((((g.toGrid b).x - (g.toGrid a).x).toNat : ℕ) : ℝ) * g.dx * (M * (n * g.dt) * (n * g.dt)) ^ 2)) +
        5 / 2 * (R * flowError g ((g.toGrid b).y - (g.toGrid a).y).toNat M (n * g.dt) B x + 3 / 2 * g.dx * (((((g.toGrid b).y - (g.toGrid a).y).toNat : ℕ) : ℝ) * g.dx * (M * (n * g.dt) * (n * g.dt)) ^ 2)) +
        5 / 2 * (R * flowError g ((g.toGrid b).x - (g.toGrid a).x).toNat M (n * g.dt) B x + 3 / 2 * g.dx * (((((g.toGrid b).x - (g.toGrid a).x).toNat : ℕ) : ℝ) * g.dx * (M * (n * g.dt) * (n * g.dt)) ^ 2)) +
        5 / 2 * (R * flowError g ((g.toGrid b).y - (g.toGrid a).y).toNat M (n * g.dt) B x + 3 / 2 * g.dx * (((((g.toGrid b).y - (g.toGrid a).y).toNat : ℕ) : ℝ) * g.dx * (M * (n * g.dt) * (n * g.dt)) ^ 2)) =
        boxTorqueError g (g.toGrid a) (g.toGrid b) M (n * g.dt) B x := by
      unfold boxTorqueError boxFlowError
      rw [ex, ey, hRd]
      ring
    rw [← tot]
    have sums : ∀ p q r t p' q' r' t' P Q U V : ℝ, |g.dt ^ 2 * p - p'| ≤ P → |g.dt ^ 2 * q - q'| ≤ Q → |g.dt ^ 2 * r - r'| ≤ U → |g.dt ^ 2 * t - t'| ≤ V →
        |g.dt ^ 2 * (p + q + r + t) - (p' + q' + r' + t')| ≤ P + Q + U + V := fun p q r t p' q' r' t' P Q U V h1 h2 h3 h4 => by
      rw [abs_le] at h1 h2 h3 h4 ⊢
      exact ⟨by linarith, by linarith⟩
    exact sums _ _ _ _ _ _ _ _ _ _ _ _ f0 f1 f2 f3

end Props

end Qbox
