import Verif.Lemmas.Converge
import Verif.Props.PulseProps

/-! # Convergence to Maxwell's equations (C71) -/

namespace Qbox.Props
open Qbox Scalar Spec

theorem slope {f f1 : ℝ → ℝ} {a b M : ℝ} (h : Tame f f1 a b M) {p q s k : ℝ} (hk : 0 < k) (hp : p = s - k / 2) (hq : q = s + k / 2) (ha : a ≤ p) (hb : q ≤ b) :
    |(f q - f p) / k - f1 s| ≤ M * k ^ 2 / 4 := by
  subst hp hq
  have := h.diff (δ := k / 2) (by positivity) ha hb
  have e : (f (s + k / 2) - f (s - k / 2)) / k - f1 s = (f (s + k / 2) - f (s - k / 2) - 2 * (k / 2) * f1 s) / k := by field_simp
  rw [e, abs_div, abs_of_pos hk, div_le_iff₀ hk]
  refine this.trans (le_of_eq (by ring))

theorem middle {f f1 : ℝ → ℝ} {a b M : ℝ} (h : Tame f f1 a b M) {p q s k : ℝ} (hk : 0 < k) (hp : p = s - k / 2) (hq : q = s + k / 2) (ha : a ≤ p) (hb : q ≤ b) :
    |(f q + f p) / 2 - f s| ≤ M * k ^ 2 / 4 := by
  subst hp hq
  have := h.mean (δ := k / 2) (by positivity) ha hb
  have e : (f (s + k / 2) + f (s - k / 2)) / 2 - f s = (f (s + k / 2) + f (s - k / 2) - 2 * f s) / 2 := by ring
  rw [e, abs_div, abs_of_pos (by norm_num : (0 : ℝ) < 2), div_le_iff₀ (by norm_num)]
  refine this.trans (le_of_eq (by ring))

open Classical in
/-- The wave on the grid after `n` steps. -/
noncomputable def sampled (w : Wave) (g : Grid ℝ) (n : ℕ) (f : Flds ℝ) : Flds ℝ :=
  { f with
    Ez := f.Ez.setv fun i j => if (updatedNodes g).Mem i j then w.nodeE g n i j else 0
    Hx := f.Hx.setv fun i j => if (updatedNodes g).Mem i j then w.nodeX g n i j else 0
    Hy := f.Hy.setv fun i j => if (updatedNodes g).Mem i j then w.nodeY g n i j else 0 }

theorem sampled_quiet (w : Wave) (g : Grid ℝ) (n : ℕ) (f : Flds ℝ) : FrameQuiet (sampled w g n f) (updatedNodes g) where
  left j := if_neg (by unfold Box.Mem; omega)
  right j := if_neg (by unfold Box.Mem; omega)
  bottom i := if_neg (by unfold Box.Mem; omega)
  top i := if_neg (by unfold Box.Mem; omega)

section
variable {w : Wave} {g : Grid ℝ} {τ M : ℝ} (hl : Lawful g)
include hl

theorem node_pos {k : ℤ} (h0 : 0 ≤ k) : 0 ≤ (k : ℝ) * g.dx := mul_nonneg (by exact_mod_cast h0) hl.dx.le
theorem node_le_x {k : ℤ} (h1 : k ≤ g.Nx - 1) : (k : ℝ) * g.dx ≤ g.Lx := by
  rw [hl.Lx, mul_comm]
  exact mul_le_mul_of_nonneg_left (by exact_mod_cast h1) hl.dx.le
theorem node_le_y {k : ℤ} (h1 : k ≤ g.Ny - 1) : (k : ℝ) * g.dx ≤ g.Ly := by
  rw [hl.Ly, mul_comm]
  exact mul_le_mul_of_nonneg_left (by exact_mod_cast h1) hl.dx.le

variable (hw : w.Walls g τ)
include hw

/-- The cut off at the edge changes nothing, because of the walls. -/
theorem sampled_E {n : ℕ} (h0 : 0 ≤ (n : ℝ) * g.dt) (h1 : (n : ℝ) * g.dt ≤ τ) (f : Flds ℝ) {i j : ℤ} (i0 : 1 ≤ i) (i1 : i ≤ g.Nx - 1) (j0 : 1 ≤ j) (j1 : j ≤ g.Ny - 1) :
    (sampled w g n f).Ez.val i j = w.nodeE g n i j := by
  by_cases h : (updatedNodes g).Mem i j
  · exact if_pos h
  · refine (if_neg h).trans ?_
    have : i = g.Nx - 1 ∨ j = g.Ny - 1 := by
      unfold Box.Mem updatedNodes at h
      simp only at h
      omega
    unfold Wave.nodeE
    rcases this with rfl | rfl
    · rw [show ((g.Nx - 1 : ℤ) : ℝ) * g.dx = g.Lx by rw [hl.Lx]; ring, hw.right _ _ h0 h1 (node_pos hl (by omega)) (node_le_y hl j1)]
    · rw [show ((g.Ny - 1 : ℤ) : ℝ) * g.dx = g.Ly by rw [hl.Ly]; ring, hw.top _ _ h0 h1 (node_pos hl (by omega)) (node_le_x hl i1)]

theorem sampled_X {n : ℕ} (h0 : 0 ≤ ((n : ℝ) + 1 / 2) * g.dt) (h1 : ((n : ℝ) + 1 / 2) * g.dt ≤ τ) (f : Flds ℝ) {i j : ℤ} (i0 : 1 ≤ i) (i1 : i ≤ g.Nx - 2) (j0 : 0 ≤ j)
    (j1 : j ≤ g.Ny - 2) : (sampled w g n f).Hx.val i j = w.nodeX g n i j := by
  by_cases h : (updatedNodes g).Mem i j
  · exact if_pos h
  · refine (if_neg h).trans ?_
    have : j = 0 := by
      unfold Box.Mem updatedNodes at h
      simp only at h
      omega
    subst this
    unfold Wave.nodeX
    rw [show (((0 : ℤ) : ℝ) + 1 / 2) * g.dx = g.dx / 2 by push_cast; ring, hw.bottom _ _ h0 h1 (node_pos hl (by omega)) (node_le_x hl (by omega))]

theorem sampled_Y {n : ℕ} (h0 : 0 ≤ ((n : ℝ) + 1 / 2) * g.dt) (h1 : ((n : ℝ) + 1 / 2) * g.dt ≤ τ) (f : Flds ℝ) {i j : ℤ} (i0 : 0 ≤ i) (i1 : i ≤ g.Nx - 2) (j0 : 1 ≤ j)
    (j1 : j ≤ g.Ny - 2) : (sampled w g n f).Hy.val i j = w.nodeY g n i j := by
  by_cases h : (updatedNodes g).Mem i j
  · exact if_pos h
  · refine (if_neg h).trans ?_
    have : i = 0 := by
      unfold Box.Mem updatedNodes at h
      simp only at h
      omega
    subst this
    unfold Wave.nodeY
    rw [show (((0 : ℤ) : ℝ) + 1 / 2) * g.dx = g.dx / 2 by push_cast; ring, hw.left _ _ h0 h1 (node_pos hl (by omega)) (node_le_y hl (by omega))]

variable {S : ℝ → ℝ → Prop} (hs : w.Smooth S g τ M) (hb : w.Steady g τ M) {eps sig : ℝ → ℝ → ℝ}
include hs hb

set_option maxHeartbeats 1000000 in
/-- What is left when a wave with current `J` is put into the equations of one step. -/
theorem driven_laws {J : ℝ → ℝ → ℝ → ℝ} (hm : w.Driven S eps sig J g τ) {med : ℤ → ℤ → Simple ℝ} {epsMax sigMax : ℝ}
    (he : ∀ i j, (updatedNodes g).Mem i j → (med i j).eps = eps (i * g.dx) (j * g.dx) ∧ (med i j).conduc = sig (i * g.dx) (j * g.dx) ∧
      1 ≤ (med i j).eps ∧ (med i j).eps ≤ epsMax ∧ 0 ≤ (med i j).conduc ∧ (med i j).conduc ≤ sigMax)
    {n : ℕ} (ht : ((n : ℝ) + 3 / 2) * g.dt ≤ τ) (f f' : Flds ℝ) :
    ∃ rE rX rY, Laws g med (updatedNodes g) (sampled w g n f) (sampled w g (n + 1) f') rE rX rY ∧ ∀ i j, (updatedNodes g).Mem i j →
      (¬ Crossed S g i j → |rE i j + J ((n + 1 / 2) * g.dt) (i * g.dx) (j * g.dx)| ≤ (epsMax + sigMax + 8) / 16 * M * g.dx ^ 2 ∧ |rX i j| ≤ (epsMax + sigMax + 8) / 16 * M * g.dx ^ 2 ∧
        |rY i j| ≤ (epsMax + sigMax + 8) / 16 * M * g.dx ^ 2) ∧
      |rE i j| ≤ (epsMax + sigMax + 2) * M ∧ |rX i j| ≤ (epsMax + sigMax + 2) * M ∧ |rY i j| ≤ (epsMax + sigMax + 2) * M := by
  have hx := hl.dx
  have hdt : g.dt = g.dx / 2 := hl.dt
  have dt0 : 0 < g.dt := by linarith
  have n0 : (0 : ℝ) ≤ n := Nat.cast_nonneg n
  have t0 : 0 ≤ (n : ℝ) * g.dt := by positivity
  have ta : (n : ℝ) * g.dt ≤ τ := by nlinarith
  have tb : ((n : ℝ) + 1 / 2) * g.dt ≤ τ := by nlinarith
  have tb0 : 0 ≤ ((n : ℝ) + 1 / 2) * g.dt := by positivity
  have tc : ((n : ℝ) + 1) * g.dt ≤ τ := by nlinarith
  have tc0 : 0 ≤ ((n : ℝ) + 1) * g.dt := by positivity
  have td0 : 0 ≤ ((n : ℝ) + 3 / 2) * g.dt := by positivity
  have cast : ((n + 1 : ℕ) : ℝ) = (n : ℝ) + 1 := by push_cast; ring
  refine ⟨fun i j => (med i j).eps * ((sampled w g (n + 1) f').Ez.val i j - (sampled w g n f).Ez.val i j) / g.dt +
      (med i j).conduc * ((sampled w g (n + 1) f').Ez.val i j + (sampled w g n f).Ez.val i j) / 2 - curlH (sampled w g n f) g.dx i j,
    fun i j => ((sampled w g (n + 1) f').Hx.val i j - (sampled w g n f).Hx.val i j) / g.dt +
      ((sampled w g (n + 1) f').Ez.val i (j + 1) - (sampled w g (n + 1) f').Ez.val i j) / g.dx,
    fun i j => ((sampled w g (n + 1) f').Hy.val i j - (sampled w g n f).Hy.val i j) / g.dt -
      ((sampled w g (n + 1) f').Ez.val (i + 1) j - (sampled w g (n + 1) f').Ez.val i j) / g.dx,
    ⟨fun i j _ => by unfold ConductiveLaw; ring, fun i j _ => by field_simp; ring, fun i j _ => by field_simp; ring⟩, fun i j h => ?_⟩
  obtain ⟨q1, q2, q3, q4, q5, q6⟩ := he i j h
  have h' := h
  unfold Box.Mem updatedNodes at h'
  simp only at h'
  obtain ⟨⟨i0, i1⟩, j0, j1⟩ := h'
  have px := node_pos hl (k := i) (by omega)
  have py := node_pos hl (k := j) (by omega)
  have px1 := node_le_x hl (k := i + 1) (by omega)
  have py1 := node_le_y hl (k := j + 1) (by omega)
  have qx := node_pos hl (k := i - 1) (by omega)
  have qy := node_pos hl (k := j - 1) (by omega)
  push_cast at px1 py1 qx qy
  have dom : InDomain g (i * g.dx) (j * g.dx) := ⟨px, by linarith, py, by linarith⟩
  have domX : InDomain g (i * g.dx) ((j + 1 / 2) * g.dx) := ⟨px, by linarith, by linarith, by linarith⟩
  have domY : InDomain g ((i + 1 / 2) * g.dx) (j * g.dx) := ⟨by linarith, by linarith, py, by linarith⟩
  have hM : 0 ≤ M := (abs_nonneg _).trans (hb.E0 0 _ _ le_rfl (by linarith) dom)
  have k2 : g.dt ^ 2 = g.dx ^ 2 / 4 := by rw [hdt]; ring
  beta_reduce
  rw [sampled_E hl hw t0 ta f (i := i) (j := j) (by omega) (by omega) (by omega) (by omega),
    sampled_E hl hw (n := n + 1) (by rw [cast]; exact tc0) (by rw [cast]; exact tc) f' (i := i) (j := j) (by omega) (by omega) (by omega) (by omega),
    sampled_E hl hw (n := n + 1) (by rw [cast]; exact tc0) (by rw [cast]; exact tc) f' (i := i + 1) (j := j) (by omega) (by omega) (by omega) (by omega),
    sampled_E hl hw (n := n + 1) (by rw [cast]; exact tc0) (by rw [cast]; exact tc) f' (i := i) (j := j + 1) (by omega) (by omega) (by omega) (by omega),
    sampled_X hl hw (n := n + 1) (by rw [cast]; linarith) (by rw [cast]; linarith) f' (by omega) (by omega) (by omega) (by omega),
    sampled_Y hl hw (n := n + 1) (by rw [cast]; linarith) (by rw [cast]; linarith) f' (by omega) (by omega) (by omega) (by omega)]
  unfold curlH
  rw [sampled_X hl hw tb0 tb f (i := i) (j := j) (by omega) (by omega) (by omega) (by omega),
    sampled_X hl hw tb0 tb f (i := i) (j := j - 1) (by omega) (by omega) (by omega) (by omega),
    sampled_Y hl hw tb0 tb f (i := i) (j := j) (by omega) (by omega) (by omega) (by omega),
    sampled_Y hl hw tb0 tb f (i := i - 1) (j := j) (by omega) (by omega) (by omega) (by omega)]
  unfold Wave.nodeE Wave.nodeX Wave.nodeY
  rw [cast]
  push_cast
  have domX0 : InDomain g (i * g.dx) ((j - 1 + 1 / 2) * g.dx) := ⟨px, by linarith, by linarith, by linarith⟩
  have domY0 : InDomain g ((i - 1 + 1 / 2) * g.dx) (j * g.dx) := ⟨by linarith, by linarith, py, by linarith⟩
  have domU : InDomain g (i * g.dx) ((j + 1) * g.dx) := ⟨px, by linarith, by linarith, by linarith⟩
  have domR : InDomain g ((i + 1) * g.dx) (j * g.dx) := ⟨by linarith, by linarith, py, by linarith⟩
  have quo : ∀ {a b p q k : ℝ}, 0 < k → q = p + k → |a - b| ≤ M * (q - p) → |(a - b) / k| ≤ M := by
    intro a b p q k hk e h
    rw [abs_div, abs_of_pos hk, div_le_iff₀ hk]
    rw [e] at h
    linarith
  refine ⟨fun nc => ?_, ?_⟩
  · have rowS : ∀ x : ℝ, (i - 1 / 2) * g.dx ≤ x → x ≤ (i + 1) * g.dx → InDomain g x (j * g.dx) ∧ S x (j * g.dx) := fun x h1 h2 =>
      ⟨⟨by linarith, by linarith, py, by linarith⟩, by_contra fun hn => nc (.inl ⟨x, h1, h2, hn⟩)⟩
    have colS : ∀ y : ℝ, (j - 1 / 2) * g.dx ≤ y → y ≤ (j + 1) * g.dx → InDomain g (i * g.dx) y ∧ S (i * g.dx) y := fun y h1 h2 =>
      ⟨⟨px, by linarith, by linarith, by linarith⟩, by_contra fun hn => nc (.inr ⟨y, h1, h2, hn⟩)⟩
    have s0 := (rowS (i * g.dx) (by linarith) (by linarith)).2
    have sX := (colS ((j + 1 / 2) * g.dx) (by linarith) (by linarith)).2
    have sY := (rowS ((i + 1 / 2) * g.dx) (by linarith) (by linarith)).2
    -- the eight difference quotients
    have a1 := slope (hs.Et _ _ dom s0) dt0 (p := n * g.dt) (q := (n + 1) * g.dt) (s := (n + 1 / 2) * g.dt) (by ring) (by ring) t0 tc
    have a2 := middle (hs.Et _ _ dom s0) dt0 (p := n * g.dt) (q := (n + 1) * g.dt) (s := (n + 1 / 2) * g.dt) (by ring) (by ring) t0 tc
    have a3 := slope (hs.Yx _ _ ((i - 1 / 2) * g.dx) ((i + 1) * g.dx) tb0 tb rowS) hx (p := ((i : ℝ) - 1 + 1 / 2) * g.dx) (q := (i + 1 / 2) * g.dx) (s := i * g.dx)
      (by ring) (by ring) (by linarith) (by linarith)
    have a4 := slope (hs.Xy _ _ ((j - 1 / 2) * g.dx) ((j + 1) * g.dx) tb0 tb colS) hx (p := ((j : ℝ) - 1 + 1 / 2) * g.dx) (q := (j + 1 / 2) * g.dx) (s := j * g.dx)
      (by ring) (by ring) (by linarith) (by linarith)
    have a5 := slope (hs.Xt _ _ domX sX) dt0 (p := (n + 1 / 2) * g.dt) (q := (n + 1 + 1 / 2) * g.dt) (s := (n + 1) * g.dt) (by ring) (by ring) tb0 (by linarith)
    have a6 := slope (hs.Yt _ _ domY sY) dt0 (p := (n + 1 / 2) * g.dt) (q := (n + 1 + 1 / 2) * g.dt) (s := (n + 1) * g.dt) (by ring) (by ring) tb0 (by linarith)
    have a7 := slope (hs.Ey _ _ ((j - 1 / 2) * g.dx) ((j + 1) * g.dx) tc0 tc colS) hx (p := j * g.dx) (q := ((j : ℝ) + 1) * g.dx) (s := (j + 1 / 2) * g.dx)
      (by ring) (by ring) (by linarith) (by linarith)
    have a8 := slope (hs.Ex _ _ ((i - 1 / 2) * g.dx) ((i + 1) * g.dx) tc0 tc rowS) hx (p := i * g.dx) (q := ((i : ℝ) + 1) * g.dx) (s := (i + 1 / 2) * g.dx)
      (by ring) (by ring) (by linarith) (by linarith)
    have m1 := hm.ampere _ _ _ tb0 tb dom s0
    have m2 := hm.faradayX _ _ _ tc0 tc domX sX
    have m3 := hm.faradayY _ _ _ tc0 tc domY sY
    rw [← q1, ← q2] at m1
    rw [k2] at a1 a2 a5 a6
    have B : 0 ≤ M * g.dx ^ 2 := by positivity
    have B1 : M * (g.dx ^ 2 / 4) / 4 = M * g.dx ^ 2 / 16 := by ring
    rw [B1] at a1 a2 a5 a6
    set W := M * g.dx ^ 2 with hW
    have fin : (epsMax + sigMax + 8) / 16 * M * g.dx ^ 2 = (epsMax + sigMax + 8) / 16 * W := by rw [hW]; ring
    rw [fin]
    have pos : 0 ≤ (epsMax + sigMax) * W := mul_nonneg (by linarith) B
    refine ⟨?_, ?_, ?_⟩
    · set E' := w.E ((n + 1) * g.dt) (i * g.dx) (j * g.dx)
      set E := w.E (n * g.dt) (i * g.dx) (j * g.dx)
      set Em := w.E ((n + 1 / 2) * g.dt) (i * g.dx) (j * g.dx)
      set Et := w.Et ((n + 1 / 2) * g.dt) (i * g.dx) (j * g.dx)
      set A := (E' - E) / g.dt
      set B' := (E' + E) / 2
      have e1 : (med i j).eps * (E' - E) / g.dt = (med i j).eps * A := by simp only [A]; ring
      have e2 : (med i j).conduc * (E' + E) / 2 = (med i j).conduc * B' := by simp only [B']; ring
      rw [e1, e2]
      have c1 : |(med i j).eps * (A - Et)| ≤ epsMax * (W / 16) := by
        rw [abs_mul, abs_of_nonneg (by linarith)]
        exact mul_le_mul q4 a1 (abs_nonneg _) (by linarith)
      have c2 : |(med i j).conduc * (B' - Em)| ≤ sigMax * (W / 16) := by
        rw [abs_mul, abs_of_nonneg q5]
        exact mul_le_mul q6 a2 (abs_nonneg _) (by linarith)
      rw [abs_le] at c1 c2 a3 a4 ⊢
      constructor <;> linarith [c1.1, c1.2, c2.1, c2.2, a3.1, a3.2, a4.1, a4.2]
    · rw [abs_le] at a5 a7 ⊢
      constructor <;> linarith [a5.1, a5.2, a7.1, a7.2]
    · rw [abs_le] at a6 a8 ⊢
      constructor <;> linarith [a6.1, a6.2, a8.1, a8.2]
  · have a1 := quo dt0 (by ring) (hb.Et (n * g.dt) ((n + 1) * g.dt) _ _ t0 (by linarith) tc dom)
    have a2 := hb.E0 _ _ _ t0 ta dom
    have a2' := hb.E0 _ _ _ tc0 tc dom
    have a3 := quo hx (by ring) (hb.Yx _ (((i : ℝ) - 1 + 1 / 2) * g.dx) ((i + 1 / 2) * g.dx) _ tb0 tb (by linarith) domY0 domY)
    have a4 := quo hx (by ring) (hb.Xy _ _ (((j : ℝ) - 1 + 1 / 2) * g.dx) ((j + 1 / 2) * g.dx) tb0 tb (by linarith) domX0 domX)
    have a5 := quo dt0 (by ring) (hb.Xt ((n + 1 / 2) * g.dt) ((n + 1 + 1 / 2) * g.dt) _ _ tb0 (by linarith) (by linarith) domX)
    have a6 := quo dt0 (by ring) (hb.Yt ((n + 1 / 2) * g.dt) ((n + 1 + 1 / 2) * g.dt) _ _ tb0 (by linarith) (by linarith) domY)
    have a7 := quo hx (by ring) (hb.Ey _ _ (j * g.dx) (((j : ℝ) + 1) * g.dx) tc0 tc (by linarith) dom domU)
    have a8 := quo hx (by ring) (hb.Ex _ (i * g.dx) (((i : ℝ) + 1) * g.dx) _ tc0 tc (by linarith) dom domR)
    have pos : 0 ≤ (epsMax + sigMax) * M := mul_nonneg (by linarith) hM
    refine ⟨?_, ?_, ?_⟩
    · set E' := w.E ((n + 1) * g.dt) (i * g.dx) (j * g.dx)
      set E := w.E (n * g.dt) (i * g.dx) (j * g.dx)
      set A := (E' - E) / g.dt
      set B' := (E' + E) / 2 with hB'
      have e1 : (med i j).eps * (E' - E) / g.dt = (med i j).eps * A := by simp only [A]; ring
      have e2 : (med i j).conduc * (E' + E) / 2 = (med i j).conduc * B' := by simp only [B']; ring
      rw [e1, e2]
      have c1 : |(med i j).eps * A| ≤ epsMax * M := by
        rw [abs_mul, abs_of_nonneg (by linarith)]
        exact mul_le_mul q4 a1 (abs_nonneg _) (by linarith)
      have c2 : |(med i j).conduc * B'| ≤ sigMax * M := by
        rw [abs_mul, abs_of_nonneg q5]
        refine mul_le_mul q6 ?_ (abs_nonneg _) (by linarith)
        rw [abs_le] at a2 a2' ⊢
        constructor <;> linarith [a2.1, a2.2, a2'.1, a2'.2]
      rw [abs_le] at c1 c2 a3 a4 ⊢
      constructor <;> linarith [c1.1, c1.2, c2.1, c2.2, a3.1, a3.2, a4.1, a4.2]
    · rw [abs_le] at a5 a7 ⊢
      constructor <;> linarith [a5.1, a5.2, a7.1, a7.2]
    · rw [abs_le] at a6 a8 ⊢
      constructor <;> linarith [a6.1, a6.2, a8.1, a8.2]

omit hl hw hs hb in
theorem driven_of_maxwell (hm : w.Maxwell S eps sig g τ) : w.Driven S eps sig (fun _ _ _ => 0) g τ :=
  ⟨fun t x y h1 h2 h3 h4 => by rw [add_zero]; exact hm.ampere t x y h1 h2 h3 h4, hm.faradayX, hm.faradayY⟩

/-- What is left when the wave is put into the equations of one step. -/
theorem sampled_laws (hm : w.Maxwell S eps sig g τ) {med : ℤ → ℤ → Simple ℝ} {epsMax sigMax : ℝ}
    (he : ∀ i j, (updatedNodes g).Mem i j → (med i j).eps = eps (i * g.dx) (j * g.dx) ∧ (med i j).conduc = sig (i * g.dx) (j * g.dx) ∧
      1 ≤ (med i j).eps ∧ (med i j).eps ≤ epsMax ∧ 0 ≤ (med i j).conduc ∧ (med i j).conduc ≤ sigMax)
    {n : ℕ} (ht : ((n : ℝ) + 3 / 2) * g.dt ≤ τ) (f f' : Flds ℝ) :
    ∃ rE rX rY, Laws g med (updatedNodes g) (sampled w g n f) (sampled w g (n + 1) f') rE rX rY ∧ ∀ i j, (updatedNodes g).Mem i j →
      (¬ Crossed S g i j → |rE i j| ≤ (epsMax + sigMax + 8) / 16 * M * g.dx ^ 2 ∧ |rX i j| ≤ (epsMax + sigMax + 8) / 16 * M * g.dx ^ 2 ∧
        |rY i j| ≤ (epsMax + sigMax + 8) / 16 * M * g.dx ^ 2) ∧
      |rE i j| ≤ (epsMax + sigMax + 2) * M ∧ |rX i j| ≤ (epsMax + sigMax + 2) * M ∧ |rY i j| ≤ (epsMax + sigMax + 2) * M := by
  obtain ⟨rE, rX, rY, L, b⟩ := driven_laws hl hw hs hb (driven_of_maxwell hm) he ht f f'
  exact ⟨rE, rX, rY, L, by simpa only [add_zero] using b⟩

end

theorem count_area {g : Grid ℝ} (hw : g.Wide) (hl : Lawful g) (hT : g.T = 0) : g.dx ^ 2 * (updatedNodes g).count ≤ g.Lx * g.Ly := by
  have h1 := hw.nx
  have h2 := hw.ny
  have hx := hl.dx
  have : (updatedNodes g).count = ((g.Nx - 2 : ℤ) : ℝ) * ((g.Ny - 2 : ℤ) : ℝ) := by
    unfold Box.count Box.sum updatedNodes
    simp only [Finset.sum_const, nsmul_eq_mul, mul_one, Int.card_Icc]
    have e1 : (((g.Nx - 2 + 1 - 1).toNat : ℕ) : ℝ) = ((g.Nx - 2 : ℤ) : ℝ) := by
      rw [← Int.cast_natCast, Int.toNat_of_nonneg (by omega)]; congr 1; ring
    have e2 : (((g.Ny - 2 + 1 - 1).toNat : ℕ) : ℝ) = ((g.Ny - 2 : ℤ) : ℝ) := by
      rw [← Int.cast_natCast, Int.toNat_of_nonneg (by omega)]; congr 1; ring
    rw [e1, e2]
  rw [this, hl.Lx, hl.Ly]
  have a1 : (0 : ℝ) ≤ ((g.Nx - 2 : ℤ) : ℝ) := by exact_mod_cast (by omega : (0 : ℤ) ≤ g.Nx - 2)
  have a2 : (0 : ℝ) ≤ ((g.Ny - 2 : ℤ) : ℝ) := by exact_mod_cast (by omega : (0 : ℤ) ≤ g.Ny - 2)
  have b1 : ((g.Nx - 2 : ℤ) : ℝ) ≤ (g.Nx : ℝ) - 1 := by push_cast; linarith
  have b2 : ((g.Ny - 2 : ℤ) : ℝ) ≤ (g.Ny : ℝ) - 1 := by push_cast; linarith
  have := mul_le_mul b1 b2 a2 (a1.trans b1)
  have := mul_le_mul_of_nonneg_left this (sq_nonneg g.dx)
  push_cast at this ⊢
  linarith

/-- The residuals of the wave, integrated over the domain. -/
noncomputable def roughness (S : ℝ → ℝ → Prop) (g : Grid ℝ) (M epsMax sigMax : ℝ) : ℝ :=
  3 * (g.Lx * g.Ly * ((epsMax + sigMax + 8) / 16 * M * g.dx ^ 2) ^ 2 + crossedArea S g (updatedNodes g) * ((epsMax + sigMax + 2) * M) ^ 2)

theorem crossedArea_nonneg (S : ℝ → ℝ → Prop) (g : Grid ℝ) (R : Box) : 0 ≤ crossedArea S g R :=
  mul_nonneg (sq_nonneg _) (R.sum_nonneg fun i j _ => by split <;> norm_num)

theorem spread_bound {g : Grid ℝ} (hw : g.Wide) (hl : Lawful g) (hT : g.T = 0) {S : ℝ → ℝ → Prop} {A B : ℝ} {rE rX rY : ℤ → ℤ → ℝ}
    (h : ∀ i j, (updatedNodes g).Mem i j → (¬ Crossed S g i j → |rE i j| ≤ A ∧ |rX i j| ≤ A ∧ |rY i j| ≤ A) ∧
      |rE i j| ≤ B ∧ |rX i j| ≤ B ∧ |rY i j| ≤ B) :
    g.dx ^ 2 * (updatedNodes g).sum (fun i j => rE i j ^ 2 + rX i j ^ 2 + rY i j ^ 2) ≤
      3 * (g.Lx * g.Ly * A ^ 2 + crossedArea S g (updatedNodes g) * B ^ 2) := by
  classical
  have sq : ∀ {z C : ℝ}, |z| ≤ C → z ^ 2 ≤ C ^ 2 := fun hz => sq_le_sq' (abs_le.mp hz).1 (abs_le.mp hz).2
  have : (updatedNodes g).sum (fun i j => rE i j ^ 2 + rX i j ^ 2 + rY i j ^ 2) ≤
      (updatedNodes g).sum fun i j => 3 * A ^ 2 * 1 + 3 * B ^ 2 * (if Crossed S g i j then 1 else 0) := by
    refine Box.sum_le _ fun i j hm => ?_
    obtain ⟨h1, h2, h3, h4⟩ := h i j hm
    by_cases hc : Crossed S g i j
    · rw [if_pos hc]
      nlinarith [sq h2, sq h3, sq h4, sq_nonneg A]
    · obtain ⟨k2, k3, k4⟩ := h1 hc
      rw [if_neg hc]
      nlinarith [sq k2, sq k3, sq k4]
  rw [Box.sum_add (updatedNodes g) (fun _ _ => 3 * A ^ 2 * 1), Box.sum_mul, Box.sum_mul] at this
  have a1 := mul_le_mul_of_nonneg_left this (sq_nonneg g.dx)
  have a2 := mul_le_mul_of_nonneg_left (count_area hw hl hT) (by positivity : 0 ≤ 3 * A ^ 2)
  unfold crossedArea
  unfold Box.count at a2
  refine a1.trans ?_
  rw [mul_add]
  have e1 : g.dx ^ 2 * (3 * A ^ 2 * (updatedNodes g).sum fun _ _ => 1) = 3 * A ^ 2 * (g.dx ^ 2 * (updatedNodes g).sum fun _ _ => 1) := by ring
  rw [e1]
  refine (add_le_add_left a2 _).trans (le_of_eq (by ring))

theorem roughness_bound {g : Grid ℝ} (hw : g.Wide) (hl : Lawful g) (hT : g.T = 0) {S : ℝ → ℝ → Prop} {M epsMax sigMax : ℝ} {rE rX rY : ℤ → ℤ → ℝ}
    (h : ∀ i j, (updatedNodes g).Mem i j →
      (¬ Crossed S g i j → |rE i j| ≤ (epsMax + sigMax + 8) / 16 * M * g.dx ^ 2 ∧ |rX i j| ≤ (epsMax + sigMax + 8) / 16 * M * g.dx ^ 2 ∧
        |rY i j| ≤ (epsMax + sigMax + 8) / 16 * M * g.dx ^ 2) ∧
      |rE i j| ≤ (epsMax + sigMax + 2) * M ∧ |rX i j| ≤ (epsMax + sigMax + 2) * M ∧ |rY i j| ≤ (epsMax + sigMax + 2) * M) :
    g.dx ^ 2 * (updatedNodes g).sum (fun i j => rE i j ^ 2 + rX i j ^ 2 + rY i j ^ 2) ≤ roughness S g M epsMax sigMax :=
  spread_bound hw hl hT h

/-- The distance between the fields of the simulation and the wave, in the norm of the energy. -/
theorem error_run {w : Wave} {S : ℝ → ℝ → Prop} {g : Grid ℝ} {τ M : ℝ} (hwd : g.Wide) (hl : Lawful g) (hT : g.T = 0) (hw : w.Walls g τ) (hs : w.Smooth S g τ M)
    (hb : w.Steady g τ M) {eps sig : ℝ → ℝ → ℝ} (hm : w.Maxwell S eps sig g τ) {med : ℤ → ℤ → Simple ℝ} {epsMax sigMax : ℝ} (h0 : 1 ≤ epsMax)
    (he : ∀ i j, (updatedNodes g).Mem i j → (med i j).eps = eps (i * g.dx) (j * g.dx) ∧ (med i j).conduc = sig (i * g.dx) (j * g.dx) ∧
      1 ≤ (med i j).eps ∧ (med i j).eps ≤ epsMax ∧ 0 ≤ (med i j).conduc ∧ (med i j).conduc ≤ sigMax) :
    ∀ (n m : ℕ) (c : Core ℝ), Closed c med → c.g = g → ((m : ℝ) + n + 1 / 2) * g.dt ≤ τ → ∀ d, Mix 1 (-1) c.f (sampled w g m c.f) d →
      ∃ c', c.run n [] = .ok (c', []) ∧ Closed c' med ∧ c'.g = g ∧ ∃ d', Mix 1 (-1) c'.f (sampled w g (m + n) c'.f) d' ∧
        Real.sqrt (energy g med d' (updatedNodes g)) ≤ Real.sqrt (energy g med d (updatedNodes g)) +
          n * (Real.sqrt ((epsMax + 1) / 2) * (g.dt * Real.sqrt (roughness S g M epsMax sigMax)))
  | 0, m, c, h, hg, _, d, md => ⟨c, rfl, h, hg, d, md, by simp⟩
  | n + 1, m, c, h, hg, ht, d, md => by
    subst hg
    obtain ⟨b1, b2⟩ := h.box
    obtain ⟨c1, l1, E2, E3, E4, f, u, St⟩ := Core.update_step h.std [] (by simp)
    obtain rfl : l1 = [] := by have := St.same; cases this; rfl
    obtain ⟨h1, -⟩ := driven_step h St (by simp)
    obtain ⟨-, -, -, laws⟩ := passive_step h.std St h.media h.wave (by simp)
    have dt0 := h.std.dt_pos
    obtain ⟨rE, rX, rY, L, bd⟩ := sampled_laws hl hw hs hb hm he (n := m) (by push_cast at ht; nlinarith [Nat.cast_nonneg (α := ℝ) n]) c.f c1.f
    obtain ⟨d1, md1⟩ := mix_exists 1 (-1) c1.f (sampled w c.g (m + 1) c1.f)
    have q : FrameQuiet d (updatedNodes c.g) := md.quiet h.frame (sampled_quiet ..)
    have q1 : FrameQuiet d1 (updatedNodes c.g) := md1.quiet (by rw [← St.g]; exact h1.frame) (sampled_quiet ..)
    have step := residual_step hl b1 b2 (epsMax := epsMax) (fun i j hm => ⟨(he i j hm).2.2.1, (he i j hm).2.2.2.1⟩) (fun i j hm => (he i j hm).2.2.2.2.1)
      (f := c.f) (f' := c1.f) (D := Real.sqrt (roughness S c.g M epsMax sigMax))
      ⟨fun i j hm => by rw [add_zero]; exact (laws i j hm).1, fun i j hm => by rw [mul_zero, add_zero]; exact (laws i j hm).2.1,
        fun i j hm => by rw [mul_zero, add_zero]; exact (laws i j hm).2.2⟩ L h0 (Real.sqrt_nonneg _) (by
        have k := roughness_bound hwd hl hT bd
        rw [Real.sq_sqrt (le_trans (mul_nonneg (sq_nonneg _) (Box.sum_nonneg _ fun i j _ => by positivity)) k)]
        exact k) md md1 q q1
    obtain ⟨c2, v, k2, g2, d2, md2, e2⟩ := error_run hwd hl hT hw hs hb hm h0 he n (m + 1) c1 h1 St.g (by push_cast at ht ⊢; linarith) d1 md1
    refine ⟨c2, by unfold Core.run; rw [u]; exact v, k2, g2, d2, ?_, ?_⟩
    · rw [show m + (n + 1) = m + 1 + n by ring]; exact md2
    · refine e2.trans ?_
      push_cast
      linarith

/-- No object has a conductivity above `sigMax`. -/
def ConductAtMost (sigMax : ℝ) (objs : List (Object ℝ)) : Prop := 0 ≤ sigMax ∧ ∀ o ∈ objs, ∀ m, o.mat.kind = .simple m → m.conduc ≤ sigMax

/-- **C71**. For every solution of Maxwell's equations in a domain with walls, whatever the objects in it: start the simulation with the values of
the solution at the nodes. After any number of updates the fields of the simulation differ from the solution, in the sense of the integral of the
square, by at most the time that has passed multiplied by a term of second order in the size of the cells; to this is added the contribution of those
cells in which the solution is not smooth, that are the ones cut by an interface. -/
theorem C71_converges (n : ℕ) (g : Grid ℝ) (hw : g.Wide) (hl : Lawful g) (hT : g.T = 0) (objs : List (Object ℝ)) (hb : ∀ o ∈ objs, BoxSound o)
    (hc : ∀ o ∈ objs, ClearOfUnguardedEdges g o) (hp : ∀ o ∈ objs, PassiveObject o) (epsMax sigMax : ℝ) (he : AtMost epsMax objs)
    (hs : ConductAtMost sigMax objs) (eps sig : ℝ → ℝ → ℝ) (hmed : MediumOf objs eps sig) (w : Wave) (S : ℝ → ℝ → Prop) (τ M : ℝ) (hsm : w.Smooth S g τ M)
    (hst : w.Steady g τ M) (hmx : w.Maxwell S eps sig g τ) (hwl : w.Walls g τ) (hn : ((n : ℝ) + 1 / 2) * g.dt ≤ τ) (e x y : ℤ → ℤ → ℝ)
    (hin : ∀ i j, (updatedNodes g).Mem i j → e i j = w.nodeE g 0 i j ∧ x i j = w.nodeX g 0 i j ∧ y i j = w.nodeY g 0 i j)
    (hout : ∀ i j, ¬ (updatedNodes g).Mem i j → e i j = 0 ∧ x i j = 0 ∧ y i j = 0) :
    ∃ c0 c1 c2, Core.make g = .ok c0 ∧ forList objs c0 (fun o c => c.insertObject o) = .ok c1 ∧ (withFields c1 e x y).run n [] = .ok (c2, []) ∧
      gap w g n c2.f (updatedNodes g) ≤ 12 * (epsMax + 1) * (n * g.dt) ^ 2 *
        (g.Lx * g.Ly * ((epsMax + sigMax + 8) / 16 * M * g.dx ^ 2) ^ 2 + crossedArea S g (updatedNodes g) * ((epsMax + sigMax + 2) * M) ^ 2) := by
  obtain ⟨med, hm⟩ := filled_exists g objs hp
  obtain ⟨c0, c1, h1, h2, h3, h4, -, h6, h7, h8, h9⟩ := objects_passive hw hl (.inl hT) objs hb hc hp med hm e x y
  have eg : (withFields c1 e x y).g = g := h4
  have psv : Passive (withFields c1 e x y) med (updatedNodes g) := h9 _ fun i j h => by
    unfold Box.Mem updatedNodes at h
    simp only at h
    constructor <;> rw [hT] <;> omega
  have hcl : Closed (withFields c1 e x y) med := by
    refine ⟨h3, by rw [eg, hT], h8, h6, h7, by rw [eg]; exact psv, by rw [eg]; exact within_frame fun i j h => hout i j h⟩
  have hx := hl.dx
  have hdt : 0 < g.dt := by rw [hl.dt]; linarith
  have hmd : ∀ i j, (updatedNodes g).Mem i j → (med i j).eps = eps (i * g.dx) (j * g.dx) ∧ (med i j).conduc = sig (i * g.dx) (j * g.dx) ∧
      1 ≤ (med i j).eps ∧ (med i j).eps ≤ epsMax ∧ 0 ≤ (med i j).conduc ∧ (med i j).conduc ≤ sigMax := by
    intro i j h
    have pt : g.toReal ⟨i, j⟩ = ⟨i * g.dx, j * g.dx⟩ := by simp [Grid.toReal, mul_comm]
    have q1 := psv.eps i j h
    have q2 := psv.conduc i j h
    have q3 := filled_atMost hm he i j
    rcases C09_total objs (g.toReal ⟨i, j⟩) with hv | ⟨o, ho⟩
    · have v := hm.vacuum i j hv
      have := hmed.vacuum _ hv
      rw [pt] at this
      rw [v] at q1 q2 q3 ⊢
      refine ⟨by rw [this.1]; simp [Qbox.vacuum], by rw [this.2]; simp [Qbox.vacuum], q1, q3, q2, ?_⟩
      simpa [Qbox.vacuum] using hs.1
    · have k := hm.object i j o ho
      have := hmed.object _ o _ ho k
      rw [pt] at this
      have hmem : o ∈ objs := by
        obtain ⟨b, a, e, -, -⟩ := ho
        rw [e]; simp
      exact ⟨this.1.symm, this.2.symm, q1, q3, q2, hs.2 o hmem _ k⟩
  obtain ⟨d, md⟩ := mix_exists 1 (-1) (withFields c1 e x y).f (sampled w g 0 (withFields c1 e x y).f)
  obtain ⟨c2, r, k, g2, d2, md2, er⟩ := error_run hw hl hT hwl hsm hst hmx he.1 hmd n 0 _ hcl eg (by push_cast; linarith) d md
  refine ⟨c0, c1, c2, h1, h2, r, ?_⟩
  -- at the start there is no difference
  have z : energy g med d (updatedNodes g) = 0 := by
    have dz : (∀ i j, d.Ez.val i j = 0) ∧ (∀ i j, d.Hx.val i j = 0) ∧ (∀ i j, d.Hy.val i j = 0) := by
      refine ⟨fun i j => ?_, fun i j => ?_, fun i j => ?_⟩
      · rw [md.Ez]
        have v : (withFields c1 e x y).f.Ez.val i j = e i j := rfl
        by_cases h : (updatedNodes g).Mem i j
        · have s : (sampled w g 0 (withFields c1 e x y).f).Ez.val i j = w.nodeE g 0 i j := if_pos h
          rw [v, s, (hin i j h).1]; ring
        · have s : (sampled w g 0 (withFields c1 e x y).f).Ez.val i j = 0 := if_neg h
          rw [v, s, (hout i j h).1]; ring
      · rw [md.Hx]
        have v : (withFields c1 e x y).f.Hx.val i j = x i j := rfl
        by_cases h : (updatedNodes g).Mem i j
        · have s : (sampled w g 0 (withFields c1 e x y).f).Hx.val i j = w.nodeX g 0 i j := if_pos h
          rw [v, s, (hin i j h).2.1]; ring
        · have s : (sampled w g 0 (withFields c1 e x y).f).Hx.val i j = 0 := if_neg h
          rw [v, s, (hout i j h).2.1]; ring
      · rw [md.Hy]
        have v : (withFields c1 e x y).f.Hy.val i j = y i j := rfl
        by_cases h : (updatedNodes g).Mem i j
        · have s : (sampled w g 0 (withFields c1 e x y).f).Hy.val i j = w.nodeY g 0 i j := if_pos h
          rw [v, s, (hin i j h).2.2]; ring
        · have s : (sampled w g 0 (withFields c1 e x y).f).Hy.val i j = 0 := if_neg h
          rw [v, s, (hout i j h).2.2]; ring
    obtain ⟨e1, e2, e3⟩ := dz
    unfold energy Box.sum
    refine mul_eq_zero_of_right _ (Finset.sum_eq_zero fun i _ => Finset.sum_eq_zero fun j _ => ?_)
    simp only [e1, e2, e3]
    ring
  rw [z, Real.sqrt_zero, zero_add] at er
  obtain ⟨b1, b2⟩ := hcl.box
  rw [eg] at b1 b2
  have q2 : FrameQuiet d2 (updatedNodes g) := md2.quiet (by rw [← g2]; exact k.frame) (sampled_quiet ..)
  have df := C18_definite g hl med (updatedNodes g) b1 b2 psv.eps d2 q2
  have en := energy_nonneg hl b1 b2 psv.eps q2
  have gp : gap w g n c2.f (updatedNodes g) = size g d2 (updatedNodes g) := by
    unfold gap size
    congr 1
    refine Box.sum_congr _ fun i j h => ?_
    rw [md2.Ez, md2.Hx, md2.Hy, zero_add]
    have s1 : (sampled w g n c2.f).Ez.val i j = w.nodeE g n i j := if_pos h
    have s2 : (sampled w g n c2.f).Hx.val i j = w.nodeX g n i j := if_pos h
    have s3 : (sampled w g n c2.f).Hy.val i j = w.nodeY g n i j := if_pos h
    rw [s1, s2, s3]
    ring
  rw [gp]
  have ro : 0 ≤ roughness S g M epsMax sigMax := by
    have hLx : 0 ≤ g.Lx := by have := node_le_x hl (k := 0) (by have := hw.nx; omega); simpa using this
    have hLy : 0 ≤ g.Ly := by have := node_le_y hl (k := 0) (by have := hw.ny; omega); simpa using this
    unfold roughness
    have := crossedArea_nonneg S g (updatedNodes g)
    positivity
  have hq : energy g med d2 (updatedNodes g) ≤ (n * (Real.sqrt ((epsMax + 1) / 2) * (g.dt * Real.sqrt (roughness S g M epsMax sigMax)))) ^ 2 := by
    have := Real.sq_sqrt en
    rw [← this]
    exact pow_le_pow_left₀ (Real.sqrt_nonneg _) er 2
  have eq : (n * (Real.sqrt ((epsMax + 1) / 2) * (g.dt * Real.sqrt (roughness S g M epsMax sigMax)))) ^ 2 =
      (n * g.dt) ^ 2 * ((epsMax + 1) / 2) * roughness S g M epsMax sigMax := by
    rw [show ∀ a b : ℝ, (n * (a * (g.dt * b))) ^ 2 = (n * g.dt) ^ 2 * a ^ 2 * b ^ 2 from fun a b => by ring, Real.sq_sqrt (by linarith [he.1]), Real.sq_sqrt ro]
  rw [eq] at hq
  unfold roughness at hq
  linarith

/-! ## How many cells an interface cuts -/

theorem few_nodes (u : ℝ) (a b : ℤ) : (∑ i ∈ Finset.Icc a b, open Classical in if (i : ℝ) - 1 / 2 ≤ u ∧ u ≤ i + 1 then (1 : ℝ) else 0) ≤ 2 := by
  classical
  rw [Finset.sum_ite, Finset.sum_const_zero, add_zero, Finset.sum_const, nsmul_eq_mul, mul_one]
  have sub : (Finset.Icc a b).filter (fun i : ℤ => (i : ℝ) - 1 / 2 ≤ u ∧ u ≤ i + 1) ⊆ {⌊u + 1 / 2⌋, ⌊u + 1 / 2⌋ - 1} := by
    intro i hi
    obtain ⟨-, h1, h2⟩ := Finset.mem_filter.mp hi
    have k1 : i ≤ ⌊u + 1 / 2⌋ := Int.le_floor.mpr (by linarith)
    have k2 : ⌊u + 1 / 2⌋ - 1 ≤ i := by
      have := Int.floor_le (u + 1 / 2)
      have : ((⌊u + 1 / 2⌋ - 1 : ℤ) : ℝ) < i + 1 := by push_cast; linarith
      have : ⌊u + 1 / 2⌋ - 1 < i + 1 := by exact_mod_cast this
      omega
    simp only [Finset.mem_insert, Finset.mem_singleton]
    omega
  have c := (Finset.card_le_card sub).trans Finset.card_le_two
  exact_mod_cast c

theorem few_nodes_list (d : ℝ) (hd : 0 < d) (a b : ℤ) : ∀ l : List ℝ,
    (∑ i ∈ Finset.Icc a b, open Classical in if ∃ x ∈ l, (i - 1 / 2) * d ≤ x ∧ x ≤ (i + 1) * d then (1 : ℝ) else 0) ≤ 2 * l.length
  | [] => by simp
  | x :: l => by
    classical
    have h1 := few_nodes (x / d) a b
    have h2 := few_nodes_list d hd a b l
    have : (∑ i ∈ Finset.Icc a b, if ∃ z ∈ x :: l, (i - 1 / 2) * d ≤ z ∧ z ≤ (i + 1) * d then (1 : ℝ) else 0) ≤
        (∑ i ∈ Finset.Icc a b, if (i : ℝ) - 1 / 2 ≤ x / d ∧ x / d ≤ i + 1 then (1 : ℝ) else 0) +
        (∑ i ∈ Finset.Icc a b, if ∃ z ∈ l, (i - 1 / 2) * d ≤ z ∧ z ≤ (i + 1) * d then (1 : ℝ) else 0) := by
      rw [← Finset.sum_add_distrib]
      refine Finset.sum_le_sum fun i _ => ?_
      by_cases h : (i : ℝ) - 1 / 2 ≤ x / d ∧ x / d ≤ i + 1
      · rw [if_pos h]
        split <;> split <;> norm_num
      · rw [if_neg h, zero_add]
        have : (∃ z ∈ x :: l, (i - 1 / 2) * d ≤ z ∧ z ≤ (i + 1) * d) ↔ ∃ z ∈ l, (i - 1 / 2) * d ≤ z ∧ z ≤ (i + 1) * d := by
          constructor
          · rintro ⟨z, hz, p1, p2⟩
            rcases List.mem_cons.mp hz with rfl | hz
            · exact absurd ⟨(le_div_iff₀ hd).mpr p1, (div_le_iff₀ hd).mpr p2⟩ h
            · exact ⟨z, hz, p1, p2⟩
          · rintro ⟨z, hz, p⟩
            exact ⟨z, by simp [hz], p⟩
        simp only [this]
        exact le_rfl
    refine (this.trans (add_le_add h1 h2)).trans ?_
    rw [List.length_cons]
    push_cast
    linarith

/-- **C71**, the cells cut by an interface: if every line of nodes meets the interface in at most `k` points, they cover an area that is proportional to
the size of the cells. -/
theorem C71_interface (S : ℝ → ℝ → Prop) (g : Grid ℝ) (hw : g.Wide) (hl : Lawful g) (hT : g.T = 0) (k : ℕ) (h : FewCrossings S g k) :
    crossedArea S g (updatedNodes g) ≤ 2 * k * (g.Lx + g.Ly) * g.dx := by
  classical
  have hx := hl.dx
  have wx := hw.nx
  have wy := hw.ny
  set P : ℤ → ℤ → Prop := fun i j => ∃ x, (i - 1 / 2) * g.dx ≤ x ∧ x ≤ (i + 1) * g.dx ∧ ¬ S x (j * g.dx) with hP
  set Q : ℤ → ℤ → Prop := fun i j => ∃ y, (j - 1 / 2) * g.dx ≤ y ∧ y ≤ (j + 1) * g.dx ∧ ¬ S (i * g.dx) y with hQ
  have a1 : ∀ j : ℤ, (∑ i ∈ Finset.Icc 1 (g.Nx - 2), if P i j then (1 : ℝ) else 0) ≤ 2 * k := by
    intro j
    obtain ⟨l, h1, h2⟩ := h.row j
    have := few_nodes_list g.dx hx 1 (g.Nx - 2) l
    have m : (∑ i ∈ Finset.Icc 1 (g.Nx - 2), if P i j then (1 : ℝ) else 0) ≤
        ∑ i ∈ Finset.Icc 1 (g.Nx - 2), if ∃ x ∈ l, (i - 1 / 2) * g.dx ≤ x ∧ x ≤ (i + 1) * g.dx then (1 : ℝ) else 0 := by
      refine Finset.sum_le_sum fun i _ => ?_
      by_cases p : P i j
      · obtain ⟨x, p1, p2, p3⟩ := p
        rw [if_pos ⟨x, p1, p2, p3⟩, if_pos ⟨x, h2 x p3, p1, p2⟩]
      · rw [if_neg p]; split <;> norm_num
    have : (l.length : ℝ) ≤ k := by exact_mod_cast h1
    linarith
  have a2 : ∀ i : ℤ, (∑ j ∈ Finset.Icc 1 (g.Ny - 2), if Q i j then (1 : ℝ) else 0) ≤ 2 * k := by
    intro i
    obtain ⟨l, h1, h2⟩ := h.col i
    have := few_nodes_list g.dx hx 1 (g.Ny - 2) l
    have m : (∑ j ∈ Finset.Icc 1 (g.Ny - 2), if Q i j then (1 : ℝ) else 0) ≤
        ∑ j ∈ Finset.Icc 1 (g.Ny - 2), if ∃ x ∈ l, (j - 1 / 2) * g.dx ≤ x ∧ x ≤ (j + 1) * g.dx then (1 : ℝ) else 0 := by
      refine Finset.sum_le_sum fun j _ => ?_
      by_cases p : Q i j
      · obtain ⟨x, p1, p2, p3⟩ := p
        rw [if_pos ⟨x, p1, p2, p3⟩, if_pos ⟨x, h2 x p3, p1, p2⟩]
      · rw [if_neg p]; split <;> norm_num
    have : (l.length : ℝ) ≤ k := by exact_mod_cast h1
    linarith
  have len : ∀ N : ℤ, 2 ≤ N → ((Finset.Icc 1 (N - 2)).card : ℝ) ≤ (N : ℝ) - 1 := by
    intro N hN
    rw [Int.card_Icc, ← Int.cast_natCast, Int.toNat_of_nonneg (by omega)]
    push_cast; linarith
  have tot : (updatedNodes g).sum (fun i j => if Crossed S g i j then (1 : ℝ) else 0) ≤ 2 * k * ((g.Ny : ℝ) - 1) + 2 * k * ((g.Nx : ℝ) - 1) := by
    have s : (updatedNodes g).sum (fun i j => if Crossed S g i j then (1 : ℝ) else 0) ≤
        (updatedNodes g).sum (fun i j => if P i j then (1 : ℝ) else 0) + (updatedNodes g).sum (fun i j => if Q i j then (1 : ℝ) else 0) := by
      rw [← Box.sum_add]
      refine Box.sum_le _ fun i j _ => ?_
      by_cases hc : Crossed S g i j
      · rw [if_pos hc]
        rcases hc with hc | hc
        · rw [if_pos (show P i j from hc)]; split <;> norm_num
        · rw [if_pos (show Q i j from hc)]; split <;> norm_num
      · rw [if_neg hc]; split <;> split <;> norm_num
    refine s.trans (add_le_add ?_ ?_)
    · unfold Box.sum updatedNodes
      rw [Finset.sum_comm]
      refine (Finset.sum_le_sum fun j _ => a1 j).trans ?_
      rw [Finset.sum_const, nsmul_eq_mul, mul_comm]
      exact mul_le_mul_of_nonneg_left (len _ (by omega)) (by positivity)
    · unfold Box.sum updatedNodes
      refine (Finset.sum_le_sum fun i _ => a2 i).trans ?_
      rw [Finset.sum_const, nsmul_eq_mul, mul_comm]
      exact mul_le_mul_of_nonneg_left (len _ (by omega)) (by positivity)
  unfold crossedArea
  have := mul_le_mul_of_nonneg_left tot (sq_nonneg g.dx)
  rw [hl.Lx, hl.Ly]
  refine this.trans (le_of_eq (by push_cast; ring))

end Qbox.Props
