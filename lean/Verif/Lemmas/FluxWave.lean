import Verif.Lemmas.LineNorm
import Verif.Props.SpectraWaveProps
import Verif.Props.SurfDomainProps
import Verif.Spec.RecordSpec

/-! # Interpolated fields along a line, and the integral of the energy flow -/

namespace Qbox
open Scalar Spec Props

/-- A component of a wave that changes by at most `M` per unit of time and length and starts from zero. -/
structure Lip (V : ℝ → ℝ → ℝ → ℝ) (g : Grid ℝ) (τ M : ℝ) : Prop where
  t : ∀ t t' x y, 0 ≤ t → t ≤ t' → t' ≤ τ → InDomain g x y → |V t' x y - V t x y| ≤ M * (t' - t)
  x : ∀ t x x' y, 0 ≤ t → t ≤ τ → x ≤ x' → InDomain g x y → InDomain g x' y → |V t x' y - V t x y| ≤ M * (x' - x)
  y : ∀ t x y y', 0 ≤ t → t ≤ τ → y ≤ y' → InDomain g x y → InDomain g x y' → |V t x y' - V t x y| ≤ M * (y' - y)
  rest : ∀ x y, InDomain g x y → V 0 x y = 0

theorem Lip.dist {V : ℝ → ℝ → ℝ → ℝ} {g : Grid ℝ} {τ M : ℝ} (h : Lip V g τ M) {t x y x' y' : ℝ} (t0 : 0 ≤ t) (t1 : t ≤ τ) (d : InDomain g x y) (d' : InDomain g x' y') :
    |V t x' y' - V t x y| ≤ M * (|x' - x| + |y' - y|) := by
  have d2 : InDomain g x' y := ⟨d'.x0, d'.x1, d.y0, d.y1⟩
  have hx : |V t x' y - V t x y| ≤ M * |x' - x| := by
    rcases le_total x x' with c | c
    · rw [abs_of_nonneg (sub_nonneg.mpr c)]
      exact h.x t x x' y t0 t1 c d d2
    · rw [abs_sub_comm, abs_sub_comm x' x, abs_of_nonneg (sub_nonneg.mpr c)]
      exact h.x t x' x y t0 t1 c d2 d
  have hy : |V t x' y' - V t x' y| ≤ M * |y' - y| := by
    rcases le_total y y' with c | c
    · rw [abs_of_nonneg (sub_nonneg.mpr c)]
      exact h.y t x' y y' t0 t1 c d2 d'
    · rw [abs_sub_comm, abs_sub_comm y' y, abs_of_nonneg (sub_nonneg.mpr c)]
      exact h.y t x' y' y t0 t1 c d' d2
  calc |V t x' y' - V t x y| = |(V t x' y' - V t x' y) + (V t x' y - V t x y)| := by congr 1; ring
    _ ≤ _ := (abs_add_le _ _).trans (by linarith)

theorem lip_E {w : Spec.Wave} {g : Grid ℝ} {τ M : ℝ} (h : w.Steady g τ M) (r : w.AtRest g) : Lip w.E g τ M :=
  ⟨h.Et, h.Ex, h.Ey, fun x y d => (r x y d).1⟩

theorem lip_X {w : Spec.Wave} {g : Grid ℝ} {τ M : ℝ} (h : w.Steady g τ M) (e : w.Even g τ M) (r : w.AtRest g) : Lip w.X g τ M :=
  ⟨h.Xt, e.Xx, h.Xy, fun x y d => (r x y d).2.1⟩

theorem lip_Y {w : Spec.Wave} {g : Grid ℝ} {τ M : ℝ} (h : w.Steady g τ M) (e : w.Even g τ M) (r : w.AtRest g) : Lip w.Y g τ M :=
  ⟨h.Yt, h.Yx, e.Yy, fun x y d => (r x y d).2.2⟩

/-- A line of `N` cells from node `A` in the direction `τ`, away from the walls. -/
structure Lined (g : Grid ℝ) (A : V2 ℤ) (N : ℕ) (τ : V2 ℤ) : Prop where
  unit : |τ.x| + |τ.y| = 1
  xa : 2 ≤ A.x ∧ A.x ≤ g.Nx - 2
  ya : 2 ≤ A.y ∧ A.y ≤ g.Ny - 2
  xb : 2 ≤ A.x + N * τ.x ∧ A.x + N * τ.x ≤ g.Nx - 2
  yb : 2 ≤ A.y + N * τ.y ∧ A.y + N * τ.y ≤ g.Ny - 2

theorem inRange {a N τ lo hi : ℤ} (ha : lo ≤ a ∧ a ≤ hi) (hb : lo ≤ a + N * τ ∧ a + N * τ ≤ hi) {r : ℝ} (r0 : 0 ≤ r) (r1 : r ≤ N) :
    (lo : ℝ) ≤ a + r * τ ∧ (a : ℝ) + r * τ ≤ hi := by
  have a0 : (lo : ℝ) ≤ a := by exact_mod_cast ha.1
  have a1 : (a : ℝ) ≤ hi := by exact_mod_cast ha.2
  have b0 : (lo : ℝ) ≤ a + N * τ := by exact_mod_cast hb.1
  have b1 : (a : ℝ) + N * τ ≤ hi := by exact_mod_cast hb.2
  rcases le_total (0 : ℝ) τ with c | c
  · have m0 := mul_nonneg r0 c
    have m1 := mul_le_mul_of_nonneg_right r1 c
    constructor <;> linarith
  · have m0 := mul_nonpos_of_nonneg_of_nonpos r0 c
    have m1 := mul_le_mul_of_nonpos_right r1 c
    constructor <;> linarith

section
variable {g : Grid ℝ} (hl : Lawful g) {A : V2 ℤ} {N : ℕ} {τ : V2 ℤ} (L : Lined g A N τ)
include L

theorem Lined.unit_x : |(τ.x : ℝ)| ≤ 1 := by
  have h : |τ.x| ≤ 1 := by have := L.unit; have := abs_nonneg τ.y; omega
  exact_mod_cast h

theorem Lined.unit_y : |(τ.y : ℝ)| ≤ 1 := by
  have h : |τ.y| ≤ 1 := by have := L.unit; have := abs_nonneg τ.x; omega
  exact_mod_cast h

theorem Lined.xr {r : ℝ} (r0 : 0 ≤ r) (r1 : r ≤ N) : (2 : ℝ) ≤ A.x + r * τ.x ∧ (A.x : ℝ) + r * τ.x ≤ ((g.Nx - 2 : ℤ) : ℝ) := by
  have := inRange (N := (N : ℤ)) L.xa L.xb r0 (by exact_mod_cast r1)
  exact_mod_cast this

theorem Lined.yr {r : ℝ} (r0 : 0 ≤ r) (r1 : r ≤ N) : (2 : ℝ) ≤ A.y + r * τ.y ∧ (A.y : ℝ) + r * τ.y ≤ ((g.Ny - 2 : ℤ) : ℝ) := by
  have := inRange (N := (N : ℤ)) L.ya L.yb r0 (by exact_mod_cast r1)
  exact_mod_cast this

include hl in
theorem Lined.inDomain {r : ℝ} (r0 : 0 ≤ r) (r1 : r ≤ N) : InDomain g ((A.x + r * τ.x) * g.dx) ((A.y + r * τ.y) * g.dx) := by
  obtain ⟨x0, x1⟩ := L.xr r0 r1
  obtain ⟨y0, y1⟩ := L.yr r0 r1
  have d := hl.dx
  have e1 := node_le_x hl (k := g.Nx - 2) (by omega)
  have e2 := node_le_y hl (k := g.Ny - 2) (by omega)
  exact ⟨mul_nonneg (by linarith) d.le, (mul_le_mul_of_nonneg_right x1 d.le).trans e1, mul_nonneg (by linarith) d.le, (mul_le_mul_of_nonneg_right y1 d.le).trans e2⟩

theorem Lined.corner {sx sy : ℝ} (sx0 : 0 ≤ sx) (sx1 : sx ≤ 1) (sy0 : 0 ≤ sy) (sy1 : sy ≤ 1) {r : ℝ} (r0 : 0 ≤ r) (r1 : r ≤ N) {p q : ℤ}
    (h : Corner (A.x + r * τ.x - sx) (A.y + r * τ.y - sy) p q) : (updatedNodes g).Mem p q := by
  obtain ⟨x0, x1⟩ := L.xr r0 r1
  obtain ⟨y0, y1⟩ := L.yr r0 r1
  obtain ⟨hp, hq⟩ := h
  have key : ∀ (z : ℝ) (p k : ℤ), 1 ≤ z → z ≤ k → (p = ⌊z⌋ ∨ p = ⌈z⌉) → 1 ≤ p ∧ p ≤ k := fun z p k h1 h2 h => by
    have f1 : 1 ≤ ⌊z⌋ := Int.le_floor.mpr (by exact_mod_cast h1)
    have f2 : ⌈z⌉ ≤ k := Int.ceil_le.mpr h2
    have f3 := Int.floor_le_ceil z
    rcases h with rfl | rfl <;> omega
  have kx := key _ p (g.Nx - 2) (by linarith) (by linarith) hp
  have ky := key _ q (g.Ny - 2) (by linarith) (by linarith) hq
  exact ⟨kx, ky⟩

end

theorem corner_dist {x y : ℝ} {p q : ℤ} (h : Corner x y p q) : |(p : ℝ) - x| ≤ 1 ∧ |(q : ℝ) - y| ≤ 1 := by
  have key : ∀ (z : ℝ) (p : ℤ), (p = ⌊z⌋ ∨ p = ⌈z⌉) → |(p : ℝ) - z| ≤ 1 := fun z p h => by
    have f1 := Int.floor_le z
    have f2 := Int.lt_floor_add_one z
    have f3 := Int.le_ceil z
    have f4 := Int.ceil_lt_add_one z
    rcases h with rfl | rfl <;> exact abs_le.mpr ⟨by linarith, by linarith⟩
  exact ⟨key x p h.1, key y q h.2⟩

/-- The nodes from which values on the line between two nodes are interpolated, or more. -/
def Nearby (A B : V2 ℤ) (i j : ℤ) : Prop := min A.x B.x - 1 ≤ i ∧ i ≤ max A.x B.x ∧ min A.y B.y - 1 ≤ j ∧ j ≤ max A.y B.y

theorem corner_nearby {A B τ : V2 ℤ} {N : ℕ} (hx : B.x = A.x + N * τ.x) (hy : B.y = A.y + N * τ.y) {sx sy : ℝ} (sx0 : 0 ≤ sx) (sx1 : sx ≤ 1) (sy0 : 0 ≤ sy) (sy1 : sy ≤ 1)
    {r : ℝ} (r0 : 0 ≤ r) (r1 : r ≤ N) {p q : ℤ} (h : Corner (A.x + r * τ.x - sx) (A.y + r * τ.y - sy) p q) : Nearby A B p q := by
  have kx := inRange (N := (N : ℤ)) (τ := τ.x) ⟨min_le_left A.x B.x, le_max_left A.x B.x⟩ ⟨by rw [← hx]; exact min_le_right _ _, by rw [← hx]; exact le_max_right _ _⟩ r0 (by exact_mod_cast r1)
  have ky := inRange (N := (N : ℤ)) (τ := τ.y) ⟨min_le_left A.y B.y, le_max_left A.y B.y⟩ ⟨by rw [← hy]; exact min_le_right _ _, by rw [← hy]; exact le_max_right _ _⟩ r0 (by exact_mod_cast r1)
  have key : ∀ (z : ℝ) (p l k : ℤ), (l : ℝ) - 1 ≤ z → z ≤ k → (p = ⌊z⌋ ∨ p = ⌈z⌉) → l - 1 ≤ p ∧ p ≤ k := fun z p l k h1 h2 h => by
    have f1 : l - 1 ≤ ⌊z⌋ := Int.le_floor.mpr (by push_cast; exact h1)
    have f2 : ⌈z⌉ ≤ k := Int.ceil_le.mpr h2
    have f3 := Int.floor_le_ceil z
    rcases h with rfl | rfl <;> omega
  obtain ⟨a1, a2⟩ := key _ p (min A.x B.x) (max A.x B.x) (by linarith [kx.1]) (by linarith [kx.2]) h.1
  obtain ⟨b1, b2⟩ := key _ q (min A.y B.y) (max A.y B.y) (by linarith [ky.1]) (by linarith [ky.2]) h.2
  exact ⟨a1, a2, b1, b2⟩

theorem bil_congr {F G : ℤ → ℤ → ℝ} {x y : ℝ} (h : ∀ i j, Corner x y i j → F i j = G i j) : bilin F x y = bilin G x y := by
  unfold bilin
  rw [h _ _ ⟨.inl rfl, .inl rfl⟩, h _ _ ⟨.inr rfl, .inl rfl⟩, h _ _ ⟨.inr rfl, .inr rfl⟩, h _ _ ⟨.inl rfl, .inr rfl⟩]

/-- Interpolated values in the middles of the cells of a line against the wave at the point of every cell that is `u` cells from its beginning. -/
theorem line_close {g : Grid ℝ} (hl : Lawful g) {A : V2 ℤ} {N : ℕ} {τ : V2 ℤ} (L : Lined g A N τ) {V : ℝ → ℝ → ℝ → ℝ} {T M : ℝ} (lip : Lip V g T M) (hM : 0 ≤ M)
    (F : ℤ → ℤ → ℝ) {ox oy sx sy : ℝ} (ox0 : 0 ≤ ox) (ox1 : ox ≤ 1) (oy0 : 0 ≤ oy) (oy1 : oy ≤ 1) (sx0 : 0 ≤ sx) (sx1 : sx ≤ 1) (sy0 : 0 ≤ sy) (sy1 : sy ≤ 1)
    (hs : |ox - sx| + |oy - sy| ≤ 1 / 2) {t : ℝ} (t0 : 0 ≤ t) (t1 : t ≤ T) {B : ℝ}
    (hB : l2 g (fun i j => F i j - V t ((i + ox) * g.dx) ((j + oy) * g.dx)) ≤ B) {u : ℝ} (u0 : 0 ≤ u) (u1 : u ≤ 1) :
    ll g.dx N (fun i => bilin F (A.x + ((i : ℝ) + 1 / 2) * τ.x - sx) (A.y + ((i : ℝ) + 1 / 2) * τ.y - sy) - V t ((A.x + (i + u) * τ.x) * g.dx) ((A.y + (i + u) * τ.y) * g.dx)) ≤
      B / Real.sqrt g.dx + 4 * M * g.dx * Real.sqrt (N * g.dx) := by
  have d := hl.dx
  have tx := L.unit_x
  have ty := L.unit_y
  have txy : |(τ.x : ℝ)| + |(τ.y : ℝ)| = 1 := by exact_mod_cast L.unit
  have e1 : ∀ i : ℕ, i < N → ((i : ℝ) + 1 : ℝ) ≤ N := fun i hi => by exact_mod_cast hi
  have pos : ∀ i : ℕ, (0 : ℝ) ≤ i := fun i => Nat.cast_nonneg i
  have one : ∀ i < N, |bilin F (A.x + ((i : ℝ) + 1 / 2) * τ.x - sx) (A.y + ((i : ℝ) + 1 / 2) * τ.y - sy) - V t ((A.x + (i + u) * τ.x) * g.dx) ((A.y + (i + u) * τ.y) * g.dx)| ≤
      |4 * M * g.dx + bilin (fun p q => |F p q - V t ((p + ox) * g.dx) ((q + oy) * g.dx)|) (A.x + ((i : ℝ) + 1 / 2) * τ.x - sx) (A.y + ((i : ℝ) + 1 / 2) * τ.y - sy)| := fun i hi => by
    refine (bil_close (D := 4 * M * g.dx) fun p q hc => ?_).trans (le_abs_self _)
    have mem := L.corner sx0 sx1 sy0 sy1 (by linarith [pos i]) (by linarith [e1 i hi]) hc
    obtain ⟨c1, c2⟩ := corner_dist hc
    unfold Box.Mem updatedNodes at mem
    simp only at mem
    have a1 := node_pos hl (k := p) (by omega)
    have a2 := node_pos hl (k := q) (by omega)
    have b1 := node_le_x hl (k := p + 1) (by omega)
    have b2 := node_le_y hl (k := q + 1) (by omega)
    push_cast at b1 b2
    have dom : InDomain g (((p : ℝ) + ox) * g.dx) (((q : ℝ) + oy) * g.dx) := by
      have m1 := mul_nonneg ox0 d.le
      have m2 := mul_nonneg oy0 d.le
      have m3 := mul_le_mul_of_nonneg_right ox1 d.le
      have m4 := mul_le_mul_of_nonneg_right oy1 d.le
      exact ⟨by linarith, by linarith, by linarith, by linarith⟩
    refine (lip.dist t0 t1 (L.inDomain hl (by linarith [pos i]) (by linarith [e1 i hi])) dom).trans ?_
    have hx : |((p : ℝ) + ox) * g.dx - (A.x + (i + u) * τ.x) * g.dx| = |((p : ℝ) - (A.x + ((i : ℝ) + 1 / 2) * τ.x - sx)) + (1 / 2 - u) * τ.x + (ox - sx)| * g.dx := by
      rw [← abs_of_pos d, ← abs_mul, abs_of_pos d]; congr 1; ring
    have hy : |((q : ℝ) + oy) * g.dx - (A.y + (i + u) * τ.y) * g.dx| = |((q : ℝ) - (A.y + ((i : ℝ) + 1 / 2) * τ.y - sy)) + (1 / 2 - u) * τ.y + (oy - sy)| * g.dx := by
      rw [← abs_of_pos d, ← abs_mul, abs_of_pos d]; congr 1; ring
    rw [hx, hy, ← add_mul, show 4 * M * g.dx = M * (4 * g.dx) by ring]
    refine mul_le_mul_of_nonneg_left (mul_le_mul_of_nonneg_right ?_ d.le) hM
    have hu : |1 / 2 - u| ≤ 1 / 2 := abs_le.mpr ⟨by linarith, by linarith⟩
    have f1 : |(1 / 2 - u) * (τ.x : ℝ)| ≤ 1 / 2 * |(τ.x : ℝ)| := by rw [abs_mul]; exact mul_le_mul_of_nonneg_right hu (abs_nonneg _)
    have f2 : |(1 / 2 - u) * (τ.y : ℝ)| ≤ 1 / 2 * |(τ.y : ℝ)| := by rw [abs_mul]; exact mul_le_mul_of_nonneg_right hu (abs_nonneg _)
    have g1 := abs_add_le ((p : ℝ) - (A.x + ((i : ℝ) + 1 / 2) * τ.x - sx) + (1 / 2 - u) * τ.x) (ox - sx)
    have g2 := abs_add_le ((p : ℝ) - (A.x + ((i : ℝ) + 1 / 2) * τ.x - sx)) ((1 / 2 - u) * τ.x)
    have g3 := abs_add_le ((q : ℝ) - (A.y + ((i : ℝ) + 1 / 2) * τ.y - sy) + (1 / 2 - u) * τ.y) (oy - sy)
    have g4 := abs_add_le ((q : ℝ) - (A.y + ((i : ℝ) + 1 / 2) * τ.y - sy)) ((1 / 2 - u) * τ.y)
    linarith
  refine (ll_mono d.le one).trans ((ll_add d.le N _ _).trans ?_)
  have k0 : 0 ≤ 4 * M * g.dx := by positivity
  have c1 : ll g.dx N (fun _ => 4 * M * g.dx) ≤ 4 * M * g.dx * Real.sqrt (N * g.dx) := ll_const d.le N k0 fun _ _ => by rw [abs_of_nonneg k0]
  have c2 : ll g.dx N (fun i => bilin (fun p q => |F p q - V t ((p + ox) * g.dx) ((q + oy) * g.dx)|) (A.x + ((i : ℝ) + 1 / 2) * τ.x - sx) (A.y + ((i : ℝ) + 1 / 2) * τ.y - sy)) ≤
      B / Real.sqrt g.dx := by
    have := ll_bil d (fun p q => |F p q - V t ((p + ox) * g.dx) ((q + oy) * g.dx)|) N τ L.unit (A.x + 1 / 2 * τ.x - sx) (A.y + 1 / 2 * τ.y - sy) fun p q hc i hi => by
      refine L.corner (r := (i : ℝ) + 1 / 2) sx0 sx1 sy0 sy1 (by linarith [pos i]) (by linarith [e1 i hi]) ?_
      have ex : (A.x : ℝ) + ((i : ℝ) + 1 / 2) * τ.x - sx = (A.x + 1 / 2 * τ.x - sx) + ((i * τ.x : ℤ) : ℝ) := by push_cast; ring
      have ey : (A.y : ℝ) + ((i : ℝ) + 1 / 2) * τ.y - sy = (A.y + 1 / 2 * τ.y - sy) + ((i * τ.y : ℤ) : ℝ) := by push_cast; ring
      unfold Corner
      rw [ex, ey, Int.floor_add_intCast, Int.ceil_add_intCast, Int.floor_add_intCast, Int.ceil_add_intCast]
      exact ⟨hc.1.imp (congrArg (· + _)) (congrArg (· + _)), hc.2.imp (congrArg (· + _)) (congrArg (· + _))⟩
    refine le_trans (le_of_eq ?_) (this.trans (div_le_div_of_nonneg_right ?_ (Real.sqrt_nonneg _)))
    · congr 1
      funext i
      congr 1 <;> push_cast <;> ring
    · refine le_trans (le_of_eq ?_) hB
      unfold l2
      simp only [sq_abs]
  linarith

/-- The points of a surface monitor are the middles of the cells of the line between its nodes. -/
theorem surfPoint_cell (g : Grid ℝ) (hg : 0 < g.dx) (a b : V2 ℝ) (sg : Sgn) (s : Surf ℝ) (hs : Surf.make a b sg = .ok s)
    (hne : g.toGrid a ≠ g.toGrid b) (is : ISurf) (hi : g.toGridS s = .ok is) :
    |is.tangent.x| + |is.tangent.y| = 1 ∧ (g.toGrid b).x = (g.toGrid a).x + cells g a b * is.tangent.x ∧ (g.toGrid b).y = (g.toGrid a).y + cells g a b * is.tangent.y ∧
      (a.x = b.x → is.dim.x = 0) ∧ (a.x ≠ b.x → is.dim.x ≠ 0) ∧
      ∀ i : ℤ, (surfPoint g s is i).x / g.dx = (g.toGrid a).x + ((i : ℝ) + 1 / 2) * is.tangent.x ∧
        (surfPoint g s is i).y / g.dx = (g.toGrid a).y + ((i : ℝ) + 1 / 2) * is.tangent.y := by
  obtain ⟨e1, e2, e3, -, e5, -, -⟩ := surf_make a b sg s hs
  have hmk : ISurf.make (g.toGrid a) (g.toGrid b) sg = .ok is := by
    have := hi
    unfold Grid.toGridS at this
    rw [e1, e2, e3] at this
    exact this
  have hor : ((g.toGrid a).x = (g.toGrid b).x ∧ (g.toGrid a).y ≠ (g.toGrid b).y) ∨
      ((g.toGrid a).x ≠ (g.toGrid b).x ∧ (g.toGrid a).y = (g.toGrid b).y) := by
    have hax : (g.toGrid a).x = (g.toGrid b).x ∨ (g.toGrid a).y = (g.toGrid b).y := by
      rcases e5 with h | h
      · left; simp [Grid.toGrid, h]
      · right; simp [Grid.toGrid, h]
    have : ¬ ((g.toGrid a).x = (g.toGrid b).x ∧ (g.toGrid a).y = (g.toGrid b).y) := by
      rintro ⟨u, v⟩; exact hne (V2.ext u v)
    tauto
  obtain ⟨is', k1, k2, -, -, k5, k6, k7, k8⟩ := (C05_isurface_outcome (g.toGrid a) (g.toGrid b) sg).2.2 hor
  rw [hmk] at k1
  cases k1
  have hn : is.dim.inorm = (cells g a b : ℤ) := by
    rw [k6]; simp only [cells]; push_cast; rfl
  rw [hn] at k7
  have hnpos : (0 : ℝ) < (cells g a b : ℝ) := by
    have : (0 : ℤ) < cells g a b := by unfold cells; omega
    exact_mod_cast this
  -- the real tangent is the integer tangent
  have ht : s.tangent = ⟨(is.tangent.x : ℝ), (is.tangent.y : ℝ)⟩ := by
    have hst : s.tangent = V2.sdiv (b - a) (b - a).norm := by
      unfold Surf.make at hs
      simp only at hs
      split_ifs at hs <;> rw [← Except.ok.inj hs]
    have kx := congrArg V2.x k7
    have ky := congrArg V2.y k7
    simp only at kx ky
    rw [hst]
    have sgn : ∀ u v : ℝ, ∀ τ : ℤ, |τ| = 1 → roundAway (v / g.dx) = roundAway (u / g.dx) + (cells g a b : ℤ) * τ → (v - u) / |v - u| = τ := by
      intro u v τ hτ hr
      have hc : (0 : ℤ) < cells g a b := by exact_mod_cast hnpos
      rcases (abs_eq (by norm_num : (0 : ℤ) ≤ 1)).mp hτ with rfl | rfl
      · have : u < v := toGrid_lt g hg (by rw [hr]; omega)
        rw [abs_of_pos (by linarith), div_self (by linarith)]; simp
      · have : v < u := toGrid_lt g hg (by rw [hr]; omega)
        rw [abs_of_neg (by linarith), div_eq_iff (by linarith)]; push_cast; ring
    have cne : (cells g a b : ℤ) ≠ 0 := (show (0 : ℤ) < cells g a b by exact_mod_cast hnpos).ne'
    rcases hor with ⟨hx, hy⟩ | ⟨hx, hy⟩
    · have tx : is.tangent.x = 0 := by
        have : (cells g a b : ℤ) * is.tangent.x = 0 := by omega
        exact (mul_eq_zero.mp this).resolve_left cne
      have ty : |is.tangent.y| = 1 := by rw [tx] at k8; simpa using k8
      have hx' : a.x = b.x := by
        rcases e5 with h | h
        · exact h
        · exact absurd (by simp [Grid.toGrid, h]) hy
      have hn' : (b - a).norm = |b.y - a.y| := by
        simp only [V2.norm, V2.sqNorm, V2.sub_x, V2.sub_y, hx', sub_self, mul_zero, zero_add, sqrt_real, Real.sqrt_mul_self_eq_abs]
      ext
      · simp [hx', tx]
      · simp only [V2.sdiv_y, V2.sub_y, hn']
        exact sgn _ _ _ ty (by simpa [Grid.toGrid] using ky)
    · have ty : is.tangent.y = 0 := by
        have : (cells g a b : ℤ) * is.tangent.y = 0 := by omega
        exact (mul_eq_zero.mp this).resolve_left cne
      have tx : |is.tangent.x| = 1 := by rw [ty] at k8; simpa using k8
      have hy' : a.y = b.y := by
        rcases e5 with h | h
        · exact absurd (by simp [Grid.toGrid, h]) hx
        · exact h
      have hn' : (b - a).norm = |b.x - a.x| := by
        simp only [V2.norm, V2.sqNorm, V2.sub_x, V2.sub_y, hy', sub_self, mul_zero, add_zero, sqrt_real, Real.sqrt_mul_self_eq_abs]
      ext
      · simp only [V2.sdiv_x, V2.sub_x, hn']
        exact sgn _ _ _ tx (by simpa [Grid.toGrid] using kx)
      · simp [hy', ty]
  refine ⟨k8, congrArg V2.x k7, congrArg V2.y k7, fun e => ?_, fun e => ?_, fun i => ⟨?_, ?_⟩⟩
  · rw [k5]
    simp [Grid.toGrid, e]
  · rw [k5]
    have hy : a.y = b.y := e5.resolve_left e
    have : (g.toGrid a).y = (g.toGrid b).y := by simp [Grid.toGrid, hy]
    have hx : (g.toGrid a).x ≠ (g.toGrid b).x := fun h => hne (V2.ext h this)
    exact abs_ne_zero.mpr (sub_ne_zero.mpr hx)
  · simp only [surfPoint, ht, Grid.toReal, V2.add_x, V2.smul_x, k2, ofInt_real]
    push_cast
    field_simp
    ring
  · simp only [surfPoint, ht, Grid.toReal, V2.add_y, V2.smul_y, k2, ofInt_real]
    push_cast
    field_simp
    ring

theorem midway_length (prev : ℤ → ℝ) : ∀ ss : List (Snap ℝ), (midway prev ss).length = ss.length
  | [] => rfl
  | s :: l => by simp [midway, midway_length s.e l]

theorem midway_get : ∀ (ss : List (Snap ℝ)) (prev : ℤ → ℝ) (m : ℕ) (h : m < ss.length), (midway prev ss)[m]'(by rw [midway_length]; exact h) =
    ⟨(ss[m]).t, fun n i => if n = "Ez" then ((ss[m]).e i + (if m = 0 then prev i else ((ss[m - 1]?).map fun s => s.e i).getD 0)) / 2 else (ss[m]).h n i⟩
  | [], _, _, h => absurd h (by simp)
  | s :: l, prev, 0, _ => by simp [midway]
  | s :: l, prev, 1, h => by
    have h' : 0 < l.length := by simpa using h
    have := midway_get l s.e 0 h'
    simp only [midway, List.getElem_cons_succ, this]
    simp
  | s :: l, prev, m + 2, h => by
    have h' : m + 1 < l.length := Nat.lt_of_succ_lt_succ h
    have := midway_get l s.e (m + 1) h'
    simp only [midway, List.getElem_cons_succ, this]
    simp

/-! ## The integral -/

theorem sum_flow {d : ℝ} (N : ℕ) (c : ℕ → ℝ) (ψ : ℝ → ℝ) (hc : ContinuousOn ψ (Set.Icc 0 (N : ℝ))) {K : ℝ}
    (h : ∀ u, 0 ≤ u → u ≤ 1 → |d| * ∑ i ∈ Finset.range N, |c i - ψ (i + u)| ≤ K) : |d * (∑ i ∈ Finset.range N, c i) - d * ∫ r in (0 : ℝ)..N, ψ r| ≤ K := by
  have pos : ∀ i : ℕ, (0 : ℝ) ≤ i := fun i => Nat.cast_nonneg i
  have e1 : ∀ i : ℕ, i < N → ((i : ℝ) + 1 : ℝ) ≤ N := fun i hi => by exact_mod_cast hi
  have int : ∀ i < N, IntervalIntegrable ψ MeasureTheory.volume (i : ℝ) ((i + 1 : ℕ) : ℝ) := fun i hi => by
    refine (hc.mono fun z hz => ?_).intervalIntegrable
    rw [Set.uIcc_of_le (by push_cast; linarith)] at hz
    push_cast at hz
    exact ⟨(pos i).trans hz.1, hz.2.trans (e1 i hi)⟩
  have s1 := intervalIntegral.sum_integral_adjacent_intervals (a := fun i : ℕ => (i : ℝ)) (n := N) (f := ψ) (μ := MeasureTheory.volume) int
  simp only [Nat.cast_zero] at s1
  have s2 : ∀ i : ℕ, ∫ r in (i : ℝ)..((i + 1 : ℕ) : ℝ), ψ r = ∫ u in (0 : ℝ)..1, ψ (i + u) := fun i => by
    rw [intervalIntegral.integral_comp_add_left (fun r => ψ r), add_zero]
    push_cast
    rfl
  have cu : ∀ i < N, ContinuousOn (fun u : ℝ => ψ (i + u)) (Set.uIcc 0 1) := fun i hi => by
    refine hc.comp (by fun_prop) fun u hu => ?_
    rw [Set.uIcc_of_le zero_le_one] at hu
    exact ⟨by have := pos i; have := hu.1; show 0 ≤ (i : ℝ) + u; linarith, by have := e1 i hi; have := hu.2; show (i : ℝ) + u ≤ N; linarith⟩
  have s3 : d * (∑ i ∈ Finset.range N, c i) - d * ∫ r in (0 : ℝ)..N, ψ r = ∫ u in (0 : ℝ)..1, d * ∑ i ∈ Finset.range N, (c i - ψ (i + u)) := by
    rw [← s1, Finset.sum_congr rfl fun i _ => s2 i, intervalIntegral.integral_const_mul, intervalIntegral.integral_finsetSum, ← mul_sub, ← Finset.sum_sub_distrib]
    · congr 1
      refine Finset.sum_congr rfl fun i hi => ?_
      rw [intervalIntegral.integral_sub intervalIntegrable_const (cu i (Finset.mem_range.mp hi)).intervalIntegrable]
      simp
    · intro i hi
      exact intervalIntegrable_const.sub (cu i (Finset.mem_range.mp hi)).intervalIntegrable
  rw [s3, ← Real.norm_eq_abs]
  refine (intervalIntegral.norm_integral_le_of_norm_le_const (C := K) fun u hu => ?_).trans (le_of_eq (by norm_num))
  rw [Set.uIoc_of_le zero_le_one] at hu
  rw [Real.norm_eq_abs, abs_mul]
  exact (mul_le_mul_of_nonneg_left (Finset.abs_sum_le_sum_abs _ _) (abs_nonneg d)).trans (h u hu.1.le hu.2)

/-- Spectra along a line are continuous. -/
theorem spectrum_continuous {g : Grid ℝ} (hl : Lawful g) {A : V2 ℤ} {N : ℕ} {τ : V2 ℤ} (L : Lined g A N τ) {V : ℝ → ℝ → ℝ → ℝ} {T T' M : ℝ} (lip : Lip V g T' M) (hM : 0 ≤ M)
    (hT : 0 ≤ T) (hT' : T ≤ T') (f : ℝ) :
    ContinuousOn (fun r : ℝ => spectrum (fun t => V t ((A.x + r * τ.x) * g.dx) ((A.y + r * τ.y) * g.dx)) f T) (Set.Icc 0 (N : ℝ)) := by
  have d := hl.dx
  have slow : ∀ r ∈ Set.Icc (0 : ℝ) N, Slow (fun t => V t ((A.x + r * τ.x) * g.dx) ((A.y + r * τ.y) * g.dx)) T M := fun r hr t t' a b c =>
    lip.t t t' _ _ a b (c.trans hT') (L.inDomain hl hr.1 hr.2)
  have lipC : LipschitzOnWith (Real.toNNReal (M * g.dx * T)) (fun r : ℝ => spectrum (fun t => V t ((A.x + r * τ.x) * g.dx) ((A.y + r * τ.y) * g.dx)) f T) (Set.Icc 0 (N : ℝ)) := by
    refine LipschitzOnWith.of_dist_le_mul fun r hr s hs => ?_
    rw [Real.coe_toNNReal _ (by positivity), dist_eq_norm, Real.dist_eq]
    have := spectrum_dist hT hM (slow r hr) (slow s hs) (δ := M * (|r - s| * g.dx)) (fun t t0 t1 => by
      refine (lip.dist t0 (t1.trans hT') (L.inDomain hl hs.1 hs.2) (L.inDomain hl hr.1 hr.2)).trans (mul_le_mul_of_nonneg_left ?_ hM)
      have txy : |(τ.x : ℝ)| + |(τ.y : ℝ)| = 1 := by exact_mod_cast L.unit
      rw [← sub_mul, ← sub_mul, add_sub_add_left_eq_sub, add_sub_add_left_eq_sub, ← sub_mul, ← sub_mul]
      simp only [abs_mul, abs_of_pos d]
      refine le_of_eq ?_
      linear_combination (|r - s| * g.dx) * txy) f
    refine this.trans (le_of_eq (by ring))
  exact lipC.continuousOn

end Qbox
