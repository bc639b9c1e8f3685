import Verif.Model.Grid
import Verif.Lemmas.Round
import Mathlib.Tactic.FieldSimp

/-!
# Properties C01 – C05: grid, clipping, surfaces, boxes

All statements are in exact arithmetic (`Scalar ℝ`).
-/

namespace Qbox.Props
open Qbox Scalar

/-- Node `p` exists in grid `g`. -/
def InGrid {K : Type} (g : Grid K) (p : V2 ℤ) : Prop :=
  0 ≤ p.x ∧ p.x < g.Nx ∧ 0 ≤ p.y ∧ p.y < g.Ny

/-- Position `p` lies in the closed box with corners `v.a` (lower left) and `v.b` (upper right). -/
def InBox (v : Vol ℝ) (p : V2 ℝ) : Prop :=
  v.a.x ≤ p.x ∧ p.x ≤ v.b.x ∧ v.a.y ≤ p.y ∧ p.y ≤ v.b.y

/-- Node `p` lies in the integer box. -/
def InIBox (v : IVol) (p : V2 ℤ) : Prop :=
  v.a.x ≤ p.x ∧ p.x ≤ v.b.x ∧ v.a.y ≤ p.y ∧ p.y ≤ v.b.y

/-! ## C01 -/

/-- C01: index → position → index is the identity, for every resolution and every index. -/
theorem C01_index_roundtrip (Lx Ly res : ℝ) (pml : ℤ) (hres : 0 < res) (p : V2 ℤ) :
    (Grid.make Lx Ly res pml).toGrid ((Grid.make Lx Ly res pml).toReal p) = p := by
  have h : (1 / res) ≠ 0 := by positivity
  ext <;> simp [Grid.make, Grid.toGrid, Grid.toReal, -one_div] <;>
    rw [mul_div_cancel_left₀ _ h, roundAway_int]

/-- C01: position → index → position moves each coordinate by at most half a cell. -/
theorem C01_position_roundtrip (Lx Ly res : ℝ) (pml : ℤ) (hres : 0 < res) (p : V2 ℝ) :
    let g := Grid.make Lx Ly res pml
    |(g.toReal (g.toGrid p)).x - p.x| ≤ g.dx / 2 ∧ |(g.toReal (g.toGrid p)).y - p.y| ≤ g.dx / 2 := by
  intro g
  have hdx : 0 < g.dx := by simp only [g, Grid.make]; positivity
  have key : ∀ u : ℝ, |g.dx * (roundAway (u / g.dx) : ℝ) - u| ≤ g.dx / 2 := by
    intro u
    have h := roundAway_abs_sub_le (u / g.dx)
    have e : g.dx * (roundAway (u / g.dx) : ℝ) - u = g.dx * ((roundAway (u / g.dx) : ℝ) - u / g.dx) := by
      field_simp
    rw [e, abs_mul, abs_of_pos hdx]
    nlinarith
  exact ⟨key p.x, key p.y⟩

/-- C01: any node strictly nearer than half a cell in both coordinates is the one returned. -/
theorem C01_nearest (Lx Ly res : ℝ) (pml : ℤ) (hres : 0 < res) (p : V2 ℝ) (q : V2 ℤ) :
    let g := Grid.make Lx Ly res pml
    |p.x - (g.toReal q).x| < g.dx / 2 → |p.y - (g.toReal q).y| < g.dx / 2 → g.toGrid p = q := by
  intro g hx hy
  have hdx : 0 < g.dx := by simp only [g, Grid.make]; positivity
  have key : ∀ (u : ℝ) (n : ℤ), |u - g.dx * (n : ℝ)| < g.dx / 2 → roundAway (u / g.dx) = n := by
    intro u n h
    apply roundAway_eq_of_abs_lt
    have e : u / g.dx - n = (u - g.dx * n) / g.dx := by field_simp
    rw [e, abs_div, abs_of_pos hdx, div_lt_iff₀ hdx]
    linarith
  ext
  · exact key p.x q.x hx
  · exact key p.y q.y hy

example : (0 : ℝ) < 10 := by norm_num  -- hypotheses of C01 are met by `res = 10`

/-! ## C02 -/

/-- C02: the grid covers the requested size with less than one cell of excess. -/
theorem C02_covers (Lx Ly res : ℝ) (pml : ℤ) (hres : 0 < res) :
    let g := Grid.make Lx Ly res pml
    (Lx ≤ g.Nx * g.dx ∧ (g.Nx - 1) * g.dx < Lx) ∧ (Ly ≤ g.Ny * g.dx ∧ (g.Ny - 1) * g.dx < Ly) := by
  have key : ∀ L : ℝ, L ≤ (⌈L * res⌉ : ℝ) * (1 / res) ∧ ((⌈L * res⌉ : ℝ) - 1) * (1 / res) < L := by
    intro L
    have h1 := Int.le_ceil (L * res)
    have h2 := Int.ceil_lt_add_one (L * res)
    constructor
    · rw [mul_one_div, le_div_iff₀ hres]; exact h1
    · rw [mul_one_div, div_lt_iff₀ hres]; linarith
  exact ⟨key Lx, key Ly⟩

/-- C02: the corners of `domain()` are exactly the first and the last node. -/
theorem C02_domain_corners (Lx Ly res : ℝ) (pml : ℤ) :
    let g := Grid.make Lx Ly res pml
    g.domain.a = g.toReal ⟨0, 0⟩ ∧ g.domain.b = g.toReal ⟨g.Nx - 1, g.Ny - 1⟩ := by
  intro g
  constructor
  · ext <;> simp [g, Grid.domain, Grid.toReal, Vol.make]
  · ext <;> simp [g, Grid.domain, Grid.toReal, Vol.make, Grid.make]

/-- C02: nodes are exactly the indices whose positions are in `domain()`, and every position of the domain
is rounded to an existing node. -/
theorem C02_nodes_iff_domain (Lx Ly res : ℝ) (pml : ℤ) (hres : 0 < res) :
    let g := Grid.make Lx Ly res pml
    (∀ p, InGrid g p ↔ InBox g.domain (g.toReal p)) ∧ (∀ q, InBox g.domain q → InGrid g (g.toGrid q)) := by
  intro g
  have hdx : 0 < g.dx := by simp only [g, Grid.make]; positivity
  have hLx : g.Lx = g.dx * ((g.Nx - 1 : ℤ) : ℝ) := rfl
  have hLy : g.Ly = g.dx * ((g.Ny - 1 : ℤ) : ℝ) := rfl
  have h0 : ∀ n : ℤ, 0 ≤ g.dx * (n : ℝ) ↔ 0 ≤ n := by
    intro n
    rw [mul_nonneg_iff_of_pos_left hdx]; exact_mod_cast Iff.rfl
  have h1 : ∀ n m : ℤ, g.dx * (n : ℝ) ≤ g.dx * ((m - 1 : ℤ) : ℝ) ↔ n < m := by
    intro n m
    rw [mul_le_mul_iff_right₀ hdx, Int.cast_le]; omega
  constructor
  · intro p
    simp only [InGrid, InBox, Grid.domain, Vol.make, Grid.toReal, ofInt_real, hLx, hLy, h0, h1]
  · intro q hq
    simp only [InBox, Grid.domain, Vol.make] at hq
    obtain ⟨a1, a2, a3, a4⟩ := hq
    have lo : ∀ u : ℝ, 0 ≤ u → 0 ≤ roundAway (u / g.dx) := by
      intro u hu
      have := roundAway_mono (x := ((0 : ℤ) : ℝ)) (y := u / g.dx) (by simp; positivity)
      rwa [roundAway_int] at this
    have hi : ∀ (u : ℝ) (m : ℤ), u ≤ g.dx * ((m - 1 : ℤ) : ℝ) → roundAway (u / g.dx) < m := by
      intro u m hu
      have : u / g.dx ≤ ((m - 1 : ℤ) : ℝ) := by rw [div_le_iff₀ hdx]; linarith
      have := roundAway_mono this
      rw [roundAway_int] at this
      omega
    exact ⟨lo _ a1, hi _ _ (hLx ▸ a2), lo _ a3, hi _ _ (hLy ▸ a4)⟩

/-- C02: the time step satisfies the 2D Courant bound (with margin 2). -/
theorem C02_courant (Lx Ly res : ℝ) (pml : ℤ) (hres : 0 < res) :
    let g := Grid.make Lx Ly res pml
    0 < g.dt ∧ 2 * (g.dt / g.dx) ^ 2 ≤ 1 := by
  intro g
  have hdx : 0 < g.dx := by simp only [g, Grid.make]; positivity
  have hdt : g.dt = g.dx / 2 := by simp [g, Grid.make]
  refine ⟨by rw [hdt]; positivity, ?_⟩
  rw [hdt]
  have : g.dx / 2 / g.dx = 1 / 2 := by field_simp
  rw [this]; norm_num

/-- The header comment "Nx*dx = Lx" (`include/grid.h:37`) does not hold for the stored `Lx`. -/
theorem C02_header_comment_false :
    ¬ ∀ (Lx Ly res : ℝ) (pml : ℤ), 0 < res →
      (Grid.make Lx Ly res pml).Nx * (Grid.make Lx Ly res pml).dx = (Grid.make Lx Ly res pml).Lx := by
  intro h
  have := h 1 1 1 0 (by norm_num)
  simp [Grid.make] at this

/-! ## C03 -/

/-- C03 (full statement): a box that meets the grid is clipped to corners inside the grid, and the nodes of
the result are the nodes of the box that exist. -/
def C03_statement : Prop :=
  ∀ (g : Grid ℝ) (v : IVol), (∃ p, InIBox v p ∧ InGrid g p) →
    (InGrid g (g.clipI v).a ∧ InGrid g (g.clipI v).b) ∧
    ∀ p, InIBox (g.clipI v) p ↔ (InIBox v p ∧ InGrid g p)

/-- C03 fails: a box overhanging the right edge is not clipped. -/
theorem C03_false : ¬ C03_statement := by
  intro h
  have := (h (Grid.make 4 4 1 0) (IVol.make ⟨0, 0⟩ ⟨5, 2⟩)
    ⟨⟨0, 0⟩, by simp [InIBox, IVol.make], by simp [InGrid, Grid.make]⟩).1.2
  simp [InGrid, Grid.clipI, IVol.make, Grid.make] at this

/-- C03, bottom edge: also a box that only overhangs the bottom edge is returned with a negative index. -/
theorem C03_false_bottom :
    ¬ InGrid (Grid.make 4 4 1 0 : Grid ℝ)
      ((Grid.make 4 4 1 0 : Grid ℝ).clipI (IVol.make ⟨0, -2⟩ ⟨2, 2⟩)).a := by
  simp [InGrid, Grid.clipI, IVol.make, Grid.make]

/-- C03, wrong extent: on a tall grid (`Nx < Ny`) a box inside the grid is changed: `a(1)` is clipped with `Nx`. -/
theorem C03_false_inside :
    let g : Grid ℝ := Grid.make 4 9 1 0
    let v := IVol.make ⟨1, 6⟩ ⟨2, 7⟩
    (InGrid g v.a ∧ InGrid g v.b) ∧ InIBox (g.clipI v) ⟨1, 4⟩ ∧ ¬ InIBox v ⟨1, 4⟩ := by
  simp [InGrid, InIBox, Grid.clipI, IVol.make, Grid.make]

/-- C03 (partial, missing: right and bottom edges are never clipped, and `a(1)` uses `Nx`): no node of the
box that exists in the grid is ever lost by clipping, for every grid and every box. -/
theorem C03_keeps_nodes_partial (g : Grid ℝ) (v : IVol) (p : V2 ℤ) (hv : InIBox v p) (hp : InGrid g p) :
    InIBox (g.clipI v) p := by
  simp only [InIBox, InGrid, Grid.clipI, IVol.make] at *
  split_ifs <;> omega

/-- C03 (partial): the full statement holds for boxes that meet the grid, do not cross the right edge
(`b(0) ≤ Nx-1`) or the bottom edge (`0 ≤ a(1)`), and whose bottom is at most `Nx-1`. -/
theorem C03_clip_partial (g : Grid ℝ) (v : IVol) (hne : ∃ p, InIBox v p ∧ InGrid g p)
    (hr : v.b.x ≤ g.Nx - 1) (hb : 0 ≤ v.a.y) (hsq : v.a.y ≤ g.Nx - 1) :
    (InGrid g (g.clipI v).a ∧ InGrid g (g.clipI v).b) ∧
    ∀ p, InIBox (g.clipI v) p ↔ (InIBox v p ∧ InGrid g p) := by
  obtain ⟨q, hq1, hq2⟩ := hne
  simp only [InIBox, InGrid, Grid.clipI, IVol.make] at *
  refine ⟨⟨?_, ?_⟩, fun p => ?_⟩ <;> split_ifs <;> omega

/-- C03: the guard of `C03_clip_partial` is also necessary. -/
theorem C03_guard_necessary (g : Grid ℝ) (v : IVol) (hne : ∃ p, InIBox v p ∧ InGrid g p)
    (h : (InGrid g (g.clipI v).a ∧ InGrid g (g.clipI v).b) ∧
      ∀ p, InIBox (g.clipI v) p ↔ (InIBox v p ∧ InGrid g p)) :
    v.b.x ≤ g.Nx - 1 ∧ 0 ≤ v.a.y ∧ v.a.y ≤ g.Nx - 1 := by
  obtain ⟨q, hq1, hq2⟩ := hne
  obtain ⟨⟨ha, hb⟩, hiff⟩ := h
  have hq := (hiff ⟨q.x, (g.clipI v).a.y⟩).mp
  simp only [InIBox, InGrid, Grid.clipI, IVol.make] at *
  split_ifs at * <;> omega

example : ∃ (g : Grid ℝ) (v : IVol), (∃ p, InIBox v p ∧ InGrid g p) ∧ v.b.x ≤ g.Nx - 1 ∧ 0 ≤ v.a.y ∧
    v.a.y ≤ g.Nx - 1 ∧ v.a.x < 0 ∧ g.Ny - 1 < v.b.y := by
  refine ⟨Grid.make 6 5 1 0, IVol.make ⟨-3, 2⟩ ⟨4, 9⟩, ⟨⟨0, 2⟩, ?_, ?_⟩, ?_⟩ <;>
    simp [InIBox, InGrid, IVol.make, Grid.make]

/-! ## C05 -/

/-- C05: construction throws exactly when both components differ. -/
theorem C05_throws_iff (a b : V2 ℝ) (sg : Sgn) :
    (Surf.make a b sg = .error (.exn surfMsg)) ↔ (a.x ≠ b.x ∧ a.y ≠ b.y) := by
  unfold Surf.make
  simp only [V2.cabs, V2.sub_x, V2.sub_y, eqb_real, absS_real, abs_eq_zero, sub_eq_zero, decide_eq_true_eq]
  split_ifs <;> simp_all

/-- C05: construction never has undefined behaviour for doubles. -/
theorem C05_no_ub (a b : V2 ℝ) (sg : Sgn) (u : UB) : Surf.make a b sg ≠ .error (.ub u) := by
  unfold Surf.make
  simp only
  split_ifs <;> simp

/-- C05: an axis-aligned segment of positive length gets the unit tangent from `a` to `b` and the signed unit
axis perpendicular to it. -/
theorem C05_frame (a b : V2 ℝ) (sg : Sgn) (h : (a.x = b.x ∧ a.y ≠ b.y) ∨ (a.x ≠ b.x ∧ a.y = b.y)) :
    ∃ s, Surf.make a b sg = .ok s ∧ s.a = a ∧ s.b = b ∧ s.sg = sg ∧
      s.dim = ⟨|a.x - b.x|, |a.y - b.y|⟩ ∧
      -- the tangent is a unit vector pointing from `a` to `b`
      s.tangent.x ^ 2 + s.tangent.y ^ 2 = 1 ∧
      b.x - a.x = (|a.x - b.x| + |a.y - b.y|) * s.tangent.x ∧
      b.y - a.y = (|a.x - b.x| + |a.y - b.y|) * s.tangent.y ∧
      -- the normal is the signed axis perpendicular to the segment
      s.normal.x * s.tangent.x + s.normal.y * s.tangent.y = 0 ∧
      s.normal.x + s.normal.y = (sg.toInt : ℝ) ∧ s.normal.x * s.normal.y = 0 := by
  rcases h with ⟨hx, hy⟩ | ⟨hx, hy⟩
  · have hne : b.y - a.y ≠ 0 := sub_ne_zero.mpr (Ne.symm hy)
    have hn : Real.sqrt ((b.x - a.x) * (b.x - a.x) + (b.y - a.y) * (b.y - a.y)) = |b.y - a.y| := by
      rw [hx, sub_self, mul_zero, zero_add, Real.sqrt_mul_self_eq_abs]
    have hab : |a.x - b.x| = 0 := by rw [hx, sub_self, abs_zero]
    have hpos : |b.y - a.y| ≠ 0 := abs_ne_zero.mpr hne
    refine ⟨_, by simp [Surf.make, V2.cabs, hx]; rfl, rfl, rfl, rfl, ?_, ?_⟩
    · simp [V2.cabs, hx]
    · simp [V2.norm, V2.sqNorm, V2.sdiv, hn, hx, abs_sub_comm a.y b.y]
      field_simp
      rw [Real.sqrt_sq_eq_abs]
      exact ⟨eq_or_eq_neg_of_abs_eq rfl, rfl⟩
  · have hne : b.x - a.x ≠ 0 := sub_ne_zero.mpr (Ne.symm hx)
    have hne' : a.x - b.x ≠ 0 := sub_ne_zero.mpr hx
    have hn : Real.sqrt ((b.x - a.x) * (b.x - a.x) + (b.y - a.y) * (b.y - a.y)) = |b.x - a.x| := by
      rw [hy, sub_self, mul_zero, add_zero, Real.sqrt_mul_self_eq_abs]
    have hpos : |b.x - a.x| ≠ 0 := abs_ne_zero.mpr hne
    refine ⟨_, by simp [Surf.make, V2.cabs, hy, hne']; rfl, rfl, rfl, rfl, ?_, ?_⟩
    · simp [V2.cabs, hy]
    · simp [V2.norm, V2.sqNorm, V2.sdiv, hn, hy, abs_sub_comm a.x b.x]
      field_simp
      rw [Real.sqrt_sq_eq_abs]
      exact ⟨eq_or_eq_neg_of_abs_eq rfl, rfl⟩

theorem inorm_axis_x (v : V2 ℤ) (h : v.y = 0) : v.inorm = |v.x| := by
  have : (v.x * v.x + v.y * v.y).toNat = v.x.natAbs * v.x.natAbs := by
    rw [h, mul_zero, add_zero, ← Int.natAbs_mul_self, Int.toNat_natCast]
  rw [V2.inorm, this, Nat.sqrt_eq, Int.natCast_natAbs]

theorem inorm_axis_y (v : V2 ℤ) (h : v.x = 0) : v.inorm = |v.y| := by
  have : (v.x * v.x + v.y * v.y).toNat = v.y.natAbs * v.y.natAbs := by
    rw [h, mul_zero, zero_add, ← Int.natAbs_mul_self, Int.toNat_natCast]
  rw [V2.inorm, this, Nat.sqrt_eq, Int.natCast_natAbs]

/-- What the integer surface constructor does, for every pair of nodes. -/
theorem C05_isurface_outcome (a b : V2 ℤ) (sg : Sgn) :
    (a.x ≠ b.x ∧ a.y ≠ b.y → ISurf.make a b sg = .error (.exn surfMsg)) ∧
    (a = b → ISurf.make a b sg = .error (.ub .divZero)) ∧
    ((a.x = b.x ∧ a.y ≠ b.y) ∨ (a.x ≠ b.x ∧ a.y = b.y) →
      ∃ s, ISurf.make a b sg = .ok s ∧ s.a = a ∧ s.b = b ∧ s.sg = sg ∧
        s.dim = ⟨|a.x - b.x|, |a.y - b.y|⟩ ∧
        s.dim.inorm = |a.x - b.x| + |a.y - b.y| ∧
        b = ⟨a.x + s.dim.inorm * s.tangent.x, a.y + s.dim.inorm * s.tangent.y⟩ ∧
        |s.tangent.x| + |s.tangent.y| = 1) := by
  refine ⟨?_, ?_, ?_⟩
  · rintro ⟨hx, hy⟩
    have h1 : a.x - b.x ≠ 0 := sub_ne_zero.mpr hx
    have h2 : a.y - b.y ≠ 0 := sub_ne_zero.mpr hy
    simp [ISurf.make, V2.icabs, h1, h2]
  · rintro rfl
    simp [ISurf.make, V2.icabs, V2.inorm]
  · rintro (⟨hx, hy⟩ | ⟨hx, hy⟩)
    · have h2 : b.y - a.y ≠ 0 := sub_ne_zero.mpr (Ne.symm hy)
      have hn : (b - a).inorm = |b.y - a.y| := inorm_axis_y _ (by simp [hx])
      have hn0 : |b.y - a.y| ≠ 0 := abs_ne_zero.mpr h2
      have hd : (V2.mk 0 |a.y - b.y|).inorm = |a.y - b.y| := by
        rw [inorm_axis_y _ rfl, abs_abs]
      refine ⟨_, by simp [ISurf.make, V2.icabs, hx, hn, hn0]; rfl, rfl, rfl, rfl, ?_, ?_, ?_, ?_⟩
      · simp [hx]
      · rw [hd]; simp [hx]
      · have e : (b - a).inorm * ((b.y - a.y).tdiv (b - a).inorm) = b.y - a.y := by
          rw [hn]; exact Int.mul_tdiv_cancel' (abs_dvd_self _)
        rw [hn] at e
        ext
        · simp [hx]
        · simp only [hd, hn]; rw [abs_sub_comm a.y b.y, e]; ring
      · simp only [V2.sub_x, V2.sub_y, hn, hx, sub_self, Int.zero_tdiv, abs_zero, zero_add]
        rcases abs_choice (b.y - a.y) with h | h <;> rw [h]
        · rw [Int.tdiv_self h2]; rfl
        · rw [Int.tdiv_neg, Int.tdiv_self h2]; rfl
    · have h2 : b.x - a.x ≠ 0 := sub_ne_zero.mpr (Ne.symm hx)
      have h3 : a.x - b.x ≠ 0 := sub_ne_zero.mpr hx
      have hn : (b - a).inorm = |b.x - a.x| := inorm_axis_x _ (by simp [hy])
      have hn0 : |b.x - a.x| ≠ 0 := abs_ne_zero.mpr h2
      have hd : (V2.mk |a.x - b.x| 0).inorm = |a.x - b.x| := by
        rw [inorm_axis_x _ rfl, abs_abs]
      refine ⟨_, by simp [ISurf.make, V2.icabs, hy, hn, hn0, h3]; rfl, rfl, rfl, rfl, ?_, ?_, ?_, ?_⟩
      · simp [hy]
      · rw [hd]; simp [hy]
      · have e : (b - a).inorm * ((b.x - a.x).tdiv (b - a).inorm) = b.x - a.x := by
          rw [hn]; exact Int.mul_tdiv_cancel' (abs_dvd_self _)
        rw [hn] at e
        ext
        · simp only [hd, hn]; rw [abs_sub_comm a.x b.x, e]; ring
        · simp [hy]
      · simp only [V2.sub_x, V2.sub_y, hn, hy, sub_self, Int.zero_tdiv, abs_zero, add_zero]
        rcases abs_choice (b.x - a.x) with h | h <;> rw [h]
        · rw [Int.tdiv_self h2]; rfl
        · rw [Int.tdiv_neg, Int.tdiv_self h2]; rfl

/-- C05: converting a constructed surface to the grid never throws; it is defined exactly when the rounded end
points differ and divides by integer zero otherwise. -/
theorem C05_to_grid (g : Grid ℝ) (a b : V2 ℝ) (sg : Sgn) (s : Surf ℝ) (hs : Surf.make a b sg = .ok s) :
    (∀ e, g.toGridS s ≠ .error (.exn e)) ∧
    (g.toGrid a ≠ g.toGrid b → ∃ i, g.toGridS s = .ok i ∧ i.a = g.toGrid a ∧ i.b = g.toGrid b) ∧
    (g.toGrid a = g.toGrid b → g.toGridS s = .error (.ub .divZero)) := by
  have hab : s.a = a ∧ s.b = b ∧ s.sg = sg ∧ (a.x = b.x ∨ a.y = b.y) := by
    unfold Surf.make at hs
    simp only [V2.cabs, V2.sub_x, V2.sub_y, eqb_real, absS_real, abs_eq_zero, sub_eq_zero,
      decide_eq_true_eq] at hs
    split_ifs at hs with h1 h2
    · cases hs; exact ⟨rfl, rfl, rfl, Or.inl h1⟩
    · cases hs; exact ⟨rfl, rfl, rfl, Or.inr h2⟩
  obtain ⟨ha, hb, hsg, hax⟩ := hab
  have hax' : (g.toGrid a).x = (g.toGrid b).x ∨ (g.toGrid a).y = (g.toGrid b).y := by
    rcases hax with h | h
    · left; simp [Grid.toGrid, h]
    · right; simp [Grid.toGrid, h]
  obtain ⟨h1, h2, h3⟩ := C05_isurface_outcome (g.toGrid a) (g.toGrid b) sg
  unfold Grid.toGridS
  rw [ha, hb, hsg]
  by_cases he : g.toGrid a = g.toGrid b
  · refine ⟨fun e => ?_, fun h => absurd he h, fun _ => h2 he⟩
    rw [h2 he]; simp
  · have hne : ((g.toGrid a).x = (g.toGrid b).x ∧ (g.toGrid a).y ≠ (g.toGrid b).y) ∨
        ((g.toGrid a).x ≠ (g.toGrid b).x ∧ (g.toGrid a).y = (g.toGrid b).y) := by
      have : ¬ ((g.toGrid a).x = (g.toGrid b).x ∧ (g.toGrid a).y = (g.toGrid b).y) := by
        rintro ⟨u, v⟩; exact he (V2.ext u v)
      tauto
    obtain ⟨i, hi, hia, hib, _⟩ := h3 hne
    exact ⟨fun e => by rw [hi]; simp, fun _ => ⟨i, hi, hia, hib⟩, fun h => absurd h he⟩

/-- C05, concrete case of the undefined behaviour: a surface shorter than half a cell. -/
theorem C05_short_surface_ub : ∃ s : Surf ℝ, Surf.make ⟨0, 0⟩ ⟨1/4, 0⟩ .Positive = .ok s ∧
    (Grid.make 4 4 1 0 : Grid ℝ).toGridS s = .error (.ub .divZero) := by
  obtain ⟨s, hs, _⟩ := C05_frame ⟨0, 0⟩ ⟨1/4, 0⟩ .Positive (Or.inr ⟨by norm_num, rfl⟩)
  refine ⟨s, hs, (C05_to_grid _ _ _ _ s hs).2.2 ?_⟩
  simp only [Grid.toGrid, Grid.make, roundI_real]
  have h : roundAway ((1/4 : ℝ) / (1 / 1)) = 0 := by
    apply roundAway_eq_of_abs_lt; rw [abs_lt]; constructor <;> norm_num
  have h0 : roundAway ((0 : ℝ) / (1 / 1)) = 0 := by
    apply roundAway_eq_of_abs_lt; rw [abs_lt]; constructor <;> norm_num
  rw [h, h0]

/-! ## C04 -/

/-- C04: the four faces of a box given by its lower-left and upper-right corners form a closed
counter-clockwise contour: consecutive faces share an end point, tangents are unit vectors from start to end,
normals are the tangents turned clockwise, i.e. they point out of the box; total length = perimeter. -/
theorem C04_box_contour (a b : V2 ℝ) (hx : a.x < b.x) (hy : a.y < b.y) :
    ∃ f1 f2 f3 f4 : Surf ℝ,
      (Vol.make a b).getSurface .y_bottom = .ok f1 ∧ (Vol.make a b).getSurface .x_top = .ok f2 ∧
      (Vol.make a b).getSurface .y_top = .ok f3 ∧ (Vol.make a b).getSurface .x_bottom = .ok f4 ∧
      -- closed, starting at the lower-left corner, through the lower-right, upper-right, upper-left corners
      f1.a = a ∧ f1.b = ⟨b.x, a.y⟩ ∧ f2.a = f1.b ∧ f2.b = b ∧ f3.a = f2.b ∧ f3.b = ⟨a.x, b.y⟩ ∧
      f4.a = f3.b ∧ f4.b = f1.a ∧
      (∀ f ∈ [f1, f2, f3, f4],
        -- unit tangent from start to end
        f.tangent.x ^ 2 + f.tangent.y ^ 2 = 1 ∧
        (∃ l : ℝ, 0 < l ∧ f.b = ⟨f.a.x + l * f.tangent.x, f.a.y + l * f.tangent.y⟩) ∧
        -- the normal is the tangent turned clockwise by 90 degrees
        f.normal = ⟨f.tangent.y, -f.tangent.x⟩ ∧
        -- and points away from every interior point of the box
        (∀ p : V2 ℝ, a.x < p.x → p.x < b.x → a.y < p.y → p.y < b.y →
          (f.a.x - p.x) * f.normal.x + (f.a.y - p.y) * f.normal.y > 0)) ∧
      (f1.dim.x + f1.dim.y) + (f2.dim.x + f2.dim.y) + (f3.dim.x + f3.dim.y) + (f4.dim.x + f4.dim.y)
        = 2 * (b.x - a.x) + 2 * (b.y - a.y) := by
  have ex : ∀ u v : V2 ℝ, u.x < v.x → u.y = v.y → ∀ sg,
      Surf.make u v sg = .ok ⟨u, v, sg, ⟨v.x - u.x, 0⟩, ⟨0, sg.toInt⟩, ⟨1, 0⟩⟩ := by
    intro u v h1 h2 sg
    have hp : 0 < v.x - u.x := by linarith
    have hne : u.x - v.x ≠ 0 := by linarith
    have hn : Real.sqrt ((v.x - u.x) * (v.x - u.x) + 0 * 0) = v.x - u.x := by
      rw [mul_zero, add_zero, Real.sqrt_mul_self hp.le]
    simp only [Surf.make, V2.cabs, V2.sub_x, V2.sub_y, h2, sub_self, absS_real, abs_zero, eqb_real,
      abs_eq_zero, hne, decide_false, decide_true, if_true, V2.norm, V2.sqNorm, sqrt_real, hn,
      V2.sdiv, V2.smul, ofInt_real]
    simp [hp.ne', abs_of_neg (show u.x - v.x < 0 by linarith)]
  have ey : ∀ u v : V2 ℝ, u.y < v.y → u.x = v.x → ∀ sg,
      Surf.make u v sg = .ok ⟨u, v, sg, ⟨0, v.y - u.y⟩, ⟨sg.toInt, 0⟩, ⟨0, 1⟩⟩ := by
    intro u v h1 h2 sg
    have hp : 0 < v.y - u.y := by linarith
    have hn : Real.sqrt (0 * 0 + (v.y - u.y) * (v.y - u.y)) = v.y - u.y := by
      rw [mul_zero, zero_add, Real.sqrt_mul_self hp.le]
    simp only [Surf.make, V2.cabs, V2.sub_x, V2.sub_y, h2, sub_self, absS_real, abs_zero, eqb_real,
      decide_true, if_true, V2.norm, V2.sqNorm, sqrt_real, hn,
      V2.sdiv, V2.smul, ofInt_real]
    simp [hp.ne', abs_of_neg (show u.y - v.y < 0 by linarith)]
  have ex' : ∀ u v : V2 ℝ, v.x < u.x → u.y = v.y → ∀ sg,
      Surf.make u v sg = .ok ⟨u, v, sg, ⟨u.x - v.x, 0⟩, ⟨0, sg.toInt⟩, ⟨-1, 0⟩⟩ := by
    intro u v h1 h2 sg
    have hp : 0 < u.x - v.x := by linarith
    have hn : Real.sqrt ((v.x - u.x) * (v.x - u.x) + 0 * 0) = u.x - v.x := by
      rw [mul_zero, add_zero, Real.sqrt_mul_self_eq_abs, abs_of_neg (by linarith)]; ring
    have hq : (v.x - u.x) / (u.x - v.x) = -1 := by rw [div_eq_iff hp.ne']; ring
    simp only [Surf.make, V2.cabs, V2.sub_x, V2.sub_y, h2, sub_self, absS_real, abs_zero, eqb_real,
      abs_eq_zero, hp.ne', decide_false, decide_true, if_true, V2.norm, V2.sqNorm, sqrt_real, hn,
      V2.sdiv, V2.smul, ofInt_real, hq]
    simp [abs_of_pos hp]
  have ey' : ∀ u v : V2 ℝ, v.y < u.y → u.x = v.x → ∀ sg,
      Surf.make u v sg = .ok ⟨u, v, sg, ⟨0, u.y - v.y⟩, ⟨sg.toInt, 0⟩, ⟨0, -1⟩⟩ := by
    intro u v h1 h2 sg
    have hp : 0 < u.y - v.y := by linarith
    have hn : Real.sqrt (0 * 0 + (v.y - u.y) * (v.y - u.y)) = u.y - v.y := by
      rw [mul_zero, zero_add, Real.sqrt_mul_self_eq_abs, abs_of_neg (by linarith)]; ring
    have hq : (v.y - u.y) / (u.y - v.y) = -1 := by rw [div_eq_iff hp.ne']; ring
    simp only [Surf.make, V2.cabs, V2.sub_x, V2.sub_y, h2, sub_self, absS_real, abs_zero, eqb_real,
      decide_true, if_true, V2.norm, V2.sqNorm, sqrt_real, hn,
      V2.sdiv, V2.smul, ofInt_real, hq]
    simp [abs_of_pos hp]
  refine ⟨_, _, _, _, ex a ⟨b.x, a.y⟩ hx rfl .Negative, ey ⟨b.x, a.y⟩ b hy rfl .Positive,
    ex' b ⟨a.x, b.y⟩ hx rfl .Positive, ey' ⟨a.x, b.y⟩ a hy rfl .Negative,
    rfl, rfl, rfl, rfl, rfl, rfl, rfl, rfl, ?_, ?_⟩
  · intro f hf
    simp only [List.mem_cons, List.not_mem_nil, or_false] at hf
    rcases hf with rfl | rfl | rfl | rfl
    · refine ⟨by norm_num, ⟨b.x - a.x, by linarith, by simp⟩, by simp [Sgn.toInt], ?_⟩
      intro p h1 h2 h3 h4; simp [Sgn.toInt]; linarith
    · refine ⟨by norm_num, ⟨b.y - a.y, by linarith, by simp⟩, by simp [Sgn.toInt], ?_⟩
      intro p h1 h2 h3 h4; simp [Sgn.toInt]; linarith
    · refine ⟨by norm_num, ⟨b.x - a.x, by linarith, by simp⟩, by simp [Sgn.toInt], ?_⟩
      intro p h1 h2 h3 h4; simp [Sgn.toInt]; linarith
    · refine ⟨by norm_num, ⟨b.y - a.y, by linarith, by simp⟩, by simp [Sgn.toInt], ?_⟩
      intro p h1 h2 h3 h4; simp [Sgn.toInt]; linarith
  · simp; ring

example : ((⟨0, 0⟩ : V2 ℝ).x < (⟨2, 1⟩ : V2 ℝ).x) ∧ ((⟨0, 0⟩ : V2 ℝ).y < (⟨2, 1⟩ : V2 ℝ).y) := by
  norm_num  -- hypotheses of C04

end Qbox.Props
