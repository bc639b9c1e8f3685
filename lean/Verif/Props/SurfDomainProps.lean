import Verif.Props.FluxHistoryProps

/-!
# Surface monitors inside the domain read only existing nodes
-/

namespace Qbox.Props
open Qbox Scalar Spec

/-- The three field arrays have one entry per node. -/
def FieldDims (g : Grid ℝ) (f : Flds ℝ) : Prop :=
  (f.Ez.nx = g.Nx ∧ f.Ez.ny = g.Ny) ∧ (f.Hx.nx = g.Nx ∧ f.Hx.ny = g.Ny) ∧ (f.Hy.nx = g.Nx ∧ f.Hy.ny = g.Ny)

/-- A node that is at least `dx` nodes away from the left and bottom edges (`interpolate` shifts the magnetic components by that much)
and not beyond the right and top edges. -/
def InnerNode (g : Grid ℝ) (q : V2 ℤ) : Prop := g.dx ≤ q.x ∧ g.dx ≤ q.y ∧ q.x < g.Nx ∧ q.y < g.Ny

theorem reads_inner (g : Grid ℝ) (hg : 0 < g.dx) (f : Flds ℝ) (hf : FieldDims g f) (p : V2 ℝ)
    (h1 : g.dx ≤ p.x / g.dx) (h2 : g.dx ≤ p.y / g.dx) (h3 : p.x / g.dx ≤ ((g.Nx - 1 : ℤ) : ℝ)) (h4 : p.y / g.dx ≤ ((g.Ny - 1 : ℤ) : ℝ)) :
    Reads g f .Ez p ∧ Reads g f .Hx p ∧ Reads g f .Hy p := by
  have key : ∀ (F : Tensor ℝ) (ps : V2 ℝ), F.nx = g.Nx → F.ny = g.Ny → 0 ≤ ps.x → 0 ≤ ps.y → ps.x ≤ p.x / g.dx → ps.y ≤ p.y / g.dx →
      ∃ v, bilinear F ps = .ok v := by
    intro F ps n1 n2 x0 y0 x1 y1
    refine ⟨_, bilinear_ok F ps ⟨Int.floor_nonneg.mpr x0, ?_, Int.floor_nonneg.mpr y0, ?_⟩⟩
    · have := Int.ceil_le.mpr (x1.trans h3); omega
    · have := Int.ceil_le.mpr (y1.trans h4); omega
  obtain ⟨⟨a1, a2⟩, ⟨b1, b2⟩, c1, c2⟩ := hf
  refine ⟨?_, ?_, ?_⟩
  · unfold Reads Flds.interpolate
    simp only [Flds.get, Except.ok_bind]
    rw [interpPos_real]
    exact key _ _ a1 a2 (by simp only; linarith) (by simp only; linarith) le_rfl le_rfl
  · unfold Reads Flds.interpolate
    simp only [Flds.get, Except.ok_bind]
    rw [interpPos_real]
    exact key _ _ b1 b2 (by simp only; linarith) (by simp only; linarith) le_rfl (by simp only; linarith)
  · unfold Reads Flds.interpolate
    simp only [Flds.get, Except.ok_bind]
    rw [interpPos_real]
    exact key _ _ c1 c2 (by simp only; linarith) (by simp only; linarith) (by simp only; linarith) le_rfl

/-- The sampled points of a surface lie between its rounded end points, in the middles of the cells. -/
theorem surfPoint_mid (g : Grid ℝ) (hg : 0 < g.dx) (a b : V2 ℝ) (sg : Sgn) (s : Surf ℝ) (hs : Surf.make a b sg = .ok s)
    (hne : g.toGrid a ≠ g.toGrid b) (is : ISurf) (hi : g.toGridS s = .ok is) (i : ℤ) (h0 : 0 ≤ i) (h1 : i < cells g a b) :
    ∃ u : ℝ, 0 ≤ u ∧ u ≤ 1 ∧ (surfPoint g s is i).x / g.dx = (1 - u) * (g.toGrid a).x + u * (g.toGrid b).x ∧
      (surfPoint g s is i).y / g.dx = (1 - u) * (g.toGrid a).y + u * (g.toGrid b).y := by
  obtain ⟨e1, e2, e3, -, e5, -, -⟩ := surf_make a b sg s hs
  have hmk : ISurf.make (g.toGrid a) (g.toGrid b) sg = .ok is := by
    have := hi
    unfold Grid.toGridS at this
    rw [e1, e2, e3] at this
    exact this
  have hor : ((g.toGrid a).x = (g.toGrid b).x ∧ (g.toGrid a).y ≠ (g.toGrid b).y) ∨
      ((g.toGrid a).x ≠ (g.toGrid b).x ∧ (g.toGrid a).y = (g.toGrid b).y) := by
    have hax : (g.toGrid a).x = (g.toGrid b).x ∨ (g.toGrid a).y = (g.toGrid b).y := by
      rcases e5 with h | h
      · left; simp [Grid.toGrid, h]
      · right; simp [Grid.toGrid, h]
    have : ¬ ((g.toGrid a).x = (g.toGrid b).x ∧ (g.toGrid a).y = (g.toGrid b).y) := by
      rintro ⟨u, v⟩; exact hne (V2.ext u v)
    tauto
  obtain ⟨is', k1, k2, -, -, -, k6, k7, k8⟩ := (C05_isurface_outcome (g.toGrid a) (g.toGrid b) sg).2.2 hor
  rw [hmk] at k1
  cases k1
  have hn : is.dim.inorm = (cells g a b : ℤ) := by
    rw [k6]; simp only [cells]; push_cast; rfl
  rw [hn] at k7
  have hnpos : (0 : ℝ) < (cells g a b : ℝ) := by
    have : (0 : ℤ) < cells g a b := by omega
    exact_mod_cast this
  -- the real tangent is the integer tangent
  have ht : s.tangent = ⟨(is.tangent.x : ℝ), (is.tangent.y : ℝ)⟩ := by
    have hst : s.tangent = V2.sdiv (b - a) (b - a).norm := by
      unfold Surf.make at hs
      simp only at hs
      split_ifs at hs <;> rw [← Except.ok.inj hs]
    have kx := congrArg V2.x k7
    have ky := congrArg V2.y k7
    simp only at kx ky
    rw [hst]
    have sgn : ∀ u v : ℝ, ∀ τ : ℤ, |τ| = 1 → roundAway (v / g.dx) = roundAway (u / g.dx) + (cells g a b : ℤ) * τ → (v - u) / |v - u| = τ := by
      intro u v τ hτ hr
      have hc : (0 : ℤ) < cells g a b := by omega
      rcases (abs_eq (by norm_num : (0 : ℤ) ≤ 1)).mp hτ with rfl | rfl
      · have : u < v := toGrid_lt g hg (by rw [hr]; omega)
        rw [abs_of_pos (by linarith), div_self (by linarith)]; simp
      · have : v < u := toGrid_lt g hg (by rw [hr]; omega)
        rw [abs_of_neg (by linarith), div_eq_iff (by linarith)]; push_cast; ring
    have cne : (cells g a b : ℤ) ≠ 0 := by omega
    rcases hor with ⟨hx, hy⟩ | ⟨hx, hy⟩
    · have tx : is.tangent.x = 0 := by
        have : (cells g a b : ℤ) * is.tangent.x = 0 := by omega
        exact (mul_eq_zero.mp this).resolve_left cne
      have ty : |is.tangent.y| = 1 := by rw [tx] at k8; simpa using k8
      have hx' : a.x = b.x := by
        rcases e5 with h | h
        · exact h
        · exact absurd (by simp [Grid.toGrid, h]) hy
      have hn' : (b - a).norm = |b.y - a.y| := by
        simp only [V2.norm, V2.sqNorm, V2.sub_x, V2.sub_y, hx', sub_self, mul_zero, zero_add, sqrt_real, Real.sqrt_mul_self_eq_abs]
      ext
      · simp [hx', tx]
      · simp only [V2.sdiv_y, V2.sub_y, hn']
        exact sgn _ _ _ ty (by simpa [Grid.toGrid] using ky)
    · have ty : is.tangent.y = 0 := by
        have : (cells g a b : ℤ) * is.tangent.y = 0 := by omega
        exact (mul_eq_zero.mp this).resolve_left cne
      have tx : |is.tangent.x| = 1 := by rw [ty] at k8; simpa using k8
      have hy' : a.y = b.y := by
        rcases e5 with h | h
        · exact absurd (by simp [Grid.toGrid, h]) hx
        · exact h
      have hn' : (b - a).norm = |b.x - a.x| := by
        simp only [V2.norm, V2.sqNorm, V2.sub_x, V2.sub_y, hy', sub_self, mul_zero, add_zero, sqrt_real, Real.sqrt_mul_self_eq_abs]
      ext
      · simp only [V2.sdiv_x, V2.sub_x, hn']
        exact sgn _ _ _ tx (by simpa [Grid.toGrid] using kx)
      · simp [hy', ty]
  have hi0 : (0 : ℝ) ≤ i := by exact_mod_cast h0
  have hi1 : (i : ℝ) + 1 ≤ (cells g a b : ℝ) := by
    have : i + 1 ≤ (cells g a b : ℤ) := by omega
    exact_mod_cast this
  refine ⟨((i : ℝ) + 1 / 2) / (cells g a b : ℝ), by positivity, ?_, ?_, ?_⟩
  · rw [div_le_one hnpos]; linarith
  · have kx := congrArg V2.x k7
    simp only at kx
    have kx' : ((g.toGrid b).x : ℝ) = (g.toGrid a).x + cells g a b * is.tangent.x := by exact_mod_cast kx
    rw [kx']
    simp only [surfPoint, ht, Grid.toReal, V2.cast, V2.add_x, V2.smul_x, k2, ofInt_real]
    push_cast
    field_simp
    ring
  · have ky := congrArg V2.y k7
    simp only at ky
    have ky' : ((g.toGrid b).y : ℝ) = (g.toGrid a).y + cells g a b * is.tangent.y := by exact_mod_cast ky
    rw [ky']
    simp only [surfPoint, ht, Grid.toReal, V2.cast, V2.add_y, V2.smul_y, k2, ofInt_real]
    push_cast
    field_simp
    ring

theorem between_node {u : ℝ} {a b lo : ℝ} {N : ℤ} {x y : ℤ} (h0 : 0 ≤ u) (h1 : u ≤ 1) (ha : a = x) (hb : b = y) (la : lo ≤ x) (lb : lo ≤ y)
    (na : x < N) (nb : y < N) : lo ≤ (1 - u) * a + u * b ∧ (1 - u) * a + u * b ≤ ((N - 1 : ℤ) : ℝ) := by
  have xa : (x : ℝ) ≤ ((N - 1 : ℤ) : ℝ) := by exact_mod_cast (by omega : x ≤ N - 1)
  have ya : (y : ℝ) ≤ ((N - 1 : ℤ) : ℝ) := by exact_mod_cast (by omega : y ≤ N - 1)
  subst ha hb
  constructor <;> nlinarith

/-- **C14** for surface monitors: a monitor whose end points are inner nodes reads only existing nodes, whatever it records. -/
theorem C14_surface_monitor (g : Grid ℝ) (hg : 0 < g.dx) (f : Flds ℝ) (hf : FieldDims g f) (a b : V2 ℝ) (sg : Sgn) (s : Surf ℝ)
    (hs : Surf.make a b sg = .ok s) (hne : g.toGrid a ≠ g.toGrid b) (ha : InnerNode g (g.toGrid a)) (hb : InnerNode g (g.toGrid b))
    (is : ISurf) (hi : g.toGridS s = .ok is) (tag : DftTag) (t : ℝ) :
    ∃ r, Finds (cells g a b) (surfKeys tag is) (surfReads g s is (f, t)) r := by
  have key : ∀ i : ℤ, 0 ≤ i ∧ i < cells g a b → Reads g f .Ez (surfPoint g s is i) ∧ Reads g f .Hx (surfPoint g s is i) ∧ Reads g f .Hy (surfPoint g s is i) := by
    rintro i ⟨h0, h1⟩
    obtain ⟨u, u0, u1, ex, ey⟩ := surfPoint_mid g hg a b sg s hs hne is hi i h0 h1
    obtain ⟨bx1, bx2⟩ := between_node u0 u1 (rfl : ((g.toGrid a).x : ℝ) = _) (rfl : ((g.toGrid b).x : ℝ) = _) ha.1 hb.1 ha.2.2.1 hb.2.2.1
    obtain ⟨by1, by2⟩ := between_node u0 u1 (rfl : ((g.toGrid a).y : ℝ) = _) (rfl : ((g.toGrid b).y : ℝ) = _) ha.2.1 hb.2.1 ha.2.2.2 hb.2.2.2
    exact reads_inner g hg f hf _ (by rw [ex]; exact bx1) (by rw [ey]; exact by1) (by rw [ex]; exact bx2) (by rw [ey]; exact by2)
  classical
  have val : ∀ C : Fields, ∃ v : ℤ → ℝ, ∀ i : ℤ, 0 ≤ i → i < cells g a b → (C = .Ez ∨ C = .Hx ∨ C = .Hy) →
      f.interpolate g C (surfPoint g s is i) = .ok (v i) := by
    intro C
    refine ⟨fun i => if h : ∃ v, f.interpolate g C (surfPoint g s is i) = .ok v then h.choose else 0, fun i h0 h1 hC => ?_⟩
    have h : ∃ v, f.interpolate g C (surfPoint g s is i) = .ok v := by
      obtain ⟨k1, k2, k3⟩ := key i ⟨h0, h1⟩
      rcases hC with rfl | rfl | rfl <;> assumption
    simp only [h, dif_pos]
    exact h.choose_spec
  obtain ⟨ve, he⟩ := val .Ez
  obtain ⟨vx, hx⟩ := val .Hx
  obtain ⟨vy, hy⟩ := val .Hy
  refine ⟨⟨t, ve, fun x => if x = "Hx" then vx else vy⟩, rfl, fun i h0 h1 => he i h0 h1 (Or.inl rfl), fun x hx' hxe i h0 h1 => ?_⟩
  simp only [surfReads]
  by_cases c1 : x = "Hx"
  · simp only [c1, if_true]; exact hx i h0 h1 (by simp)
  · have c2 : x = "Hy" := by
      have : x = "Ez" ∨ x = "Hx" ∨ x = "Hy" := by
        cases tag
        case tangent => by_cases h : is.dim.x = 0 <;> simp [surfKeys, h] at hx' <;> tauto
        all_goals simp [surfKeys] at hx'; tauto
      tauto
    subst c2
    simp only [c1, if_false, if_true]; exact hy i h0 h1 (by simp)


/-! ## Boxes inside the domain -/

/-- Every face of a box whose corners are inner nodes finds its readings. -/
theorem box_finds (g : Grid ℝ) (hg : 0 < g.dx) (a b : V2 ℝ) (hx : (g.toGrid a).x < (g.toGrid b).x) (hy : (g.toGrid a).y < (g.toGrid b).y)
    (ha : InnerNode g (g.toGrid a)) (hb : InnerNode g (g.toGrid b)) (tag : DftTag) (nx ny : ℕ)
    (hnx : (g.toGrid b).x - (g.toGrid a).x = nx) (hny : (g.toGrid b).y - (g.toGrid a).y = ny) (q : Flds ℝ × ℝ) (hf : FieldDims g q.1)
    (f : Fin 4) (s : Surf ℝ) (is : ISurf) (hs : Surf.make (boxFace a b f).1 (boxFace a b f).2.1 (boxFace a b f).2.2 = .ok s)
    (hi : g.toGridS s = .ok is) : ∃ r, Finds (faceCount nx ny f) (surfKeys tag is) (surfReads g s is q) r := by
  have hc : cells g (boxFace a b f).1 (boxFace a b f).2.1 = faceCount nx ny f := by
    simp only [Grid.toGrid, roundI_real] at hnx hny
    fin_cases f <;> simp [cells, boxFace, faceCount, Grid.toGrid] <;> omega
  have hne : g.toGrid (boxFace a b f).1 ≠ g.toGrid (boxFace a b f).2.1 := by
    intro e
    have e1 := congrArg V2.x e
    have e2 := congrArg V2.y e
    simp only [Grid.toGrid, roundI_real] at hx hy e1 e2
    fin_cases f <;> simp [boxFace] at e1 e2 <;> omega
  have h1 : InnerNode g (g.toGrid (boxFace a b f).1) := by
    obtain ⟨a1, a2, a3, a4⟩ := ha
    obtain ⟨b1, b2, b3, b4⟩ := hb
    fin_cases f <;> refine ⟨?_, ?_, ?_, ?_⟩ <;> assumption
  have h2 : InnerNode g (g.toGrid (boxFace a b f).2.1) := by
    obtain ⟨a1, a2, a3, a4⟩ := ha
    obtain ⟨b1, b2, b3, b4⟩ := hb
    fin_cases f <;> refine ⟨?_, ?_, ?_, ?_⟩ <;> assumption
  rw [← hc]
  exact C14_surface_monitor g hg q.1 hf _ _ _ s hs hne h1 h2 is hi tag q.2

/-- **C41**: a box monitor with corners at inner nodes, after any history of spatially uniform fields: no net flux. -/
theorem C41_uniform_box (g : Grid ℝ) (hg : 0 < g.dx) (name : String) (a b : V2 ℝ) (hx : (g.toGrid a).x < (g.toGrid b).x)
    (hy : (g.toGrid a).y < (g.toGrid b).y) (ha : InnerNode g (g.toGrid a)) (hb : InnerNode g (g.toGrid b))
    (tag : DftTag) (ht : tag = .all ∨ tag = .tangent) (freq : List ℝ) (l : List (Flds ℝ × ℝ)) (hf : ∀ q ∈ l, FieldDims g q.1)
    (hu : ∀ q ∈ l, UniformFlds q.1) :
    ∃ m0 m1 m S, BoxMon.make name (Vol.make a b) tag freq = .ok m0 ∧ m0.setF g = .ok m1 ∧ boxRuns g l m1 = .ok m ∧ m.flux g = .ok S ∧
      ∀ j < freq.length, S j = 0 := by
  obtain ⟨nx, hnx⟩ := Int.eq_ofNat_of_zero_le (by omega : 0 ≤ (g.toGrid b).x - (g.toGrid a).x)
  obtain ⟨ny, hny⟩ := Int.eq_ofNat_of_zero_le (by omega : 0 ≤ (g.toGrid b).y - (g.toGrid a).y)
  exact C41_uniform_history g hg name a b hx hy tag ht freq l hu nx ny hnx hny
    fun f s is hs hi q hq => box_finds g hg a b hx hy ha hb tag nx ny hnx hny q (hf q hq) f s is hs hi

/-- **C42**: likewise no net force; no torque if the box is a whole number of cells wide and high. -/
theorem C42_uniform_box_partial (g : Grid ℝ) (hg : 0 < g.dx) (name : String) (a b : V2 ℝ) (hx : (g.toGrid a).x < (g.toGrid b).x)
    (hy : (g.toGrid a).y < (g.toGrid b).y) (ha : InnerNode g (g.toGrid a)) (hb : InnerNode g (g.toGrid b))
    (freq : List ℝ) (l : List (Flds ℝ × ℝ)) (hf : ∀ q ∈ l, FieldDims g q.1) (hu : ∀ q ∈ l, UniformFlds q.1) :
    ∃ m0 m1 m S T, BoxMon.make name (Vol.make a b) .all freq = .ok m0 ∧ m0.setF g = .ok m1 ∧ boxRuns g l m1 = .ok m ∧ m.force g = .ok S ∧
      m.torque g = .ok T ∧ (∀ j < freq.length, S j = ⟨0, 0⟩) ∧
      (b.x - a.x = ((g.toGrid b).x - (g.toGrid a).x) * g.dx → b.y - a.y = ((g.toGrid b).y - (g.toGrid a).y) * g.dx →
        ∀ j < freq.length, T j = 0) := by
  obtain ⟨nx, hnx⟩ := Int.eq_ofNat_of_zero_le (by omega : 0 ≤ (g.toGrid b).x - (g.toGrid a).x)
  obtain ⟨ny, hny⟩ := Int.eq_ofNat_of_zero_le (by omega : 0 ≤ (g.toGrid b).y - (g.toGrid a).y)
  obtain ⟨m0, m1, m, S, T, h1, h2, h3, h4, h5, h6, h7⟩ := C42_uniform_history_partial g hg name a b hx hy freq l hu nx ny hnx hny
    fun f s is hs hi q hq => box_finds g hg a b hx hy ha hb .all nx ny hnx hny q (hf q hq) f s is hs hi
  refine ⟨m0, m1, m, S, T, h1, h2, h3, h4, h5, h6, fun e1 e2 => h7 ?_ ?_⟩
  · rw [e1]; congr 1; exact_mod_cast hnx
  · rw [e2]; congr 1; exact_mod_cast hny

/-! ## A torque out of nothing -/

/-- The field `Ez = 1`, `Hx = Hy = 0` on the grid `unitGrid`. -/
noncomputable def oneFlds : Flds ℝ := { rampFlds with Ez := ⟨20, 20, fun _ _ => 1⟩, Hx := ⟨20, 20, fun _ _ => 0⟩, Hy := ⟨20, 20, fun _ _ => 0⟩ }

theorem oneFlds_dims : FieldDims unitGrid oneFlds := ⟨⟨rfl, rfl⟩, ⟨rfl, rfl⟩, rfl, rfl⟩

theorem oneFlds_uniform : UniformFlds oneFlds := ⟨1, 0, 0, fun _ _ _ => rfl, fun _ _ _ => rfl, fun _ _ _ => rfl⟩

theorem unitGrid_five : unitGrid.toGrid (⟨5, 5⟩ : V2 ℝ) = ⟨5, 5⟩ := by
  have : roundAway (5 / unitGrid.dx) = 5 := by
    have := roundAway_int 5
    simpa [unitGrid] using this
  simp [Grid.toGrid, this]

theorem unitGrid_seven : unitGrid.toGrid (⟨37 / 5, 37 / 5⟩ : V2 ℝ) = ⟨7, 7⟩ := by
  have : roundAway (37 / 5 / unitGrid.dx) = 7 := roundAway_eq_of_abs_lt (by simp [unitGrid]; norm_num [abs_lt])
  simp [Grid.toGrid, this]

/-- the hypotheses of `C41_uniform_box` and `C42_uniform_box_partial` are met by a box of two by two cells -/
example : InnerNode unitGrid (unitGrid.toGrid ⟨5, 5⟩) ∧ InnerNode unitGrid (unitGrid.toGrid ⟨37 / 5, 37 / 5⟩) ∧
    (unitGrid.toGrid (⟨5, 5⟩ : V2 ℝ)).x < (unitGrid.toGrid (⟨37 / 5, 37 / 5⟩ : V2 ℝ)).x ∧ 0 < unitGrid.dx ∧ FieldDims unitGrid oneFlds ∧ UniformFlds oneFlds := by
  rw [unitGrid_five, unitGrid_seven]
  refine ⟨?_, ?_, by norm_num, by simp [unitGrid], oneFlds_dims, oneFlds_uniform⟩ <;> norm_num [InnerNode, unitGrid]

/-- **C42 is false** for boxes that are not a whole number of cells wide: a uniform field exerts a torque on the box from
`(5, 5)` to `(7.4, 7.4)` on a grid of spacing 1. -/
theorem C42_uniform_torque_false : ∃ m0 m1 m T, BoxMon.make "box" (Vol.make ⟨5, 5⟩ ⟨37 / 5, 37 / 5⟩) .all [0] = .ok m0 ∧ m0.setF unitGrid = .ok m1 ∧
    boxRuns unitGrid [(oneFlds, 1)] m1 = .ok m ∧ m.torque unitGrid = .ok T ∧ T 0 = - (1 / 5) := by
  have hx : (unitGrid.toGrid (⟨5, 5⟩ : V2 ℝ)).x < (unitGrid.toGrid (⟨37 / 5, 37 / 5⟩ : V2 ℝ)).x := by rw [unitGrid_five, unitGrid_seven]; norm_num
  have hy : (unitGrid.toGrid (⟨5, 5⟩ : V2 ℝ)).y < (unitGrid.toGrid (⟨37 / 5, 37 / 5⟩ : V2 ℝ)).y := by rw [unitGrid_five, unitGrid_seven]; norm_num
  have hnx : (unitGrid.toGrid (⟨37 / 5, 37 / 5⟩ : V2 ℝ)).x - (unitGrid.toGrid (⟨5, 5⟩ : V2 ℝ)).x = (2 : ℕ) := by rw [unitGrid_five, unitGrid_seven]; norm_num
  have hny : (unitGrid.toGrid (⟨37 / 5, 37 / 5⟩ : V2 ℝ)).y - (unitGrid.toGrid (⟨5, 5⟩ : V2 ℝ)).y = (2 : ℕ) := by rw [unitGrid_five, unitGrid_seven]; norm_num
  have ha : InnerNode unitGrid (unitGrid.toGrid ⟨5, 5⟩) := by rw [unitGrid_five]; norm_num [InnerNode, unitGrid]
  have hb : InnerNode unitGrid (unitGrid.toGrid ⟨37 / 5, 37 / 5⟩) := by rw [unitGrid_seven]; norm_num [InnerNode, unitGrid]
  obtain ⟨m0, m1, m, h1, h2, h3, -, -, -, h4⟩ := box_recorded unitGrid "box" ⟨5, 5⟩ ⟨37 / 5, 37 / 5⟩ hx hy .all (Or.inl rfl) [0] [(oneFlds, 1)]
    (fun _ => [uniformSnap 1 0 0 1]) 2 2 hnx hny (fun f s is hs hi => .cons (by
      obtain ⟨r, hr⟩ := box_finds unitGrid (by simp [unitGrid]) _ _ hx hy ha hb .all 2 2 hnx hny (oneFlds, 1) oneFlds_dims f s is hs hi
      exact uniform_finds unitGrid s is _ _ (oneFlds, 1) r 1 0 0 (fun _ _ _ => rfl) (fun _ _ _ => rfl) (fun _ _ _ => rfl) hr) .nil)
  have e : (fun (_ : Fin 4) => lineField [0] (averaged 0 (fun _ => 0) [uniformSnap 1 0 0 1])) = fun _ _ _ => (⟨1 / 2, 0, 0⟩ : TM) := by
    funext _ i j
    have : ([0] : List ℝ).getD j 0 = 0 := by cases j <;> simp [List.getD]
    unfold lineField
    rw [this]
    simp [phasors, fourierSum, averaged, uniformSnap]
  have h4 := h4 rfl
  rw [e] at h4
  obtain ⟨T, k1, k2⟩ := C42_uniform_torque unitGrid m _ _ (by norm_num) (by norm_num) 2 2 _ (fun _ => ⟨1 / 2, 0, 0⟩) h4
  refine ⟨m0, m1, m, T, h1, h2, h3, k1, ?_⟩
  have := k2 0 (by simp)
  simp only [Nat.cast_zero] at this
  rw [this]
  simp [TM.stress, TM.E, TM.H, Fin.sum_univ_three, unitGrid]
  norm_num

end Qbox.Props
