import Verif.Lemmas.WindowMake
import Verif.Lemmas.Layer
import Verif.Props.EnergyProps

/-!
# C77: the unit of length; C78: the place of the scene and the size of the domain

C77: a program whose lengths and times are all multiplied by one factor, and whose frequencies and conductivities are divided by it,
computes the same numbers.  This holds in a closed domain, and with an absorbing layer until the waves have been in the layer; it does
not hold in the layer, because `a_max = 0.2` (`include/pml.h`) has a unit.

C78: moving everything by whole cells, in a domain of another size with a layer of another thickness, does not change the
fields before the waves come back from an edge.
-/

namespace Qbox.Props
open Qbox Scalar Spec

/-! ## What the user changes -/

section Same
variable {v : View}

/-- Frequency, width and delay of a pulse. -/
theorem sameSignal_gaussian (hs : v.s ≠ 0) (f sig T0 : ℝ) :
    v.SameSignal (TimeProfile.gaussian f sig T0).resp (TimeProfile.gaussian (f / v.s) (sig / v.s) (v.s * T0)).resp := by
  intro t
  show gaussianResp _ _ _ _ = gaussianResp _ _ _ _
  unfold gaussianResp
  rw [show ofInt 2 * Scalar.pi * (f / v.s) * (v.s * t) = ofInt 2 * Scalar.pi * f * t by field_simp,
    show (v.s * t - v.s * T0) * (sig / v.s) * ofInt 2 * Scalar.pi = (t - T0) * sig * ofInt 2 * Scalar.pi by field_simp]

theorem sameSignal_continuous (hs : v.s ≠ 0) (f : ℝ) :
    v.SameSignal (TimeProfile.continuous f).resp (TimeProfile.continuous (f / v.s)).resp := by
  intro t
  show Scalar.sin _ = Scalar.sin _
  rw [show ofInt 2 * Scalar.pi * (f / v.s) * (v.s * t) = ofInt 2 * Scalar.pi * f * t by field_simp]

theorem inside_point (o o' : Object ℝ) (dx : ℝ) (hp : o'.pos = v.point dx o.pos) (ht : o'.theta = o.theta)
    (h : ∀ x y, o'.geom.inside ⟨v.s * x, v.s * y⟩ = o.geom.inside ⟨x, y⟩) (p : V2 ℝ) : o'.inside (v.point dx p) = o.inside p := by
  rw [inside_pullback, inside_pullback, hp, ht, ← h]
  congr 1
  simp only [View.point, V2.mk.injEq]
  constructor <;> ring

theorem sameObj_cylinder (hs : 0 < v.s) (dx r θ : ℝ) (n n' : String) (m m' : Material ℝ) (pos : V2 ℝ) (hn : m'.name = m.name)
    (hk : m'.kind = v.kind m.kind) : v.SameObj dx ⟨n, .cylinder r, m, pos, θ⟩ ⟨n', .cylinder (v.s * r), m', v.point dx pos, θ⟩ :=
  ⟨hn, hk, inside_point _ _ dx rfl rfl fun x y => by
    simp only [Geometry.cylinder, V2.sqNorm, ltb_real, npow_real]
    apply decide_eq_decide.mpr
    have := mul_pos hs hs
    constructor <;> intro h
    · by_contra hc; push Not at hc; nlinarith [mul_le_mul_of_nonneg_left hc this.le]
    · nlinarith [mul_lt_mul_of_pos_left h this]⟩

theorem sameObj_block (hs : 0 < v.s) (dx θ : ℝ) (dim : V2 ℝ) (n n' : String) (m m' : Material ℝ) (pos : V2 ℝ) (hn : m'.name = m.name)
    (hk : m'.kind = v.kind m.kind) :
    v.SameObj dx ⟨n, .block dim, m, pos, θ⟩ ⟨n', .block ⟨v.s * dim.x, v.s * dim.y⟩, m', v.point dx pos, θ⟩ :=
  ⟨hn, hk, inside_point _ _ dx rfl rfl fun x y => by
    have key : ∀ a b : ℝ, decide (0 < |v.s * a| - v.s * b / 2) = decide (0 < |a| - b / 2) := fun a b => by
      apply decide_eq_decide.mpr
      rw [abs_mul, abs_of_pos hs, show v.s * |a| - v.s * b / 2 = v.s * (|a| - b / 2) by ring, mul_pos_iff_of_pos_left hs]
    simp only [Geometry.block, V2.cabs, ltb_real, V2.sub_x, V2.sub_y, V2.sdiv_x, V2.sdiv_y, absS_real, ofInt_real]
    push_cast
    rw [key, key]⟩

theorem sameObj_ellipse (hs : v.s ≠ 0) (dx rx ry θ : ℝ) (n n' : String) (m m' : Material ℝ) (pos : V2 ℝ) (hn : m'.name = m.name)
    (hk : m'.kind = v.kind m.kind) :
    v.SameObj dx ⟨n, .ellipse rx ry, m, pos, θ⟩ ⟨n', .ellipse (v.s * rx) (v.s * ry), m', v.point dx pos, θ⟩ :=
  ⟨hn, hk, inside_point _ _ dx rfl rfl fun x y => by
    simp only [Geometry.ellipse, mul_div_mul_left _ _ hs]⟩

theorem roundAway_add {x : ℝ} {a : ℤ} (h : a = 0 ∨ (0 ≤ x ∧ 0 ≤ x + a)) : roundAway (x + a) = roundAway x + a := by
  rcases h with rfl | ⟨h1, h2⟩
  · simp
  · unfold roundAway
    rw [if_pos h1, if_pos h2, show x + a + 1 / 2 = x + 1 / 2 + a by ring, Int.floor_add_intCast]

/-- The node of a place; moved places must not be left of or below the domain. -/
theorem toGrid_view {g g' : Grid ℝ} (hs : 0 < v.s) (hl : Lawful g) (hx : g'.dx = v.s * g.dx) (p : V2 ℝ)
    (h1 : v.a = 0 ∨ (0 ≤ p.x ∧ 0 ≤ p.x + g.dx * v.a)) (h2 : v.b = 0 ∨ (0 ≤ p.y ∧ 0 ≤ p.y + g.dx * v.b)) :
    g'.toGrid (v.point g.dx p) = ⟨(g.toGrid p).x + v.a, (g.toGrid p).y + v.b⟩ := by
  have hd := hl.dx
  have key : ∀ (x : ℝ) (a : ℤ), (a = 0 ∨ (0 ≤ x ∧ 0 ≤ x + g.dx * a)) → roundAway (v.s * (x + g.dx * a) / (v.s * g.dx)) = roundAway (x / g.dx) + a := by
    intro x a h
    rw [show v.s * (x + g.dx * a) / (v.s * g.dx) = x / g.dx + a by field_simp]
    apply roundAway_add
    rcases h with h | ⟨h3, h4⟩
    · exact .inl h
    · refine .inr ⟨by positivity, ?_⟩
      rw [show x / g.dx + a = (x + g.dx * a) / g.dx by field_simp]
      positivity
  simp only [Grid.toGrid, View.point, hx, V2.mk.injEq]
  exact ⟨key _ _ h1, key _ _ h2⟩

theorem sameSource_point {g g' : Grid ℝ} (hs : 0 < v.s) (hl : Lawful g) (hx : g'.dx = v.s * g.dx) (C : Fields) (p : V2 ℝ)
    (h1 : v.a = 0 ∨ (0 ≤ p.x ∧ 0 ≤ p.x + g.dx * v.a)) (h2 : v.b = 0 ∨ (0 ≤ p.y ∧ 0 ≤ p.y + g.dx * v.b)) (n n' : String)
    {tp tp' : TimeProfile ℝ} (ht : v.SameSignal tp.resp tp'.resp) :
    v.SameSource g g' ⟨n, .point C p, tp⟩ ⟨n', .point C (v.point g.dx p), tp'⟩ := by
  refine ⟨fun C' i j => ?_, ht⟩
  simp only [Drives]
  rw [toGrid_view hs hl hx p h1 h2]
  simp only [V2.ext_iff, add_left_inj]

theorem sameSource_line {g g' : Grid ℝ} (hs : 0 < v.s) (hl : Lawful g) (hx : g'.dx = v.s * g.dx) (C : Fields) {u u' : Surf ℝ}
    (ha : u'.a = v.point g.dx u.a) (hb : u'.b = v.point g.dx u.b)
    (h1 : v.a = 0 ∨ (0 ≤ u.a.x ∧ 0 ≤ u.a.x + g.dx * v.a)) (h2 : v.b = 0 ∨ (0 ≤ u.a.y ∧ 0 ≤ u.a.y + g.dx * v.b))
    (h3 : v.a = 0 ∨ (0 ≤ u.b.x ∧ 0 ≤ u.b.x + g.dx * v.a)) (h4 : v.b = 0 ∨ (0 ≤ u.b.y ∧ 0 ≤ u.b.y + g.dx * v.b)) (n n' : String)
    {tp tp' : TimeProfile ℝ} (ht : v.SameSignal tp.resp tp'.resp) :
    v.SameSource g g' ⟨n, .line C u, tp⟩ ⟨n', .line C u', tp'⟩ := by
  refine ⟨fun C' i j => ?_, ht⟩
  simp only [Drives]
  rw [ha, hb, toGrid_view hs hl hx u.a h1 h2, toGrid_view hs hl hx u.b h3 h4]
  unfold OnSeg
  simp only [ne_eq, V2.ext_iff, add_left_inj, min_add_add_right, max_add_add_right, add_le_add_iff_right]

/-- The same number of cells. -/
theorem scaled_grid (Lx Ly res : ℝ) (pml : ℤ) (hr : 0 < res) {s : ℝ} (hs : 0 < s) :
    (Grid.make (s * Lx) (s * Ly) (res / s) pml).Nx = (Grid.make Lx Ly res pml).Nx ∧
    (Grid.make (s * Lx) (s * Ly) (res / s) pml).Ny = (Grid.make Lx Ly res pml).Ny ∧
    (Grid.make (s * Lx) (s * Ly) (res / s) pml).T = (Grid.make Lx Ly res pml).T ∧
    (Grid.make (s * Lx) (s * Ly) (res / s) pml).dx = s * (Grid.make Lx Ly res pml).dx := by
  simp only [Grid.make]
  refine ⟨?_, ?_, trivial, ?_⟩
  · rw [show s * Lx * (res / s) = Lx * res by field_simp]
  · rw [show s * Ly * (res / s) = Ly * res by field_simp]
  · field_simp
end Same

/-! ## C77 -/

/-- Multiply lengths and times by `s`. -/
noncomputable def unit (s : ℝ) : View := ⟨s, 0, 0⟩

/-- C77 as stated: in another unit of length the fields are the same at every node, after any number of updates. -/
def C77_statement : Prop := ∀ (s Lx Ly res : ℝ) (pml : ℤ) (S S' : Scene) (n : ℕ), 0 < s → 0 < res →
  (Grid.make Lx Ly res pml).Wide → (pml = -1 ∨ 1 ≤ pml) → S.Fits (Grid.make Lx Ly res pml) →
  S'.Fits (Grid.make (s * Lx) (s * Ly) (res / s) pml) →
  (unit s).SameScene (Grid.make Lx Ly res pml) (Grid.make (s * Lx) (s * Ly) (res / s) pml) S S' →
  ∃ c d, S.run (Grid.make Lx Ly res pml) n = .ok c ∧ S'.run (Grid.make (s * Lx) (s * Ly) (res / s) pml) n = .ok d ∧
    (unit s).SameFields (Node (Grid.make Lx Ly res pml)) (Node (Grid.make Lx Ly res pml)) c d

section
variable {s Lx Ly res : ℝ} {pml : ℤ}

theorem scaled_wide (hr : 0 < res) (hs : 0 < s) (h : (Grid.make Lx Ly res pml).Wide) : (Grid.make (s * Lx) (s * Ly) (res / s) pml).Wide := by
  obtain ⟨e1, e2, e3, -⟩ := scaled_grid Lx Ly res pml hr hs
  exact ⟨by rw [e1, e3]; exact h.nx, by rw [e2, e3]; exact h.ny⟩

theorem make_thick (hp : pml = -1 ∨ 1 ≤ pml) : (Grid.make Lx Ly res pml).T = 0 ∨ 2 ≤ (Grid.make Lx Ly res pml).T := by
  show pml + 1 = 0 ∨ 2 ≤ pml + 1
  omega

/-- C77 in a closed domain: any objects, media, sources and incident wave, any number of updates, every node. -/
theorem C77_closed (hs : 0 < s) (hr : 0 < res) (hg : (Grid.make Lx Ly res (-1)).Wide) {S S' : Scene} (f : S.Fits (Grid.make Lx Ly res (-1)))
    (f' : S'.Fits (Grid.make (s * Lx) (s * Ly) (res / s) (-1)))
    (h : (unit s).SameScene (Grid.make Lx Ly res (-1)) (Grid.make (s * Lx) (s * Ly) (res / s) (-1)) S S') (n : ℕ) :
    ∃ c d, S.run (Grid.make Lx Ly res (-1)) n = .ok c ∧ S'.run (Grid.make (s * Lx) (s * Ly) (res / s) (-1)) n = .ok d ∧
      (unit s).SameFields (Node (Grid.make Lx Ly res (-1))) (Node (Grid.make Lx Ly res (-1))) c d := by
  obtain ⟨e1, e2, e3, e4⟩ := scaled_grid Lx Ly res (-1) hr hs
  have hn : ∀ i j, Node (Grid.make Lx Ly res (-1)) i j →
      Node (Grid.make Lx Ly res (-1)) i j ∧ Node (Grid.make (s * Lx) (s * Ly) (res / s) (-1)) (i + (unit s).a) (j + (unit s).b) := by
    intro i j hi
    refine ⟨hi, ?_⟩
    unfold Node at hi ⊢
    rw [e1, e2]
    simpa only [unit, add_zero] using hi
  exact View.run_view (v := unit s) (ne_of_gt hs) hg (scaled_wide hr hs hg) (lawful_make _ _ _ _ hr) (lawful_make _ _ _ _ (div_pos hr hs))
    (make_thick (.inl rfl)) (make_thick (.inl rfl)) e4 f f' h (fun _ => Node (Grid.make Lx Ly res (-1))) (fun _ => Node (Grid.make Lx Ly res (-1)))
    (fun _ => View.shrinks_all _ _ e1 e2 rfl rfl rfl rfl) hn hn n

/-- C77 with a layer: the fields agree at the nodes that waves from the layer have not reached. -/
theorem C77_partial (hs : 0 < s) (hr : 0 < res) (hp : pml = -1 ∨ 1 ≤ pml) (hg : (Grid.make Lx Ly res pml).Wide) {S S' : Scene}
    (f : S.Fits (Grid.make Lx Ly res pml)) (f' : S'.Fits (Grid.make (s * Lx) (s * Ly) (res / s) pml))
    (h : (unit s).SameScene (Grid.make Lx Ly res pml) (Grid.make (s * Lx) (s * Ly) (res / s) pml) S S') (n : ℕ) :
    ∃ c d, S.run (Grid.make Lx Ly res pml) n = .ok c ∧ S'.run (Grid.make (s * Lx) (s * Ly) (res / s) pml) n = .ok d ∧
      (unit s).SameFields (InnerE (Grid.make Lx Ly res pml) n) (InnerH (Grid.make Lx Ly res pml) n) c d := by
  obtain ⟨e1, e2, e3, e4⟩ := scaled_grid Lx Ly res pml hr hs
  have hT : 0 ≤ (Grid.make Lx Ly res pml).T := by have := make_thick (Lx := Lx) (Ly := Ly) (res := res) hp; omega
  obtain ⟨c, d, a1, a2, a3⟩ := View.run_view (v := unit s) (ne_of_gt hs) hg (scaled_wide hr hs hg) (lawful_make _ _ _ _ hr)
    (lawful_make _ _ _ _ (div_pos hr hs)) (make_thick hp) (make_thick hp) e4 f f' h _ _ (fun r => View.shrinks_inner _ _ hT (by rw [e3]; exact hT) r)
    (by intro i j; simp only [InnerE, Node]; push_cast; omega) (by intro i j; simp only [InnerH, Node]; push_cast; omega) n
  refine ⟨c, d, a1, a2, a3.tStep, a3.t, fun i j hi => a3.Ez i j ⟨hi, ?_⟩, fun i j hi => a3.Hx i j ⟨hi, ?_⟩, fun i j hi => a3.Hy i j ⟨hi, ?_⟩⟩
  all_goals (first | unfold InnerE at hi ⊢ | unfold InnerH at hi ⊢)
  all_goals (rw [e1, e2, e3]; simpa only [unit, add_zero] using hi)
end

/-! ## C77 is false with a layer -/

/-- A source that switches on at once. -/
noncomputable def onSource (p : V2 ℝ) : Source ℝ := ⟨"on", .point .Ez p, ⟨fun _ => 1, none, []⟩⟩

/-- `Hy` beside a source at the inner edge of the layer, after one update. -/
theorem layer_hit {g : Grid ℝ} (hg : g.Wide) (hl : Lawful g) (hT : 2 ≤ g.T) (hN : 2 * g.T < g.Nx) {p : V2 ℝ} {j : ℤ} (hp : g.toGrid p = ⟨g.T, j⟩) (h1 : 1 ≤ j)
    (h2 : j < g.Ny - 1) : ∃ c, (Scene.mk [] [onSource p] none).run g 1 = .ok c ∧
      c.f.Hy.val (g.T - 1) j = 1 / 2 + (PmlPar.default g).cF ((g.T : ℝ) - 1 / 2) / 2 := by
  obtain ⟨c, hm, hs, rfl, z⟩ := make_silent hg hl (.inr hT)
  obtain ⟨v1, v2, v3, v4, -, -⟩ := View.make_vals hm
  obtain ⟨n1, n2, n3⟩ := Core.make_no_pol hm
  have hx := hg.nx
  have hf : ∀ k ∈ [onSource p], Fits c.g k := by
    intro k hk
    simp only [List.mem_singleton] at hk
    subst hk
    refine ⟨by simp [Fields.IsComp], ?_⟩
    rw [hp]; unfold InGrid; simp only; omega
  obtain ⟨c', l', E2, E3, E4, f, hu, st⟩ := Core.update_step hs [onSource p] hf
  refine ⟨c', ?_, ?_⟩
  · unfold Scene.run
    rw [hm]
    simp only [Except.ok_bind]
    show (do let c ← Except.ok c; let r ← Core.run 1 c [onSource p]; pure r.1 : M (Core ℝ)) = _
    simp only [Except.ok_bind]
    have : Core.run 1 c [onSource p] = .ok (c', l') := by
      show (do let (c, l) ← c.update [onSource p]; Core.run 0 c l : M _) = _
      rw [hu]; rfl
    rw [this]; rfl
  have b1 := st.hd; rw [n1] at b1
  obtain rfl := (Prod.mk.inj (Except.ok.inj b1)).2
  have b2 := st.hr; rw [n2] at b2
  obtain rfl := (Prod.mk.inj (Except.ok.inj b2)).2
  have b3 := st.hl; rw [n3] at b3
  obtain rfl := (Prod.mk.inj (Except.ok.inj b3)).2
  have e4 : ∀ x y, c.E1.val x y = 0 := by
    intro x y
    simp only [Core.E1, Tensor.setv_val, Tensor.upd_val, ezVal, Pml.corrE, pEy1, pEy2, pEx1, pEx2, v1, v2, v3, z.Ezx1 _ _, z.Ezx2 _ _, z.Ezy1 _ _, z.Ezy2 _ _]
    simp
  have tf0 : c.tfsf = none := z.tfsf
  have tf1 : c'.tfsf = none := by have := st.tf; rw [tf0] at this; exact (Except.ok.inj this).symm
  have dr : ∀ C x y, Drives c.g (onSource p) C ⟨x, y⟩ ↔ C = .Ez ∧ x = c.g.T ∧ y = j := by
    intro C x y
    simp only [onSource, Drives, hp, V2.mk.injEq]
  have fE : ∀ x y, f.Ez.val x y = if x = c.g.T ∧ y = j then 1 else 0 := by
    intro x y
    rw [st.fE, e4, tf0]
    simp only [tfEz, totalContrib, List.map_cons, List.map_nil, List.sum_cons, List.sum_nil, contrib, dr]
    simp [onSource]
  have fY : ∀ x y, f.Hy.val x y = 0 := by
    intro x y
    rw [st.fY, v3]
    simp [totalContrib, contrib, dr]
  have hnode : Node c.g (c.g.T - 1) j := by unfold Node; omega
  obtain ⟨-, -, k1, k2⟩ := v4 _ _ hnode
  have k2' : f.Db.val (c.g.T - 1) j = c.g.dt := by rw [← k2, st.coef.2.2.2]
  have hpar := hs.par
  have pT : c.pml.par.T = c.g.T := by rw [hpar]; rfl
  have m1 : (c.g.T - 1, j) ∈ rect 1 (c.g.Nx - 1) 1 (c.g.Ny - 1) := by rw [mem_rect]; simp only; omega
  have m2 : (c.g.T - 1, j) ∈ rect 1 ((c.pml.afterE c.f.Hx c.f.Hy).par.T - 1 + 1) 1 ((c.pml.afterE c.f.Hx c.f.Hy).Ny - 1) := by
    simp only [Pml.afterE]
    rw [mem_rect, hs.wf.pml.ny, pT]; simp only; omega
  have m3 : ¬ ((c.pml.afterE c.f.Hx c.f.Hy).Nx - 1 - (c.g.T - 1) - 1, j) ∈
      rect 1 ((c.pml.afterE c.f.Hx c.f.Hy).par.T - 1 + 1) 1 ((c.pml.afterE c.f.Hx c.f.Hy).Ny - 1) := by
    simp only [Pml.afterE]
    rw [mem_rect, hs.wf.pml.nx, pT]; simp only; omega
  have hc := hs.co.ch_x (c.g.T - 1) (by omega) (by rw [pT]; omega)
  have hpsi : c.pml.psi.Hyx1.val (c.g.T - 1) j = 0 := z.Hyx1 _ _
  rw [st.eY, tf1, Tensor.upd_val, if_pos m1]
  simp only [tfHy, Pml.corrHy]
  rw [if_pos m2, if_neg m3]
  simp only [Pml.afterE]
  simp only [hyVal, pHx1, hpsi, fE, fY, k2', hs.sc.khdx, hc]
  have hdx := hl.dx
  have e1 : c.pml.par.dx = c.g.dx := by rw [hpar]; rfl
  have e2 : ((c.g.T - 1 : ℤ) : ℝ) + 1 / 2 = (c.g.T : ℝ) - 1 / 2 := by push_cast; ring
  rw [e1, e2, hpar, hl.dt]
  simp
  field_simp

/-- The inner edge of the layer in the example grid, 20 cells with spacing 1, and the same with spacing 16. -/
theorem C77_false : ¬ C77_statement := by
  intro h
  have eN : (Grid.make 20 20 1 2 : Grid ℝ) = gEx := rfl
  obtain ⟨e1, e2, e3, e4⟩ := scaled_grid 20 20 1 2 one_pos (s := 16) (by norm_num)
  have l1 := gEx_lawful
  have w1 := gEx_wide
  have w2 := scaled_wide (s := 16) (pml := 2) (Lx := 20) (Ly := 20) (res := 1) one_pos (by norm_num) w1
  have l2 : Lawful (Grid.make (16 * 20) (16 * 20) (1 / 16) 2 : Grid ℝ) := lawful_make _ _ _ _ (by norm_num)
  set g' : Grid ℝ := Grid.make (16 * 20) (16 * 20) (1 / 16) 2 with hg'
  rw [eN] at e1 e2 e3 e4
  have x1 : gEx.dx = 1 := by simp [gEx, Grid.make]
  have x2 : g'.dx = 16 := by rw [e4, x1]; norm_num
  have r3 : roundAway (3 : ℝ) = 3 := by exact_mod_cast roundAway_int 3
  have r10 : roundAway (10 : ℝ) = 10 := by exact_mod_cast roundAway_int 10
  have p1 : gEx.toGrid ⟨3, 10⟩ = ⟨gEx.T, 10⟩ := by
    rw [gEx_T]; simp only [Grid.toGrid, x1, div_one, V2.mk.injEq]; exact ⟨r3, r10⟩
  have p2 : g'.toGrid ⟨48, 160⟩ = ⟨g'.T, 10⟩ := by
    rw [e3, gEx_T]; simp only [Grid.toGrid, x2, V2.mk.injEq]; norm_num; exact ⟨r3, r10⟩
  have fit : ∀ {g : Grid ℝ} {p : V2 ℝ}, g.Nx = 20 → g.Ny = 20 → g.T = 3 → g.toGrid p = ⟨g.T, 10⟩ → (Scene.mk [] [onSource p] none).Fits g := by
    intro g p h1 h2 h3 h4
    refine ⟨by simp, by simp, ?_, by simp⟩
    intro k hk
    simp only [List.mem_singleton] at hk
    subst hk
    refine ⟨by simp [Fields.IsComp], ?_⟩
    rw [h4]; unfold InGrid; rw [h1, h2, h3]; norm_num
  have f1 := fit gEx_Nx gEx_Ny gEx_T p1
  have f2 := fit (e1.trans gEx_Nx) (e2.trans gEx_Ny) (e3.trans gEx_T) p2
  have ss : (unit 16).SameScene gEx g' (Scene.mk [] [onSource ⟨3, 10⟩] none) (Scene.mk [] [onSource ⟨48, 160⟩] none) := by
    refine ⟨.nil, .cons ⟨fun C i j => ?_, fun t => rfl⟩ .nil, .none⟩
    simp only [onSource, Drives, p1, p2, unit, add_zero, e3]
  obtain ⟨c, d, a1, a2, a3⟩ := h 16 20 20 1 2 _ _ 1 (by norm_num) one_pos w1 (.inr (by norm_num)) f1 f2 ss
  obtain ⟨c', b1, b2⟩ := layer_hit w1 l1 (by rw [gEx_T]; norm_num) (by rw [gEx_T, gEx_Nx]; norm_num) p1 (by norm_num) (by rw [gEx_Ny]; norm_num)
  obtain ⟨d', b3, b4⟩ := layer_hit w2 l2 (by rw [e3, gEx_T]; norm_num) (by rw [e3, e1, gEx_T, gEx_Nx]; norm_num) p2 (by norm_num)
    (by rw [e2, gEx_Ny]; norm_num)
  rw [eN, b1] at a1
  rw [b3] at a2
  cases a1
  cases a2
  have key := a3.Hy (gEx.T - 1) 10 (by rw [eN]; unfold Node; rw [gEx_T, gEx_Nx, gEx_Ny]; norm_num)
  simp only [unit, add_zero, one_mul] at key
  rw [e3] at b4
  rw [b4, b2] at key
  have key : (PmlPar.default g').cF ((gEx.T : ℝ) - 1 / 2) = (PmlPar.default gEx).cF ((gEx.T : ℝ) - 1 / 2) := by linarith
  rw [cF_default, cF_default, bF_default, bF_default, sigF_default, sigF_default, aF_default, aF_default, l1.dt, l2.dt, e3, x1, x2, gEx_T] at key
  norm_num at key
  have u1 : Real.exp (-(1 / 10)) ≤ 10 / 11 := by
    rw [Real.exp_neg]
    have := Real.add_one_le_exp (1 / 10 : ℝ)
    rw [inv_le_comm₀ (Real.exp_pos _) (by norm_num)]
    linarith
  have u2 := Real.exp_pos (-(49 / 40))
  nlinarith [u1, u2, key]

/-! ## C78 -/

/-- C78: two grids with the same spacing (up to the unit), of any sizes and with layers of any thickness, the same scene moved by whole
cells.  After `n` updates the fields agree at the nodes that are more than `n` cells inside the layers of both grids. -/
theorem C78_window {v : View} (hs : 0 < v.s) {g g' : Grid ℝ} (hg : g.Wide) (hg' : g'.Wide) (hl : Lawful g) (hl' : Lawful g')
    (hT : g.T = 0 ∨ 2 ≤ g.T) (hT' : g'.T = 0 ∨ 2 ≤ g'.T) (hx : g'.dx = v.s * g.dx) {S S' : Scene} (f : S.Fits g) (f' : S'.Fits g')
    (h : v.SameScene g g' S S') (n : ℕ) :
    ∃ c d, S.run g n = .ok c ∧ S'.run g' n = .ok d ∧
      v.SameFields (fun i j => InnerE g n i j ∧ InnerE g' n (i + v.a) (j + v.b)) (fun i j => InnerH g n i j ∧ InnerH g' n (i + v.a) (j + v.b)) c d :=
  View.run_view (ne_of_gt hs) hg hg' hl hl' hT hT' hx f f' h (fun r i j => InnerE g r i j ∧ InnerE g' r (i + v.a) (j + v.b))
    (fun r i j => InnerH g r i j ∧ InnerH g' r (i + v.a) (j + v.b)) (fun r => View.shrinks_inner g g' (by omega) (by omega) r)
    (by intro i j; simp only [InnerE, Node]; push_cast; omega) (by intro i j; simp only [InnerH, Node]; push_cast; omega) n

theorem sameObj_refl (dx : ℝ) (o : Object ℝ) : (⟨1, 0, 0⟩ : View).SameObj dx o o := by
  refine ⟨rfl, ?_, fun p => ?_⟩
  · cases o.mat.kind <;> simp [View.kind, View.simple, View.debye, View.drude, View.lorentz]
  · simp [View.point]

/-- C78 for one program text: only the size of the domain and the thickness of the layer change. -/
theorem C78_domain (Lx Ly Lx' Ly' res : ℝ) (pml pml' : ℤ) (hr : 0 < res) (hg : (Grid.make Lx Ly res pml).Wide)
    (hg' : (Grid.make Lx' Ly' res pml').Wide) (hp : pml = -1 ∨ 1 ≤ pml) (hp' : pml' = -1 ∨ 1 ≤ pml') {S : Scene}
    (f : S.Fits (Grid.make Lx Ly res pml)) (f' : S.Fits (Grid.make Lx' Ly' res pml')) (n : ℕ) :
    ∃ c d, S.run (Grid.make Lx Ly res pml) n = .ok c ∧ S.run (Grid.make Lx' Ly' res pml') n = .ok d ∧
      (∀ i j, InnerE (Grid.make Lx Ly res pml) n i j → InnerE (Grid.make Lx' Ly' res pml') n i j → d.f.Ez.val i j = c.f.Ez.val i j) ∧
      (∀ i j, InnerH (Grid.make Lx Ly res pml) n i j → InnerH (Grid.make Lx' Ly' res pml') n i j →
        d.f.Hx.val i j = c.f.Hx.val i j ∧ d.f.Hy.val i j = c.f.Hy.val i j) := by
  have e : (Grid.make Lx' Ly' res pml').dx = (1 : ℝ) * (Grid.make Lx Ly res pml).dx := by rw [one_mul]; rfl
  have et : ∀ p, (Grid.make Lx' Ly' res pml').toGrid p = (Grid.make Lx Ly res pml).toGrid p := fun p => rfl
  obtain ⟨c, d, a1, a2, a3⟩ := C78_window (v := ⟨1, 0, 0⟩) one_pos hg hg' (lawful_make _ _ _ _ hr) (lawful_make _ _ _ _ hr) (make_thick hp)
    (make_thick hp') e f f' ⟨List.forall₂_same.mpr fun o _ => sameObj_refl _ o,
      List.forall₂_same.mpr fun k _ => ⟨fun C i j => by simp only [add_zero]; exact Iff.rfl, fun t => by simp⟩, by
        cases S.wave with
        | none => exact .none
        | some w => exact .some ⟨by simp only [add_zero]; exact et _, by simp only [add_zero]; exact et _, fun t => by simp⟩⟩ n
  refine ⟨c, d, a1, a2, fun i j h1 h2 => ?_, fun i j h1 h2 => ⟨?_, ?_⟩⟩
  · simpa using a3.Ez i j ⟨h1, by simpa using h2⟩
  · simpa using a3.Hx i j ⟨h1, by simpa using h2⟩
  · simpa using a3.Hy i j ⟨h1, by simpa using h2⟩

/-! ## Non-trivial cases -/

/-- Two media, one of them a metal, in units of `s`. -/
noncomputable def glassOf (s : ℝ) : Material ℝ := ⟨"glass", .simple ⟨4, 1, 1 / 5 / s⟩⟩
noncomputable def metalOf (s : ℝ) : Material ℝ := ⟨"metal", .drude ⟨2, [⟨1 / s, 1 / 10 / s⟩]⟩⟩

/-- A cylinder of glass beside a turned block of metal, a pulse from a point. -/
noncomputable def glassMetal (v : View) : Scene :=
  ⟨[⟨"c", .cylinder (v.s * 2), glassOf v.s, v.point 1 ⟨8, 12⟩, 0⟩, ⟨"b", .block ⟨v.s * 2, v.s * 1⟩, metalOf v.s, v.point 1 ⟨12, 9⟩, 1⟩],
    [⟨"p", .point .Ez (v.point 1 ⟨10, 6⟩), .gaussian (1 / 10 / v.s) (1 / 50 / v.s) (v.s * 20)⟩], none⟩

theorem glassMetal_fits {g : Grid ℝ} (hl : Lawful g) {v : View} (hs : 0 < v.s) (hx : g.dx = v.s) (ha : 0 ≤ v.a) (hb : 0 ≤ v.b)
    (hX : 15 + v.a ≤ g.Nx) (hY : 15 + v.b ≤ g.Ny) : (glassMetal v).Fits g := by
  have a0 : (0 : ℝ) ≤ v.a := by exact_mod_cast ha
  have b0 : (0 : ℝ) ≤ v.b := by exact_mod_cast hb
  have eX : v.s * (14 + v.a) ≤ g.Lx := by
    rw [hl.Lx, hx]
    apply mul_le_mul_of_nonneg_left _ hs.le
    have : (15 : ℝ) + v.a ≤ g.Nx := by exact_mod_cast hX
    push_cast; linarith
  have sb : 0 ≤ v.s * v.b := mul_nonneg hs.le b0
  have sa : 0 ≤ v.s * v.a := mul_nonneg hs.le a0
  have near : ∀ x r : ℝ, 0 ≤ r → x ^ 2 ≤ r ^ 2 → x ≤ r ∧ -r ≤ x := fun x r hr h => ⟨(abs_le_of_sq_le_sq' h hr).2, (abs_le_of_sq_le_sq' h hr).1⟩
  refine ⟨?_, ?_, ?_, by simp [glassMetal]⟩
  · intro o ho p hp
    simp only [glassMetal, List.mem_cons, List.not_mem_nil, or_false] at ho
    rcases ho with rfl | rfl
    · rw [inside_pullback] at hp
      simp only [Geometry.cylinder, V2.sqNorm, ltb_real, npow_real, decide_eq_true_eq, Real.cos_zero, Real.sin_zero, View.point] at hp
      have h1 := near (p.x - v.s * (8 + 1 * v.a)) (v.s * 2) (by positivity) (by nlinarith [sq_nonneg (p.y - v.s * (12 + 1 * v.b))])
      have h2 := near (p.y - v.s * (12 + 1 * v.b)) (v.s * 2) (by positivity) (by nlinarith [sq_nonneg (p.x - v.s * (8 + 1 * v.a))])
      constructor <;> linarith
    · rw [inside_pullback] at hp
      simp only [Geometry.block, V2.cabs, ltb_real, V2.sub_x, V2.sub_y, V2.sdiv_x, V2.sdiv_y, absS_real, ofInt_real, View.point, Bool.not_eq_true',
        Bool.or_eq_false_iff, decide_eq_false_iff_not, not_lt, sub_nonpos] at hp
      obtain ⟨h1, h2⟩ := hp
      push_cast at h1 h2
      have h1' := sq_le_sq' (abs_le.mp h1).1 (abs_le.mp h1).2
      have h2' := sq_le_sq' (abs_le.mp h2).1 (abs_le.mp h2).2
      have cs := Real.sin_sq_add_cos_sq 1
      set X := p.x - v.s * (12 + 1 * v.a) with hXd
      set Y := p.y - v.s * (9 + 1 * v.b) with hYd
      have nrm : X ^ 2 + Y ^ 2 ≤ (2 * v.s) ^ 2 := by
        have : X ^ 2 + Y ^ 2 = (Real.cos 1 * X + Real.sin 1 * Y) ^ 2 + (-Real.sin 1 * X + Real.cos 1 * Y) ^ 2 := by
          linear_combination (-(X ^ 2 + Y ^ 2)) * cs
        rw [this]
        nlinarith [mul_pos hs hs]
      have k1 := near X (2 * v.s) (by positivity) (by nlinarith [sq_nonneg Y])
      have k2 := near Y (2 * v.s) (by positivity) (by nlinarith [sq_nonneg X])
      constructor <;> linarith
  · intro o ho
    simp only [glassMetal, List.mem_cons, List.not_mem_nil, or_false] at ho
    rcases ho with rfl | rfl
    · exact boxSound_lib _ (.cylinder _ (by positivity))
    · exact boxSound_lib _ (.block _)
  · intro k hk
    simp only [glassMetal, List.mem_singleton] at hk
    subst hk
    refine ⟨by simp [Fields.IsComp], ?_⟩
    have r1 : roundAway (v.s * (10 + 1 * v.a) / v.s) = 10 + v.a := by
      rw [show v.s * (10 + 1 * v.a) / v.s = ((10 + v.a : ℤ) : ℝ) by push_cast; field_simp]; exact roundAway_int _
    have r2 : roundAway (v.s * (6 + 1 * v.b) / v.s) = 6 + v.b := by
      rw [show v.s * (6 + 1 * v.b) / v.s = ((6 + v.b : ℤ) : ℝ) by push_cast; field_simp]; exact roundAway_int _
    have : g.toGrid (v.point 1 ⟨10, 6⟩) = ⟨10 + v.a, 6 + v.b⟩ := by
      simp only [Grid.toGrid, View.point, hx, V2.mk.injEq]
      exact ⟨r1, r2⟩
    rw [this]; unfold InGrid; simp only; omega

theorem glassMetal_same {g g' : Grid ℝ} (hl : Lawful g) {v : View} (hs : 0 < v.s) (hx : g.dx = 1) (hx' : g'.dx = v.s * g.dx)
    (ha : 0 ≤ v.a) (hb : 0 ≤ v.b) : v.SameScene g g' (glassMetal ⟨1, 0, 0⟩) (glassMetal v) := by
  have a0 : (0 : ℝ) ≤ v.a := by exact_mod_cast ha
  have b0 : (0 : ℝ) ≤ v.b := by exact_mod_cast hb
  have hp : ∀ p : V2 ℝ, (⟨1, 0, 0⟩ : View).point 1 p = p := fun p => by simp [View.point]
  simp only [glassMetal, hp, one_mul]
  refine ⟨?_, ?_, .none⟩
  · rw [hx]
    refine .cons ?_ (.cons ?_ .nil)
    · exact sameObj_cylinder hs 1 2 0 "c" "c" _ _ _ rfl (by simp [glassOf, View.kind, View.simple])
    · have := sameObj_block (v := v) hs 1 1 ⟨2, 1⟩ "b" "b" (metalOf 1) (metalOf v.s) ⟨12, 9⟩ rfl (by simp [metalOf, View.kind, View.drude])
      exact this
  · refine .cons ?_ .nil
    have := sameSource_point (v := v) hs hl hx' .Ez ⟨10, 6⟩ (.inr ⟨by norm_num, by rw [hx]; simp only; linarith⟩)
      (.inr ⟨by norm_num, by rw [hx]; simp only; linarith⟩) "p" "p" (sameSignal_gaussian (ne_of_gt hs) (1 / 10 / 1) (1 / 50 / 1) 20)
    rw [hx] at this
    simpa only [div_one] using this

/-- C77_closed: glass and metal in a closed domain, in units three times as long. -/
example (n : ℕ) : ∃ c d, (glassMetal ⟨1, 0, 0⟩).run (Grid.make 20 20 1 (-1)) n = .ok c ∧
    (glassMetal ⟨3, 0, 0⟩).run (Grid.make (3 * 20) (3 * 20) (1 / 3) (-1)) n = .ok d ∧
    ∀ i j, Node (Grid.make 20 20 1 (-1)) i j → d.f.Ez.val i j = c.f.Ez.val i j := by
  have l1 : Lawful (Grid.make 20 20 1 (-1) : Grid ℝ) := lawful_make _ _ _ _ one_pos
  have l2 : Lawful (Grid.make (3 * 20) (3 * 20) (1 / 3) (-1) : Grid ℝ) := lawful_make _ _ _ _ (by norm_num)
  obtain ⟨e1, e2, e3, e4⟩ := scaled_grid 20 20 1 (-1) one_pos (s := 3) (by norm_num)
  have x1 : (Grid.make 20 20 1 (-1) : Grid ℝ).dx = 1 := by simp [Grid.make]
  have n1 : (Grid.make 20 20 1 (-1) : Grid ℝ).Nx = 20 := gOpen_Nx
  have n2 : (Grid.make 20 20 1 (-1) : Grid ℝ).Ny = 20 := gOpen_Ny
  obtain ⟨c, d, a1, a2, a3⟩ := C77_closed (s := 3) (by norm_num) one_pos (show gOpen.Wide from ⟨by rw [gOpen_Nx, gOpen_T]; norm_num, by rw [gOpen_Ny, gOpen_T]; norm_num⟩)
    (glassMetal_fits (v := ⟨1, 0, 0⟩) l1 one_pos x1 (le_refl 0) (le_refl 0) (by rw [n1]; norm_num) (by rw [n2]; norm_num))
    (glassMetal_fits (v := ⟨3, 0, 0⟩) l2 (by norm_num) (by rw [e4, x1]; norm_num) (le_refl 0) (le_refl 0) (by rw [e1, n1]; norm_num) (by rw [e2, n2]; norm_num))
    (glassMetal_same (v := unit 3) l1 (by simp [unit]) x1 e4 (le_refl 0) (le_refl 0)) n
  exact ⟨c, d, a1, a2, fun i j h => by simpa [unit] using a3.Ez i j h⟩

/-- C78_window: the same in a domain of 40 by 30 cells with a thicker layer, moved by 5 and 4 cells; after three updates the fields at 36
nodes agree. -/
example : ∃ c d, (glassMetal ⟨1, 0, 0⟩).run gEx 3 = .ok c ∧ (glassMetal ⟨1, 5, 4⟩).run (Grid.make 40 30 1 4) 3 = .ok d ∧
    ∀ i j, 7 ≤ i → i ≤ 12 → 7 ≤ j → j ≤ 12 → d.f.Ez.val (i + 5) (j + 4) = c.f.Ez.val i j := by
  have l2 : Lawful (Grid.make 40 30 1 4 : Grid ℝ) := lawful_make _ _ _ _ one_pos
  have n1 : (Grid.make 40 30 1 4 : Grid ℝ).Nx = 40 := by simp [Grid.make]
  have n2 : (Grid.make 40 30 1 4 : Grid ℝ).Ny = 30 := by simp [Grid.make]
  have n3 : (Grid.make 40 30 1 4 : Grid ℝ).T = 5 := by simp [Grid.make]
  have x1 : gEx.dx = 1 := by simp [gEx, Grid.make]
  have x2 : (Grid.make 40 30 1 4 : Grid ℝ).dx = 1 := by simp [Grid.make]
  obtain ⟨c, d, a1, a2, a3⟩ := C78_window (v := ⟨1, 5, 4⟩) one_pos gEx_wide (g' := Grid.make 40 30 1 4)
    ⟨by rw [n1, n3]; norm_num, by rw [n2, n3]; norm_num⟩ gEx_lawful l2 (by rw [gEx_T]; norm_num) (by rw [n3]; norm_num) (by rw [x1, x2]; norm_num)
    (glassMetal_fits (v := ⟨1, 0, 0⟩) gEx_lawful one_pos x1 (le_refl 0) (le_refl 0) (by rw [gEx_Nx]; norm_num) (by rw [gEx_Ny]; norm_num))
    (glassMetal_fits (v := ⟨1, 5, 4⟩) l2 one_pos x2 (by norm_num) (by norm_num) (by rw [n1]; norm_num) (by rw [n2]; norm_num))
    (glassMetal_same (v := ⟨1, 5, 4⟩) gEx_lawful one_pos x1 (by rw [x1, x2]; norm_num) (by norm_num) (by norm_num)) 3
  refine ⟨c, d, a1, a2, fun i j h1 h2 h3 h4 => ?_⟩
  simpa using a3.Ez i j (by simp only [InnerE, gEx_T, gEx_Nx, gEx_Ny, n1, n2, n3]; push_cast; omega)

/-- C78_domain: the same program text in two domains. -/
example : ∃ c d, (glassMetal ⟨1, 0, 0⟩).run gEx 3 = .ok c ∧ (glassMetal ⟨1, 0, 0⟩).run (Grid.make 40 30 1 4) 3 = .ok d ∧
    ∀ i j, 9 ≤ i → i ≤ 12 → 9 ≤ j → j ≤ 12 → d.f.Ez.val i j = c.f.Ez.val i j := by
  have l2 : Lawful (Grid.make 40 30 1 4 : Grid ℝ) := lawful_make _ _ _ _ one_pos
  have n1 : (Grid.make 40 30 1 4 : Grid ℝ).Nx = 40 := by simp [Grid.make]
  have n2 : (Grid.make 40 30 1 4 : Grid ℝ).Ny = 30 := by simp [Grid.make]
  have n3 : (Grid.make 40 30 1 4 : Grid ℝ).T = 5 := by simp [Grid.make]
  have x1 : gEx.dx = 1 := by simp [gEx, Grid.make]
  have x2 : (Grid.make 40 30 1 4 : Grid ℝ).dx = 1 := by simp [Grid.make]
  obtain ⟨c, d, a1, a2, a3, -⟩ := C78_domain 20 20 40 30 1 2 4 one_pos (show gEx.Wide from gEx_wide)
    ⟨by rw [n1, n3]; norm_num, by rw [n2, n3]; norm_num⟩ (.inr (by norm_num)) (.inr (by norm_num))
    (glassMetal_fits (v := ⟨1, 0, 0⟩) gEx_lawful one_pos x1 (le_refl 0) (le_refl 0) (by rw [gEx_Nx]; norm_num) (by rw [gEx_Ny]; norm_num))
    (glassMetal_fits (v := ⟨1, 0, 0⟩) l2 one_pos x2 (le_refl 0) (le_refl 0) (by rw [n1]; norm_num) (by rw [n2]; norm_num)) 3
  refine ⟨c, d, a1, a2, fun i j h1 h2 h3 h4 => a3 i j ?_ ?_⟩
  · show InnerE gEx _ _ _
    simp only [InnerE, gEx_T, gEx_Nx, gEx_Ny]; push_cast; omega
  · simp only [InnerE, n1, n2, n3]; push_cast; omega

end Qbox.Props
