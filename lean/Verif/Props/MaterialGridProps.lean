import Verif.Lemmas.PolGrid
import Verif.Props.ObjectProps

/-! # C09–C12: which node carries which medium -/

namespace Qbox.Props
open Qbox Qbox.Spec

section
variable {K : Type} [Scalar K]

/-! ## C09 -/

/-- C09 for any scalar type: if the objects are scanned completely and have no node outside the grid, then after
`update_material_grid` the last added object wins at every node. -/
theorem C09_refresh_any (c : Core K) (hc : c.WF) (objs : List (Object K)) (hs : ∀ o ∈ objs, o.Safe c.g)
    (hcov : ∀ o ∈ objs, o.Covered c.g) (hp : ∀ o ∈ objs, c.HasPol o) :
    ∃ c', c.updateMaterialGrid objs = .ok c' ∧ c'.WF ∧ ∀ i j, 0 ≤ i → i < c.g.Nx → 0 ≤ j → j < c.g.Ny →
      (∀ o, TopAt objs (c.g.toReal ⟨i, j⟩) o → HasMedium c'.f o.mat.kind c.g.dt i j) ∧
      ((∀ o ∈ objs, o.inside (c.g.toReal ⟨i, j⟩) = false) → HasMedium c'.f (.simple vacuum) c.g.dt i j) := by
  obtain ⟨c', h1, w1, -⟩ := Core.updateMaterialGrid_ok hc objs hs hp
  refine ⟨c', h1, w1, ?_⟩
  intro i j i0 i1 j0 j1
  unfold Core.updateMaterialGrid at h1
  rw [clearMaterials_closed hc.f] at h1
  simp only [Except.ok_bind] at h1
  obtain ⟨e, -⟩ := refreshAll_f (c := { c with f := c.f.paint (.simple vacuum) c.g.dt (fun _ _ => true) (rect 0 c.g.Nx 0 c.g.Ny) })
    objs (Flds.paint_dims hc.f _ _ _ _) hs h1
  rw [e]
  refine ⟨fun o ho => paintAll_top i0 i1 j0 j1 hcov ho, fun hn => ?_⟩
  have hv := Flds.paint_hit (f := c.f) (k := .simple vacuum) (dt := c.g.dt) (q := fun _ _ => true)
    (D := rect 0 c.g.Nx 0 c.g.Ny) (i := i) (j := j) (mem_rect.mpr ⟨⟨i0, i1⟩, j0, j1⟩) rfl
  obtain ⟨a1, a2, a3, a4⟩ := paintAll_miss c.g objs
    (c.f.paint (.simple vacuum) c.g.dt (fun _ _ => true) (rect 0 c.g.Nx 0 c.g.Ny)) hn
  exact ⟨a1.trans hv.Ca, a2.trans hv.Cb, a3.trans hv.Da, a4.trans hv.Db⟩

end

/-- C09: in exact arithmetic, after `update_material_grid` (which does not fail) every node carries the medium of the
most recently added object that contains it, or the background medium. The objects may have any pose as long as they do
not cross the right or bottom edge; their media may overlap. The state before the call is arbitrary (well formed, and
every dispersive object has been added before). -/
theorem C09_last_object_wins (c : Core ℝ) (hg : Lawful c.g) (hc : c.WF) (objs : List (Object ℝ))
    (hsound : ∀ o ∈ objs, BoxSound o) (hs : ∀ o ∈ objs, ClearOfUnguardedEdges c.g o) (hp : ∀ o ∈ objs, c.HasPol o) :
    ∃ c', c.updateMaterialGrid objs = .ok c' ∧ c'.WF ∧ ∀ i j, 0 ≤ i → i < c.g.Nx → 0 ≤ j → j < c.g.Ny →
      (∀ o, TopAt objs (c.g.toReal ⟨i, j⟩) o → HasMedium c'.f o.mat.kind c.g.dt i j) ∧
      ((∀ o ∈ objs, o.inside (c.g.toReal ⟨i, j⟩) = false) → HasMedium c'.f (.simple vacuum) c.g.dt i j) :=
  C09_refresh_any c hc objs (fun o ho => safe_of_clear hg (hs o ho)) (fun o ho => covered_of_sound hg (hsound o ho)) hp

/-- The library's shapes report sound boxes. -/
theorem boxSound_lib (o : Object ℝ) (h : LibShape o.geom) : BoxSound o := by
  intro p b hp hb
  obtain ⟨b', h1, h2⟩ := C07_all o h p hp
  rw [hb] at h1
  cases h1
  exact h2

/-- C09: the same for adding objects one after the other, from any state: a node keeps its former medium unless one of
the added objects contains it, and then it gets the medium of the last such object. -/
theorem C09_adding (c : Core ℝ) (hg : Lawful c.g) (hc : c.WF) (objs : List (Object ℝ))
    (hsound : ∀ o ∈ objs, BoxSound o) (hs : ∀ o ∈ objs, ClearOfUnguardedEdges c.g o) :
    ∃ c', forList objs c (fun o c => c.insertObject o) = .ok c' ∧ c'.WF ∧
      ∀ i j, 0 ≤ i → i < c.g.Nx → 0 ≤ j → j < c.g.Ny →
      (∀ o, TopAt objs (c.g.toReal ⟨i, j⟩) o → HasMedium c'.f o.mat.kind c.g.dt i j) ∧
      ((∀ o ∈ objs, o.inside (c.g.toReal ⟨i, j⟩) = false) →
        c'.f.Ca.val i j = c.f.Ca.val i j ∧ c'.f.Cb.val i j = c.f.Cb.val i j ∧
        c'.f.Da.val i j = c.f.Da.val i j ∧ c'.f.Db.val i j = c.f.Db.val i j) := by
  have hsafe := fun o ho => safe_of_clear hg (hs o ho)
  obtain ⟨c', h1, w1, -⟩ := insertAll_ok objs hc hsafe
  obtain ⟨e, -⟩ := insertAll_f objs hc.f hsafe h1
  refine ⟨c', h1, w1, fun i j i0 i1 j0 j1 => ?_⟩
  rw [e]
  exact ⟨fun o ho => paintAll_top i0 i1 j0 j1 (fun o ho => covered_of_sound hg (hsound o ho)) ho,
    fun hn => paintAll_miss c.g objs c.f hn⟩

/-- Every position is outside all objects or has exactly one topmost object, so C09 decides the medium of every node. -/
theorem C09_total (objs : List (Object ℝ)) (p : V2 ℝ) :
    (∀ o ∈ objs, o.inside p = false) ∨ ∃ o, TopAt objs p o := by
  induction objs with
  | nil => left; simp
  | cons o l ih =>
    rcases ih with ih | ⟨o', l1, l2, rfl, h1, h2⟩
    · cases h : o.inside p
      · left
        intro o' ho'
        rcases List.mem_cons.mp ho' with rfl | ho'
        · exact h
        · exact ih o' ho'
      · exact Or.inr ⟨o, [], l, rfl, h, ih⟩
    · exact Or.inr ⟨o', o :: l1, l2, rfl, h1, h2⟩

/-! ## C11 -/

/-- C11: adding node-disjoint objects in two different orders gives the same coefficients at every node. -/
theorem C11_order_irrelevant (c : Core ℝ) (hg : Lawful c.g) (hc : c.WF) (objs objs' : List (Object ℝ))
    (hperm : objs.Perm objs') (hdis : NodeDisjoint c.g objs)
    (hsound : ∀ o ∈ objs, BoxSound o) (hs : ∀ o ∈ objs, ClearOfUnguardedEdges c.g o) :
    ∃ c1 c2, forList objs c (fun o c => c.insertObject o) = .ok c1 ∧
      forList objs' c (fun o c => c.insertObject o) = .ok c2 ∧ SameMedia c1.f c2.f c.g.Nx c.g.Ny := by
  obtain ⟨c1, h1, -, k1⟩ := C09_adding c hg hc objs hsound hs
  obtain ⟨c2, h2, -, k2⟩ := C09_adding c hg hc objs' (fun o ho => hsound o (hperm.mem_iff.mpr ho))
    (fun o ho => hs o (hperm.mem_iff.mpr ho))
  refine ⟨c1, c2, h1, h2, ?_⟩
  have key : ∀ i j, 0 ≤ i → i < c.g.Nx → 0 ≤ j → j < c.g.Ny →
      c1.f.Ca.val i j = c2.f.Ca.val i j ∧ c1.f.Cb.val i j = c2.f.Cb.val i j ∧
      c1.f.Da.val i j = c2.f.Da.val i j ∧ c1.f.Db.val i j = c2.f.Db.val i j := by
    intro i j i0 i1 j0 j1
    obtain ⟨t1, n1⟩ := k1 i j i0 i1 j0 j1
    obtain ⟨t2, n2⟩ := k2 i j i0 i1 j0 j1
    rcases C09_total objs (c.g.toReal ⟨i, j⟩) with hn | ⟨o, ho⟩
    · obtain ⟨a1, a2, a3, a4⟩ := n1 hn
      obtain ⟨b1, b2, b3, b4⟩ := n2 fun o ho => hn o (hperm.mem_iff.mpr ho)
      exact ⟨a1.trans b1.symm, a2.trans b2.symm, a3.trans b3.symm, a4.trans b4.symm⟩
    · rcases C09_total objs' (c.g.toReal ⟨i, j⟩) with hn' | ⟨o', ho'⟩
      · obtain ⟨l1, l2, rfl, hi, -⟩ := ho
        have := hn' o (hperm.mem_iff.mp (by simp))
        rw [hi] at this; cases this
      · have m1 := t1 o ho
        have m2 := t2 o' ho'
        have hoo : o.mat.kind = o'.mat.kind := by
          obtain ⟨l1, l2, rfl, hi, -⟩ := ho
          obtain ⟨r1, r2, rfl, hi', -⟩ := ho'
          by_contra hne
          have hmem : o' ∈ l1 ++ o :: l2 := hperm.mem_iff.mpr (by simp)
          have hsym : ∀ ⦃x y : Object ℝ⦄, (∀ i j : ℤ, 0 ≤ i → i < c.g.Nx → 0 ≤ j → j < c.g.Ny →
              ¬ (x.inside (c.g.toReal ⟨i, j⟩) = true ∧ y.inside (c.g.toReal ⟨i, j⟩) = true)) →
              (∀ i j : ℤ, 0 ≤ i → i < c.g.Nx → 0 ≤ j → j < c.g.Ny →
              ¬ (y.inside (c.g.toReal ⟨i, j⟩) = true ∧ x.inside (c.g.toReal ⟨i, j⟩) = true)) :=
            fun x y h i j a b c d e => h i j a b c d ⟨e.2, e.1⟩
          rw [NodeDisjoint, List.pairwise_append, List.pairwise_cons] at hdis
          simp only [List.mem_append, List.mem_cons] at hmem
          rcases hmem with hm | rfl | hm
          · exact hdis.2.2 o' hm o (by simp) i j i0 i1 j0 j1 ⟨hi', hi⟩
          · exact hne rfl
          · exact hdis.2.1.1 o' hm i j i0 i1 j0 j1 ⟨hi, hi'⟩
        rw [hoo] at m1
        exact ⟨m1.Ca.trans m2.Ca.symm, m1.Cb.trans m2.Cb.symm, m1.Da.trans m2.Da.symm, m1.Db.trans m2.Db.symm⟩
  exact ⟨fun i j a b c d => (key i j a b c d).1, fun i j a b c d => (key i j a b c d).2.1,
    fun i j a b c d => (key i j a b c d).2.2.1, fun i j a b c d => (key i j a b c d).2.2.2⟩

/-! ## C10 -/

section
variable {K : Type} [Scalar K]

/-- Painting faults as soon as one scanned node is inside the object but outside the grid. -/
theorem paintObject_fail {g : Grid K} {o : Object K} {f : Flds K} (hf : f.Dims g.Nx g.Ny) (ho : ¬ o.Safe g) :
    paintObject g o f = .error (.ub .oob) := by
  unfold Object.Safe at ho
  push Not at ho
  obtain ⟨i0, j0, h1, h2, h3, h4, hin, hout⟩ := ho
  have step : ∀ i j, ∀ s : Flds K, s.Dims g.Nx g.Ny →
      (∃ s', (if o.inside (g.toReal ⟨i, j⟩) then setMat o.mat.kind g.dt i j s else .ok s) = .ok s' ∧ s'.Dims g.Nx g.Ny) ∨
      (if o.inside (g.toReal ⟨i, j⟩) then setMat o.mat.kind g.dt i j s else .ok s) = .error (.ub .oob) := by
    intro i j s hs
    by_cases hi : o.inside (g.toReal ⟨i, j⟩) = true
    · simp only [hi, if_true]
      by_cases hg : 0 ≤ i ∧ i < g.Nx ∧ 0 ≤ j ∧ j < g.Ny
      · left
        exact ⟨_, setMat_in hs _ _ hg.1 hg.2.1 hg.2.2.1 hg.2.2.2,
          ⟨hs.Ez, hs.Hx, hs.Hy, hs.Ca, hs.Cb, hs.Da, hs.Db⟩⟩
      · right
        unfold setMat
        rw [Tensor.wr_out (by
          rintro ⟨a, b, c, d⟩
          obtain ⟨e1, e2⟩ := hs.Ca
          exact hg ⟨a, by omega, c, by omega⟩)]
        rfl
    · simp only [hi, if_false]
      exact Or.inl ⟨s, rfl, hs⟩
  unfold paintObject
  refine forRange_fail (fun s : Flds K => s.Dims g.Nx g.Ny) _ _ _ _ ?_ i0 h1 (by omega) ?_ f hf
  · intro i _ _ s hs
    exact forRange_inv_or _ _ _ _ _ (fun j _ _ s hs => step i j s hs) s hs
  · intro s hs
    refine forRange_fail (fun s : Flds K => s.Dims g.Nx g.Ny) _ _ _ _ (fun j _ _ s hs => step i0 j s hs) j0 h3 (by omega) ?_ s hs
    intro s hs
    simp only [hin, if_true]
    unfold setMat
    rw [Tensor.wr_out (by
      rintro ⟨a, b, c, d⟩
      obtain ⟨e1, e2⟩ := hs.Ca
      exact absurd (hout a (by omega) c) (by omega))]
    rfl

/-- C10, exact guard: adding an object faults with an out-of-bounds write iff a scanned node is inside the object but
outside the grid; otherwise it succeeds. -/
theorem C10_faults_iff (c : Core K) (hc : c.WF) (o : Object K) :
    (c.insertObject o = .error (.ub .oob) ↔ ¬ o.Safe c.g) ∧ ((∃ c', c.insertObject o = .ok c') ↔ o.Safe c.g) := by
  by_cases hs : o.Safe c.g
  · obtain ⟨c', h, -⟩ := Core.insertObject_ok hc hs
    rw [h]
    exact ⟨⟨fun h => (by cases h), fun h => absurd hs h⟩, ⟨fun _ => hs, fun _ => ⟨c', rfl⟩⟩⟩
  · have : c.insertObject o = .error (.ub .oob) := by
      unfold Core.insertObject
      rw [paintObject_fail hc.f hs]
      rfl
    rw [this]
    exact ⟨⟨fun _ => hs, fun _ => rfl⟩, ⟨fun ⟨_, h⟩ => (by cases h), fun h => absurd h hs⟩⟩

end

/-- The property as stated: adding any object of the library never has undefined behaviour. -/
def C10_statement : Prop :=
  ∀ (c : Core ℝ), Lawful c.g → c.WF → ∀ o : Object ℝ, LibShape o.geom → ∀ u, c.insertObject o ≠ .error (.ub u)

/-- C10 fails at the right edge: an object whose box is sound and which contains a node right of the grid. -/
theorem C10_right_edge_faults (c : Core ℝ) (hg : Lawful c.g) (hc : c.WF) (o : Object ℝ) (hb : BoxSound o) (b : Vol ℝ)
    (hbox : o.bbox = some b) (i j : ℤ) (hi : c.g.Nx ≤ i) (hi0 : 0 ≤ i) (hj0 : 0 ≤ j) (hj1 : j < c.g.Ny)
    (hin : o.inside (c.g.toReal ⟨i, j⟩) = true) : c.insertObject o = .error (.ub .oob) := by
  refine (C10_faults_iff c hc o).1.mpr fun hs => ?_
  obtain ⟨b1, b2, b3, b4⟩ := hb _ b hin hbox
  simp only [Grid.toReal, ofInt_real] at b1 b2 b3 b4
  have c1 := (toGrid_of_mem hg (i := i)).1 b1
  have c2 := (toGrid_of_mem hg (i := i)).2 b2
  have c3 := (toGrid_of_mem hg (i := j)).1 b3
  have c4 := (toGrid_of_mem hg (i := j)).2 b4
  have hm : (objBox c.g o).a.x ≤ i ∧ i ≤ (objBox c.g o).b.x ∧ (objBox c.g o).a.y ≤ j ∧ j ≤ (objBox c.g o).b.y := by
    simp only [objBox, hbox, Option.getD_some, Grid.clipI, Grid.toGridV, Grid.toGrid, IVol.make, roundI_real]
    split_ifs <;> omega
  have := hs i j hm.1 hm.2.1 hm.2.2.1 hm.2.2.2 hin
  omega

/-- C10 fails at the bottom edge. -/
theorem C10_bottom_edge_faults (c : Core ℝ) (hg : Lawful c.g) (hc : c.WF) (o : Object ℝ) (hb : BoxSound o) (b : Vol ℝ)
    (hbox : o.bbox = some b) (i j : ℤ) (hi0 : 0 ≤ i) (hj : j < 0) (hNy : 1 ≤ c.g.Ny)
    (hin : o.inside (c.g.toReal ⟨i, j⟩) = true) : c.insertObject o = .error (.ub .oob) := by
  refine (C10_faults_iff c hc o).1.mpr fun hs => ?_
  obtain ⟨b1, b2, b3, b4⟩ := hb _ b hin hbox
  simp only [Grid.toReal, ofInt_real] at b1 b2 b3 b4
  have c1 := (toGrid_of_mem hg (i := i)).1 b1
  have c2 := (toGrid_of_mem hg (i := i)).2 b2
  have c3 := (toGrid_of_mem hg (i := j)).1 b3
  have c4 := (toGrid_of_mem hg (i := j)).2 b4
  have hm : (objBox c.g o).a.x ≤ i ∧ i ≤ (objBox c.g o).b.x ∧ (objBox c.g o).a.y ≤ j ∧ j ≤ (objBox c.g o).b.y := by
    simp only [objBox, hbox, Option.getD_some, Grid.clipI, Grid.toGridV, Grid.toGrid, IVol.make, roundI_real]
    split_ifs <;> omega
  have := hs i j hm.1 hm.2.1 hm.2.2.1 hm.2.2.2 hin
  omega

/-- C10 (partial): adding is safe for an object that may overhang the left and the top edge but neither the right nor the
bottom edge. -/
theorem C10_guarded_edges_partial (c : Core ℝ) (hg : Lawful c.g) (hc : c.WF) (o : Object ℝ)
    (hs : ClearOfUnguardedEdges c.g o) : ∃ c', c.insertObject o = .ok c' ∧ c'.WF := by
  obtain ⟨c', h1, h2, -⟩ := Core.insertObject_ok hc (safe_of_clear hg hs)
  exact ⟨c', h1, h2⟩

/-- C10 (partial): an object without a bounding box is scanned over the domain only and is always safe. -/
theorem C10_no_box_partial (c : Core ℝ) (hg : Lawful c.g) (hc : c.WF) (o : Object ℝ) (hbox : o.bbox = none)
    (hx : 1 ≤ c.g.Nx) (hy : 1 ≤ c.g.Ny) : ∃ c', c.insertObject o = .ok c' ∧ c'.WF := by
  have hs : o.Safe c.g := by
    intro i j h1 h2 h3 h4 _
    have e1 : roundAway (c.g.Lx / c.g.dx) = c.g.Nx - 1 := by
      rw [hg.Lx, mul_div_cancel_left₀ _ hg.dx.ne', roundAway_int]
    have e2 : roundAway (c.g.Ly / c.g.dx) = c.g.Ny - 1 := by
      rw [hg.Ly, mul_div_cancel_left₀ _ hg.dx.ne', roundAway_int]
    have e0 : roundAway (0 / c.g.dx) = 0 := by rw [zero_div]; exact_mod_cast roundAway_int 0
    simp only [objBox, hbox, Option.getD_none, Grid.domain, Vol.make, Grid.clipI, Grid.toGridV, Grid.toGrid, IVol.make,
      roundI_real, e1, e2, e0] at h1 h2 h3 h4
    split_ifs at h1 h2 h3 h4 <;> omega
  obtain ⟨c', h1, h2, -⟩ := Core.insertObject_ok hc hs
  exact ⟨c', h1, h2⟩

/-! ### A concrete simulation -/

/-- 20 × 20 cells, spacing 1, absorbing layer of two cells. -/
noncomputable def gEx : Grid ℝ := Grid.make 20 20 1 2

theorem gEx_Nx : gEx.Nx = 20 := by simp [gEx, Grid.make]
theorem gEx_Ny : gEx.Ny = 20 := by simp [gEx, Grid.make]
theorem gEx_T : gEx.T = 3 := by simp [gEx, Grid.make]
theorem gEx_dx : gEx.dx = 1 := by simp [gEx, Grid.make]
theorem gEx_dt : gEx.dt = 1 / 2 := by simp [gEx, Grid.make]
theorem gEx_Lx : gEx.Lx = 19 := by simp [gEx, Grid.make]
theorem gEx_lawful : Lawful gEx := lawful_make 20 20 1 2 one_pos
theorem gEx_wide : gEx.Wide := ⟨by rw [gEx_T, gEx_Nx]; norm_num, by rw [gEx_T, gEx_Ny]; norm_num⟩

theorem gEx_core : ∃ c : Core ℝ, Core.make gEx = .ok c ∧ c.WF ∧ c.g = gEx := by
  obtain ⟨c, h1, h2, h3, -⟩ := Core.make_ok (g := gEx) (by rw [gEx_T, gEx_Nx]; norm_num) (by rw [gEx_T, gEx_Ny]; norm_num)
  exact ⟨c, h1, h2, h3⟩

/-- A disc of radius 2. -/
noncomputable def disc (m : Material ℝ) (x y : ℝ) : Object ℝ := ⟨"disc", .cylinder 2, m, ⟨x, y⟩, 0⟩

theorem disc_inside (m : Material ℝ) (x y : ℝ) (p : V2 ℝ) :
    (disc m x y).inside p = true ↔ (p.x - x) ^ 2 + (p.y - y) ^ 2 < 4 := by
  rw [inside_pullback]
  simp only [disc, Geometry.cylinder, V2.sqNorm, ltb_real, npow_real, decide_eq_true_eq, Real.cos_zero, Real.sin_zero]
  constructor <;> intro h <;> nlinarith [h]

theorem disc_sound (m : Material ℝ) (x y : ℝ) : BoxSound (disc m x y) :=
  boxSound_lib _ (.cylinder 2 (by norm_num))

theorem disc_clear (m : Material ℝ) {x y : ℝ} (hx : x ≤ 17) (hy : 2 ≤ y) : ClearOfUnguardedEdges gEx (disc m x y) := by
  intro p hp
  rw [disc_inside] at hp
  rw [gEx_Lx]
  constructor <;> nlinarith [sq_nonneg (p.x - x), sq_nonneg (p.y - y)]

/-- C10 is false: a disc centred on the right edge. -/
theorem C10_false : ¬ C10_statement := by
  intro h
  obtain ⟨c, -, hc, hg⟩ := gEx_core
  have hl : Lawful c.g := by rw [hg]; exact gEx_lawful
  refine h c hl hc (disc ⟨"m", .simple vacuum⟩ 19 10) (.cylinder 2 (by norm_num)) .oob ?_
  refine C10_right_edge_faults c hl hc _ (disc_sound _ _ _) _ rfl 20 10 (by rw [hg, gEx_Nx]) (by norm_num) (by norm_num)
    (by rw [hg, gEx_Ny]; norm_num) ?_
  rw [disc_inside, hg]
  simp only [Grid.toReal, gEx_dx, ofInt_real]
  norm_num

/-- The hypotheses of C09 and C11 are met by two overlapping, respectively disjoint, discs. -/
example : ∃ c : Core ℝ, Lawful c.g ∧ c.WF ∧
    let a := disc ⟨"a", .simple ⟨2, 1, 0⟩⟩ 5 5
    let b := disc ⟨"b", .simple ⟨3, 1, 0⟩⟩ 6 5
    (∀ o ∈ [a, b], BoxSound o) ∧ (∀ o ∈ [a, b], ClearOfUnguardedEdges c.g o) ∧ (∀ o ∈ [a, b], c.HasPol o) ∧
    TopAt [a, b] (c.g.toReal ⟨5, 5⟩) b := by
  obtain ⟨c, -, hc, hg⟩ := gEx_core
  refine ⟨c, by rw [hg]; exact gEx_lawful, hc, ?_, ?_, ?_, ?_⟩
  · simp [disc_sound]
  · rw [hg]
    intro o ho
    simp only [List.mem_cons, List.not_mem_nil, or_false] at ho
    rcases ho with rfl | rfl <;> exact disc_clear _ (by norm_num) (by norm_num)
  · simp [Core.HasPol, disc]
  · refine ⟨[_], [], rfl, ?_, by simp⟩
    rw [disc_inside, hg]
    simp only [Grid.toReal, gEx_dx, ofInt_real]
    norm_num

example : NodeDisjoint gEx [disc ⟨"a", .simple ⟨2, 1, 0⟩⟩ 5 5, disc ⟨"b", .simple ⟨3, 1, 0⟩⟩ 12 12] := by
  simp only [NodeDisjoint, List.pairwise_cons, List.mem_cons, List.not_mem_nil, or_false, forall_eq]
  refine ⟨?_, by simp⟩
  intro i j _ _ _ _
  rw [disc_inside, disc_inside]
  rintro ⟨h1, h2⟩
  generalize (gEx.toReal ⟨i, j⟩).x = u at h1 h2
  generalize (gEx.toReal ⟨i, j⟩).y = v at h1 h2
  nlinarith [sq_nonneg (u - 5), sq_nonneg (v - 5), sq_nonneg (u - 12), sq_nonneg (v - 12)]

/-! ## C12 -/

/-- The dispersive response of the medium of a map entry is switched on at a node: some pole strength is non-zero. -/
def DebyeActive (P : DebyePol ℝ) (i j : ℤ) : Prop := ∃ N, 0 ≤ N ∧ N < P.np ∧ P.beta.val i j N ≠ 0
/-- The same for Drude media. -/
def DrudeActive (P : DrudePol ℝ) (i j : ℤ) : Prop := ∃ N, 0 ≤ N ∧ N < P.np ∧ P.beta.val i j N ≠ 0
/-- The same for Lorentz media. -/
def LorentzActive (P : LorentzPol ℝ) (i j : ℤ) : Prop := ∃ N, 0 ≤ N ∧ N < P.np ∧ P.delta.val i j N ≠ 0

/-- The medium of the map entry responds at all: one of its poles has a non-zero strength. -/
def DebyeResponds (dt : ℝ) (m : Debye ℝ) : Prop := ∃ p ∈ m.poles, p.beta dt ≠ 0
/-- The same for Drude media. -/
def DrudeResponds (dt : ℝ) (m : Drude ℝ) : Prop := ∃ p ∈ m.poles, p.beta dt ≠ 0
/-- The same for Lorentz media. -/
def LorentzResponds (dt : ℝ) (m : Lorentz ℝ) : Prop := ∃ p ∈ m.poles, p.delta dt ≠ 0

/-! ### Debye -/

theorem debye_strength_ne {g : Grid ℝ} {P : DebyePol ℝ} (hP : P.WF g.Nx g.Ny) {dt : ℝ} (h : DebyeResponds dt P.mat) :
    ∃ N, 0 ≤ N ∧ N < P.np ∧ P.strength dt N ≠ 0 := by
  obtain ⟨p, hp, hne⟩ := h
  obtain ⟨k, hk, he⟩ := List.mem_iff_getElem.mp hp
  refine ⟨k, by positivity, by rw [hP.np]; exact_mod_cast hk, ?_⟩
  simp only [DebyePol.strength, Arr.ofList, Int.toNat_natCast]
  simpa [List.getD, List.getElem?_map, List.getElem?_eq_getElem hk, he] using hne

theorem debye_active_iff {g : Grid ℝ} {q : ℤ → ℤ → Prop} {P P' : DebyePol ℝ} (h : DebyePol.Painted g q P P') (hP : P.WF g.Nx g.Ny)
    (hr : DebyeResponds g.dt P.mat) {i j : ℤ} (i0 : 0 ≤ i) (i1 : i < g.Nx) (j0 : 0 ≤ j) (j1 : j < g.Ny) :
    DebyeActive P' i j ↔ q i j ∨ DebyeActive P i j := by
  by_cases hq : q i j
  · simp only [hq, true_or, iff_true]
    obtain ⟨N, a, b, d⟩ := debye_strength_ne hP hr
    exact ⟨N, a, by rw [h.np]; exact b, by rw [h.on i j N i0 i1 j0 j1 a b hq]; exact d⟩
  · simp only [hq, false_or]
    unfold DebyeActive
    simp only [h.np, h.off i j _ hq]

/-- C12, what the code does (Debye): `update_material_grid` switches the response on at the nodes inside the objects of the
material and leaves it on where it was on before. -/
theorem C12_debye_refresh (c c' : Core ℝ) (hc : c.WF) (objs : List (Object ℝ)) (hs : ∀ o ∈ objs, o.Safe c.g)
    (h : c.updateMaterialGrid objs = .ok c') (n : String) (P : DebyePol ℝ) (hP : mapFind n c.debye = some P)
    (hr : DebyeResponds c.g.dt P.mat) :
    ∃ P', mapFind n c'.debye = some P' ∧ P'.mat = P.mat ∧ P'.J = P.J ∧
      ∀ i j, 0 ≤ i → i < c.g.Nx → 0 ≤ j → j < c.g.Ny →
      (DebyeActive P' i j ↔ (∃ o ∈ objs, o.IsDebye n ∧ o.inside (c.g.toReal ⟨i, j⟩) = true) ∨ DebyeActive P i j) := by
  unfold Core.updateMaterialGrid at h
  rw [clearMaterials_closed hc.f] at h
  simp only [Except.ok_bind] at h
  have hw : P.WF c.g.Nx c.g.Ny := hc.debye _ (mapFind_mem hP)
  obtain ⟨P', h1, h2⟩ := refreshAll_debye
    (c := { c with f := c.f.paint (.simple vacuum) c.g.dt (fun _ _ => true) (rect 0 c.g.Nx 0 c.g.Ny) })
    objs (Flds.paint_dims hc.f _ _ _ _) hs h hP hw
  refine ⟨P', h1, h2.mat, h2.J, fun i j i0 i1 j0 j1 => ?_⟩
  rw [debye_active_iff h2 hw hr i0 i1 j0 j1]
  simp only [i0, i1, j0, j1, true_and]

/-- C12 (partial, Debye): if the fields are cleared before `update_material_grid`, the response is active at exactly the
nodes inside some object of the material, at their current positions. -/
theorem C12_debye_after_clear_partial (c c' : Core ℝ) (hc : c.WF) (objs : List (Object ℝ)) (hs : ∀ o ∈ objs, o.Safe c.g)
    (h : c.clearFields.updateMaterialGrid objs = .ok c') (n : String) (P : DebyePol ℝ) (hP : mapFind n c.debye = some P)
    (hr : DebyeResponds c.g.dt P.mat) :
    ∃ P', mapFind n c'.debye = some P' ∧ P'.mat = P.mat ∧ ∀ i j, 0 ≤ i → i < c.g.Nx → 0 ≤ j → j < c.g.Ny →
      (DebyeActive P' i j ↔ ∃ o ∈ objs, o.IsDebye n ∧ o.inside (c.g.toReal ⟨i, j⟩) = true) := by
  obtain ⟨P', h1, h2, -, h3⟩ := C12_debye_refresh c.clearFields c' (Core.clearFields_ok hc).1 objs hs h n P.reset
    (clearFields_debye hP) hr
  refine ⟨P', h1, h2, fun i j i0 i1 j0 j1 => (h3 i j i0 i1 j0 j1).trans ⟨?_, Or.inl⟩⟩
  rintro (hh | ⟨N, -, -, hN⟩)
  · exact hh
  · exact absurd rfl hN

/-- C12 (partial, Debye): as long as objects are only added, the response is active at exactly the nodes inside some
object of the material (also where a later object of another material overlaps it). -/
theorem C12_debye_adding_partial (c c' : Core ℝ) (hc : c.WF) (objs : List (Object ℝ)) (hs : ∀ o ∈ objs, o.Safe c.g)
    (h : forList objs c (fun o c => c.insertObject o) = .ok c') (n : String) (hn : mapFind n c.debye = none)
    (he : ∃ o ∈ objs, o.IsDebye n)
    (hr : ∀ o ∈ objs, ∀ m, o.mat.kind = .debye m → o.mat.name = n → DebyeResponds c.g.dt m) :
    ∃ P', mapFind n c'.debye = some P' ∧ ∀ i j, 0 ≤ i → i < c.g.Nx → 0 ≤ j → j < c.g.Ny →
      (DebyeActive P' i j ↔ ∃ o ∈ objs, o.IsDebye n ∧ o.inside (c.g.toReal ⟨i, j⟩) = true) := by
  obtain ⟨m, P', ⟨o, ho, hk, hnm⟩, h1, h2⟩ := insertAll_debye_fresh objs hc.f hs h hn he
  refine ⟨P', h1, fun i j i0 i1 j0 j1 => ?_⟩
  rw [debye_active_iff h2 (DebyePol.make_wf _ _) (hr o ho m hk hnm) i0 i1 j0 j1]
  simp only [i0, i1, j0, j1, true_and]
  constructor
  · rintro (hh | ⟨N, -, -, hN⟩)
    · exact hh
    · exact absurd rfl hN
  · exact Or.inl

/-- C12 fails (Debye): an object is added and then posed differently; at every node it has left, its response stays on
after `update_material_grid`. -/
theorem C12_debye_ghost (g : Grid ℝ) (c c1 c2 : Core ℝ) (hmake : Core.make g = .ok c) (hg : g.T + 1 ≤ g.Nx ∧ g.T + 1 ≤ g.Ny)
    (o : Object ℝ) (m : Debye ℝ) (hk : o.mat.kind = .debye m) (hr : DebyeResponds g.dt m) (op : PoseOp ℝ)
    (hs : o.Safe g) (hs' : (o.pose op).Safe g)
    (hadd : c.insertObject o = .ok c1) (hup : c1.updateMaterialGrid [o.pose op] = .ok c2) :
    ∃ P, mapFind o.mat.name c2.debye = some P ∧ ∀ i j, 0 ≤ i → i < g.Nx → 0 ≤ j → j < g.Ny →
      o.inside (g.toReal ⟨i, j⟩) = true → DebyeActive P i j := by
  obtain ⟨c0, m1, wf, g0, -⟩ := Core.make_ok hg.1 hg.2
  rw [hmake] at m1; cases m1
  have hempty : c.debye = [] := Core.make_no_pol hmake |>.1
  subst g0
  obtain ⟨P1, e1, e2⟩ := insertObject_debye_first wf.f hs hadd hk (by rw [hempty]; rfl)
  obtain ⟨f1, g1⟩ := insertObject_f wf.f hs hadd
  obtain ⟨c1', a1, wf1, -⟩ := Core.insertObject_ok wf hs
  rw [hadd] at a1; cases a1
  obtain ⟨P2, b1, b2, -, b3⟩ := C12_debye_refresh c1 c2 wf1 [o.pose op] (by rw [g1]; simpa using hs') hup o.mat.name P1 e1
    (by rw [e2.mat, g1]; exact hr)
  rw [g1] at b3
  refine ⟨P2, b1, fun i j i0 i1 j0 j1 hin => (b3 i j i0 i1 j0 j1).mpr (Or.inr ?_)⟩
  rw [debye_active_iff e2 (DebyePol.make_wf _ _) hr i0 i1 j0 j1]
  exact Or.inl ⟨i0, i1, j0, j1, hin⟩

/-! ### Drude -/

theorem drude_strength_ne {g : Grid ℝ} {P : DrudePol ℝ} (hP : P.WF g.Nx g.Ny) {dt : ℝ} (h : DrudeResponds dt P.mat) :
    ∃ N, 0 ≤ N ∧ N < P.np ∧ P.strength dt N ≠ 0 := by
  obtain ⟨p, hp, hne⟩ := h
  obtain ⟨k, hk, he⟩ := List.mem_iff_getElem.mp hp
  refine ⟨k, by positivity, by rw [hP.np]; exact_mod_cast hk, ?_⟩
  simp only [DrudePol.strength, Arr.ofList, Int.toNat_natCast]
  simpa [List.getD, List.getElem?_map, List.getElem?_eq_getElem hk, he] using hne

theorem drude_active_iff {g : Grid ℝ} {q : ℤ → ℤ → Prop} {P P' : DrudePol ℝ} (h : DrudePol.Painted g q P P') (hP : P.WF g.Nx g.Ny)
    (hr : DrudeResponds g.dt P.mat) {i j : ℤ} (i0 : 0 ≤ i) (i1 : i < g.Nx) (j0 : 0 ≤ j) (j1 : j < g.Ny) :
    DrudeActive P' i j ↔ q i j ∨ DrudeActive P i j := by
  by_cases hq : q i j
  · simp only [hq, true_or, iff_true]
    obtain ⟨N, a, b, d⟩ := drude_strength_ne hP hr
    exact ⟨N, a, by rw [h.np]; exact b, by rw [h.on i j N i0 i1 j0 j1 a b hq]; exact d⟩
  · simp only [hq, false_or]
    unfold DrudeActive
    simp only [h.np, h.off i j _ hq]

/-- C12, what the code does (Drude): `update_material_grid` switches the response on at the nodes inside the objects of the
material and leaves it on where it was on before. -/
theorem C12_drude_refresh (c c' : Core ℝ) (hc : c.WF) (objs : List (Object ℝ)) (hs : ∀ o ∈ objs, o.Safe c.g)
    (h : c.updateMaterialGrid objs = .ok c') (n : String) (P : DrudePol ℝ) (hP : mapFind n c.drude = some P)
    (hr : DrudeResponds c.g.dt P.mat) :
    ∃ P', mapFind n c'.drude = some P' ∧ P'.mat = P.mat ∧ P'.J = P.J ∧
      ∀ i j, 0 ≤ i → i < c.g.Nx → 0 ≤ j → j < c.g.Ny →
      (DrudeActive P' i j ↔ (∃ o ∈ objs, o.IsDrude n ∧ o.inside (c.g.toReal ⟨i, j⟩) = true) ∨ DrudeActive P i j) := by
  unfold Core.updateMaterialGrid at h
  rw [clearMaterials_closed hc.f] at h
  simp only [Except.ok_bind] at h
  have hw : P.WF c.g.Nx c.g.Ny := hc.drude _ (mapFind_mem hP)
  obtain ⟨P', h1, h2⟩ := refreshAll_drude
    (c := { c with f := c.f.paint (.simple vacuum) c.g.dt (fun _ _ => true) (rect 0 c.g.Nx 0 c.g.Ny) })
    objs (Flds.paint_dims hc.f _ _ _ _) hs h hP hw
  refine ⟨P', h1, h2.mat, h2.J, fun i j i0 i1 j0 j1 => ?_⟩
  rw [drude_active_iff h2 hw hr i0 i1 j0 j1]
  simp only [i0, i1, j0, j1, true_and]

/-- C12 (partial, Drude): if the fields are cleared before `update_material_grid`, the response is active at exactly the
nodes inside some object of the material, at their current positions. -/
theorem C12_drude_after_clear_partial (c c' : Core ℝ) (hc : c.WF) (objs : List (Object ℝ)) (hs : ∀ o ∈ objs, o.Safe c.g)
    (h : c.clearFields.updateMaterialGrid objs = .ok c') (n : String) (P : DrudePol ℝ) (hP : mapFind n c.drude = some P)
    (hr : DrudeResponds c.g.dt P.mat) :
    ∃ P', mapFind n c'.drude = some P' ∧ P'.mat = P.mat ∧ ∀ i j, 0 ≤ i → i < c.g.Nx → 0 ≤ j → j < c.g.Ny →
      (DrudeActive P' i j ↔ ∃ o ∈ objs, o.IsDrude n ∧ o.inside (c.g.toReal ⟨i, j⟩) = true) := by
  obtain ⟨P', h1, h2, -, h3⟩ := C12_drude_refresh c.clearFields c' (Core.clearFields_ok hc).1 objs hs h n P.reset
    (clearFields_drude hP) hr
  refine ⟨P', h1, h2, fun i j i0 i1 j0 j1 => (h3 i j i0 i1 j0 j1).trans ⟨?_, Or.inl⟩⟩
  rintro (hh | ⟨N, -, -, hN⟩)
  · exact hh
  · exact absurd rfl hN

/-- C12 (partial, Drude): as long as objects are only added, the response is active at exactly the nodes inside some
object of the material (also where a later object of another material overlaps it). -/
theorem C12_drude_adding_partial (c c' : Core ℝ) (hc : c.WF) (objs : List (Object ℝ)) (hs : ∀ o ∈ objs, o.Safe c.g)
    (h : forList objs c (fun o c => c.insertObject o) = .ok c') (n : String) (hn : mapFind n c.drude = none)
    (he : ∃ o ∈ objs, o.IsDrude n)
    (hr : ∀ o ∈ objs, ∀ m, o.mat.kind = .drude m → o.mat.name = n → DrudeResponds c.g.dt m) :
    ∃ P', mapFind n c'.drude = some P' ∧ ∀ i j, 0 ≤ i → i < c.g.Nx → 0 ≤ j → j < c.g.Ny →
      (DrudeActive P' i j ↔ ∃ o ∈ objs, o.IsDrude n ∧ o.inside (c.g.toReal ⟨i, j⟩) = true) := by
  obtain ⟨m, P', ⟨o, ho, hk, hnm⟩, h1, h2⟩ := insertAll_drude_fresh objs hc.f hs h hn he
  refine ⟨P', h1, fun i j i0 i1 j0 j1 => ?_⟩
  rw [drude_active_iff h2 (DrudePol.make_wf _ _) (hr o ho m hk hnm) i0 i1 j0 j1]
  simp only [i0, i1, j0, j1, true_and]
  constructor
  · rintro (hh | ⟨N, -, -, hN⟩)
    · exact hh
    · exact absurd rfl hN
  · exact Or.inl

/-- C12 fails (Drude): an object is added and then posed differently; at every node it has left, its response stays on
after `update_material_grid`. -/
theorem C12_drude_ghost (g : Grid ℝ) (c c1 c2 : Core ℝ) (hmake : Core.make g = .ok c) (hg : g.T + 1 ≤ g.Nx ∧ g.T + 1 ≤ g.Ny)
    (o : Object ℝ) (m : Drude ℝ) (hk : o.mat.kind = .drude m) (hr : DrudeResponds g.dt m) (op : PoseOp ℝ)
    (hs : o.Safe g) (hs' : (o.pose op).Safe g)
    (hadd : c.insertObject o = .ok c1) (hup : c1.updateMaterialGrid [o.pose op] = .ok c2) :
    ∃ P, mapFind o.mat.name c2.drude = some P ∧ ∀ i j, 0 ≤ i → i < g.Nx → 0 ≤ j → j < g.Ny →
      o.inside (g.toReal ⟨i, j⟩) = true → DrudeActive P i j := by
  obtain ⟨c0, m1, wf, g0, -⟩ := Core.make_ok hg.1 hg.2
  rw [hmake] at m1; cases m1
  have hempty : c.drude = [] := Core.make_no_pol hmake |>.2.1
  subst g0
  obtain ⟨P1, e1, e2⟩ := insertObject_drude_first wf.f hs hadd hk (by rw [hempty]; rfl)
  obtain ⟨f1, g1⟩ := insertObject_f wf.f hs hadd
  obtain ⟨c1', a1, wf1, -⟩ := Core.insertObject_ok wf hs
  rw [hadd] at a1; cases a1
  obtain ⟨P2, b1, b2, -, b3⟩ := C12_drude_refresh c1 c2 wf1 [o.pose op] (by rw [g1]; simpa using hs') hup o.mat.name P1 e1
    (by rw [e2.mat, g1]; exact hr)
  rw [g1] at b3
  refine ⟨P2, b1, fun i j i0 i1 j0 j1 hin => (b3 i j i0 i1 j0 j1).mpr (Or.inr ?_)⟩
  rw [drude_active_iff e2 (DrudePol.make_wf _ _) hr i0 i1 j0 j1]
  exact Or.inl ⟨i0, i1, j0, j1, hin⟩

/-! ### Lorentz -/

theorem lorentz_strength_ne {g : Grid ℝ} {P : LorentzPol ℝ} (hP : P.WF g.Nx g.Ny) {dt : ℝ} (h : LorentzResponds dt P.mat) :
    ∃ N, 0 ≤ N ∧ N < P.np ∧ P.strength dt N ≠ 0 := by
  obtain ⟨p, hp, hne⟩ := h
  obtain ⟨k, hk, he⟩ := List.mem_iff_getElem.mp hp
  refine ⟨k, by positivity, by rw [hP.np]; exact_mod_cast hk, ?_⟩
  simp only [LorentzPol.strength, Arr.ofList, Int.toNat_natCast]
  simpa [List.getD, List.getElem?_map, List.getElem?_eq_getElem hk, he] using hne

theorem lorentz_active_iff {g : Grid ℝ} {q : ℤ → ℤ → Prop} {P P' : LorentzPol ℝ} (h : LorentzPol.Painted g q P P') (hP : P.WF g.Nx g.Ny)
    (hr : LorentzResponds g.dt P.mat) {i j : ℤ} (i0 : 0 ≤ i) (i1 : i < g.Nx) (j0 : 0 ≤ j) (j1 : j < g.Ny) :
    LorentzActive P' i j ↔ q i j ∨ LorentzActive P i j := by
  by_cases hq : q i j
  · simp only [hq, true_or, iff_true]
    obtain ⟨N, a, b, d⟩ := lorentz_strength_ne hP hr
    exact ⟨N, a, by rw [h.np]; exact b, by rw [h.on i j N i0 i1 j0 j1 a b hq]; exact d⟩
  · simp only [hq, false_or]
    unfold LorentzActive
    simp only [h.np, h.off i j _ hq]

/-- C12, what the code does (Lorentz): `update_material_grid` switches the response on at the nodes inside the objects of the
material and leaves it on where it was on before. -/
theorem C12_lorentz_refresh (c c' : Core ℝ) (hc : c.WF) (objs : List (Object ℝ)) (hs : ∀ o ∈ objs, o.Safe c.g)
    (h : c.updateMaterialGrid objs = .ok c') (n : String) (P : LorentzPol ℝ) (hP : mapFind n c.lorentz = some P)
    (hr : LorentzResponds c.g.dt P.mat) :
    ∃ P', mapFind n c'.lorentz = some P' ∧ P'.mat = P.mat ∧ P'.J = P.J ∧
      ∀ i j, 0 ≤ i → i < c.g.Nx → 0 ≤ j → j < c.g.Ny →
      (LorentzActive P' i j ↔ (∃ o ∈ objs, o.IsLorentz n ∧ o.inside (c.g.toReal ⟨i, j⟩) = true) ∨ LorentzActive P i j) := by
  unfold Core.updateMaterialGrid at h
  rw [clearMaterials_closed hc.f] at h
  simp only [Except.ok_bind] at h
  have hw : P.WF c.g.Nx c.g.Ny := hc.lorentz _ (mapFind_mem hP)
  obtain ⟨P', h1, h2⟩ := refreshAll_lorentz
    (c := { c with f := c.f.paint (.simple vacuum) c.g.dt (fun _ _ => true) (rect 0 c.g.Nx 0 c.g.Ny) })
    objs (Flds.paint_dims hc.f _ _ _ _) hs h hP hw
  refine ⟨P', h1, h2.mat, h2.J, fun i j i0 i1 j0 j1 => ?_⟩
  rw [lorentz_active_iff h2 hw hr i0 i1 j0 j1]
  simp only [i0, i1, j0, j1, true_and]

/-- C12 (partial, Lorentz): if the fields are cleared before `update_material_grid`, the response is active at exactly the
nodes inside some object of the material, at their current positions. -/
theorem C12_lorentz_after_clear_partial (c c' : Core ℝ) (hc : c.WF) (objs : List (Object ℝ)) (hs : ∀ o ∈ objs, o.Safe c.g)
    (h : c.clearFields.updateMaterialGrid objs = .ok c') (n : String) (P : LorentzPol ℝ) (hP : mapFind n c.lorentz = some P)
    (hr : LorentzResponds c.g.dt P.mat) :
    ∃ P', mapFind n c'.lorentz = some P' ∧ P'.mat = P.mat ∧ ∀ i j, 0 ≤ i → i < c.g.Nx → 0 ≤ j → j < c.g.Ny →
      (LorentzActive P' i j ↔ ∃ o ∈ objs, o.IsLorentz n ∧ o.inside (c.g.toReal ⟨i, j⟩) = true) := by
  obtain ⟨P', h1, h2, -, h3⟩ := C12_lorentz_refresh c.clearFields c' (Core.clearFields_ok hc).1 objs hs h n P.reset
    (clearFields_lorentz hP) hr
  refine ⟨P', h1, h2, fun i j i0 i1 j0 j1 => (h3 i j i0 i1 j0 j1).trans ⟨?_, Or.inl⟩⟩
  rintro (hh | ⟨N, -, -, hN⟩)
  · exact hh
  · exact absurd rfl hN

/-- C12 (partial, Lorentz): as long as objects are only added, the response is active at exactly the nodes inside some
object of the material (also where a later object of another material overlaps it). -/
theorem C12_lorentz_adding_partial (c c' : Core ℝ) (hc : c.WF) (objs : List (Object ℝ)) (hs : ∀ o ∈ objs, o.Safe c.g)
    (h : forList objs c (fun o c => c.insertObject o) = .ok c') (n : String) (hn : mapFind n c.lorentz = none)
    (he : ∃ o ∈ objs, o.IsLorentz n)
    (hr : ∀ o ∈ objs, ∀ m, o.mat.kind = .lorentz m → o.mat.name = n → LorentzResponds c.g.dt m) :
    ∃ P', mapFind n c'.lorentz = some P' ∧ ∀ i j, 0 ≤ i → i < c.g.Nx → 0 ≤ j → j < c.g.Ny →
      (LorentzActive P' i j ↔ ∃ o ∈ objs, o.IsLorentz n ∧ o.inside (c.g.toReal ⟨i, j⟩) = true) := by
  obtain ⟨m, P', ⟨o, ho, hk, hnm⟩, h1, h2⟩ := insertAll_lorentz_fresh objs hc.f hs h hn he
  refine ⟨P', h1, fun i j i0 i1 j0 j1 => ?_⟩
  rw [lorentz_active_iff h2 (LorentzPol.make_wf _ _) (hr o ho m hk hnm) i0 i1 j0 j1]
  simp only [i0, i1, j0, j1, true_and]
  constructor
  · rintro (hh | ⟨N, -, -, hN⟩)
    · exact hh
    · exact absurd rfl hN
  · exact Or.inl

/-- C12 fails (Lorentz): an object is added and then posed differently; at every node it has left, its response stays on
after `update_material_grid`. -/
theorem C12_lorentz_ghost (g : Grid ℝ) (c c1 c2 : Core ℝ) (hmake : Core.make g = .ok c) (hg : g.T + 1 ≤ g.Nx ∧ g.T + 1 ≤ g.Ny)
    (o : Object ℝ) (m : Lorentz ℝ) (hk : o.mat.kind = .lorentz m) (hr : LorentzResponds g.dt m) (op : PoseOp ℝ)
    (hs : o.Safe g) (hs' : (o.pose op).Safe g)
    (hadd : c.insertObject o = .ok c1) (hup : c1.updateMaterialGrid [o.pose op] = .ok c2) :
    ∃ P, mapFind o.mat.name c2.lorentz = some P ∧ ∀ i j, 0 ≤ i → i < g.Nx → 0 ≤ j → j < g.Ny →
      o.inside (g.toReal ⟨i, j⟩) = true → LorentzActive P i j := by
  obtain ⟨c0, m1, wf, g0, -⟩ := Core.make_ok hg.1 hg.2
  rw [hmake] at m1; cases m1
  have hempty : c.lorentz = [] := Core.make_no_pol hmake |>.2.2
  subst g0
  obtain ⟨P1, e1, e2⟩ := insertObject_lorentz_first wf.f hs hadd hk (by rw [hempty]; rfl)
  obtain ⟨f1, g1⟩ := insertObject_f wf.f hs hadd
  obtain ⟨c1', a1, wf1, -⟩ := Core.insertObject_ok wf hs
  rw [hadd] at a1; cases a1
  obtain ⟨P2, b1, b2, -, b3⟩ := C12_lorentz_refresh c1 c2 wf1 [o.pose op] (by rw [g1]; simpa using hs') hup o.mat.name P1 e1
    (by rw [e2.mat, g1]; exact hr)
  rw [g1] at b3
  refine ⟨P2, b1, fun i j i0 i1 j0 j1 hin => (b3 i j i0 i1 j0 j1).mpr (Or.inr ?_)⟩
  rw [lorentz_active_iff e2 (LorentzPol.make_wf _ _) hr i0 i1 j0 j1]
  exact Or.inl ⟨i0, i1, j0, j1, hin⟩

/-- The property as stated, for the simplest histories: create, add one object, pose it, refresh. -/
def C12_statement : Prop :=
  ∀ (g : Grid ℝ) (c c1 c2 : Core ℝ) (o : Object ℝ) (m : Debye ℝ) (op : PoseOp ℝ), Lawful g →
    o.mat.kind = .debye m → DebyeResponds g.dt m → LibShape o.geom →
    ClearOfUnguardedEdges g o → ClearOfUnguardedEdges g (o.pose op) →
    Core.make g = .ok c → c.insertObject o = .ok c1 → c1.updateMaterialGrid [o.pose op] = .ok c2 →
    ∃ P, mapFind o.mat.name c2.debye = some P ∧ ∀ i j, 0 ≤ i → i < g.Nx → 0 ≤ j → j < g.Ny →
      (DebyeActive P i j ↔ (o.pose op).inside (g.toReal ⟨i, j⟩) = true)

/-- A Debye medium with one pole. -/
noncomputable def water : Material ℝ := ⟨"water", .debye ⟨2, [⟨1, 1⟩]⟩⟩

theorem water_responds : DebyeResponds gEx.dt ⟨2, [⟨1, 1⟩]⟩ := by
  refine ⟨⟨1, 1⟩, by simp, ?_⟩
  rw [gEx_dt]
  simp only [DebyePole.beta, ofInt_real]
  norm_num

/-- C12 is false: a disc of a Debye medium that is moved leaves its response behind. -/
theorem C12_false : ¬ C12_statement := by
  intro h
  obtain ⟨c, hm, hc, hg⟩ := gEx_core
  have hcl := disc_clear water (x := 5) (y := 5) (by norm_num) (by norm_num)
  have hcl' : ClearOfUnguardedEdges gEx ((disc water 5 5).pose (.setPosition ⟨12, 12⟩)) :=
    disc_clear water (x := 12) (y := 12) (by norm_num) (by norm_num)
  have hs := safe_of_clear gEx_lawful hcl
  have hs' := safe_of_clear gEx_lawful hcl'
  obtain ⟨c1, a1, w1, g1, -⟩ := Core.insertObject_ok hc (o := disc water 5 5) (by rw [hg]; exact hs)
  have hp : c1.HasPol ((disc water 5 5).pose (.setPosition ⟨12, 12⟩)) := (Core.insertObject_hasPol a1).1
  obtain ⟨c2, a2, -⟩ := Core.updateMaterialGrid_ok w1 [(disc water 5 5).pose (.setPosition ⟨12, 12⟩)]
    (by rw [g1, hg]; simpa using hs') (by simpa using hp)
  obtain ⟨P, b1, b2⟩ := h gEx c c1 c2 (disc water 5 5) _ (.setPosition ⟨12, 12⟩) gEx_lawful rfl water_responds
    (.cylinder 2 (by norm_num)) hcl hcl' hm a1 a2
  obtain ⟨P', d1, d2⟩ := C12_debye_ghost gEx c c1 c2 hm
    ⟨by rw [gEx_T, gEx_Nx]; norm_num, by rw [gEx_T, gEx_Ny]; norm_num⟩ (disc water 5 5) _ rfl water_responds
    (.setPosition ⟨12, 12⟩) hs hs' a1 a2
  rw [b1] at d1; cases d1
  have i1 : (5 : ℤ) < gEx.Nx := by rw [gEx_Nx]; norm_num
  have j1 : (5 : ℤ) < gEx.Ny := by rw [gEx_Ny]; norm_num
  have act := d2 5 5 (by norm_num) i1 (by norm_num) j1
    (by rw [disc_inside]; simp only [Grid.toReal, gEx_dx, ofInt_real]; norm_num)
  have := (b2 5 5 (by norm_num) i1 (by norm_num) j1).mp act
  have e : (disc water 5 5).pose (.setPosition ⟨12, 12⟩) = disc water 12 12 := rfl
  rw [e, disc_inside] at this
  simp only [Grid.toReal, gEx_dx, ofInt_real] at this
  norm_num at this

end Qbox.Props
