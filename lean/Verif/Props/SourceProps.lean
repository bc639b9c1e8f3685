import Verif.Lemmas.CoreOps

/-!
# C31, C32: point and line sources
-/

namespace Qbox.Props
open Qbox Scalar Spec

set_option linter.unusedSectionVars false

variable {K : Type} [Scalar K]

/-! ## One source -/

/-- **C31** (one source). A point source whose node exists adds its profile's value at the current time to its component
at the node nearest its position; every other value of every component, and every material coefficient, is unchanged. The
profile is asked for its value once. -/
theorem C31_point_source (g : Grid K) (t : K) (name : String) (C : Fields) (p : V2 K) (tp : TimeProfile K) (f : Flds K)
    (hC : C.IsComp) (hp : InGrid g (g.toGrid p)) (hf : f.Dims g.Nx g.Ny) :
    ∃ f' tp', Source.pulse g t ⟨name, .point C p, tp⟩ f = (⟨name, .point C p, tp'⟩, .ok f') ∧
      tp.response t = .ok (tp.resp t, tp') ∧
      (f'.comp C).val (g.toGrid p).x (g.toGrid p).y = (f.comp C).val (g.toGrid p).x (g.toGrid p).y + tp.resp t ∧
      (∀ C' : Fields, C'.IsComp → ∀ x y, ¬ (C' = C ∧ x = (g.toGrid p).x ∧ y = (g.toGrid p).y) →
        (f'.comp C').val x y = (f.comp C').val x y) ∧
      f'.Ca = f.Ca ∧ f'.Cb = f.Cb ∧ f'.Da = f.Da ∧ f'.Db = f.Db := by
  obtain ⟨f', tp', h1, h2, -, h4, h5⟩ := Source.pulse_spec g t ⟨name, .point C p, tp⟩ f ⟨hC, hp⟩ hf
  refine ⟨f', tp', h1, h2, ?_, ?_, h4⟩
  · rw [h5 C hC]
    exact if_pos ⟨rfl, rfl⟩
  · intro C' hC' x y hn
    rw [h5 C' hC', if_neg]
    rintro ⟨rfl, hp⟩
    exact hn ⟨rfl, congrArg V2.x hp, congrArg V2.y hp⟩

/-- **C31** (position). In exact arithmetic the driven node is at most half a cell from the source's position. -/
theorem C31_nearest_node (Lx Ly res : ℝ) (pml : ℤ) (hres : 0 < res) (p : V2 ℝ) :
    let g := Grid.make Lx Ly res pml
    |(g.toReal (g.toGrid p)).x - p.x| ≤ g.dx / 2 ∧ |(g.toReal (g.toGrid p)).y - p.y| ≤ g.dx / 2 :=
  C01_position_roundtrip Lx Ly res pml hres p

/-- **C32**. A line source on an axis-parallel segment of at least one cell stops after visiting every node of the
segment, first end included and second end excluded, exactly once: the profile's value is added once there and nothing
else changes. -/
theorem C32_line_source (g : Grid K) (t : K) (name : String) (C : Fields) (surf : Surf K) (tp : TimeProfile K) (f : Flds K)
    (hC : C.IsComp)
    (hax : ((g.toGrid surf.a).x = (g.toGrid surf.b).x ∧ (g.toGrid surf.a).y ≠ (g.toGrid surf.b).y) ∨
      ((g.toGrid surf.a).x ≠ (g.toGrid surf.b).x ∧ (g.toGrid surf.a).y = (g.toGrid surf.b).y))
    (hin : ∀ p, OnSeg (g.toGrid surf.a) (g.toGrid surf.b) p → InGrid g p) (hf : f.Dims g.Nx g.Ny) :
    ∃ f' tp', Source.pulse g t ⟨name, .line C surf, tp⟩ f = (⟨name, .line C surf, tp'⟩, .ok f') ∧
      tp.response t = .ok (tp.resp t, tp') ∧
      (∀ x y, OnSeg (g.toGrid surf.a) (g.toGrid surf.b) ⟨x, y⟩ →
        (f'.comp C).val x y = (f.comp C).val x y + tp.resp t) ∧
      (∀ C' : Fields, C'.IsComp → ∀ x y, ¬ (C' = C ∧ OnSeg (g.toGrid surf.a) (g.toGrid surf.b) ⟨x, y⟩) →
        (f'.comp C').val x y = (f.comp C').val x y) ∧
      f'.Ca = f.Ca ∧ f'.Cb = f.Cb ∧ f'.Da = f.Da ∧ f'.Db = f.Db := by
  obtain ⟨f', tp', h1, h2, -, h4, h5⟩ := Source.pulse_spec g t ⟨name, .line C surf, tp⟩ f ⟨hC, hax, hin⟩ hf
  refine ⟨f', tp', h1, h2, ?_, ?_, h4⟩
  · intro x y hs
    rw [h5 C hC]
    exact if_pos ⟨rfl, hs⟩
  · intro C' hC' x y hn
    rw [h5 C' hC', if_neg]
    rintro ⟨rfl, hp⟩
    exact hn ⟨rfl, hp⟩

/-- **C32** (degenerate segments). A segment whose two ends round to the same node is not driven: the direction is
computed by an integer division by zero. A segment that is not axis-parallel on the grid is rejected with an
exception. -/
theorem C32_degenerate (g : Grid K) (t : K) (name : String) (C : Fields) (surf : Surf K) (tp : TimeProfile K) (f : Flds K) :
    (g.toGrid surf.a = g.toGrid surf.b →
      (Source.pulse g t ⟨name, .line C surf, tp⟩ f).2 = .error (.ub .divZero)) ∧
    ((g.toGrid surf.a).x ≠ (g.toGrid surf.b).x → (g.toGrid surf.a).y ≠ (g.toGrid surf.b).y →
      ∃ msg, (Source.pulse g t ⟨name, .line C surf, tp⟩ f).2 = .error (.exn msg)) := by
  have h := C05_isurface_outcome (g.toGrid surf.a) (g.toGrid surf.b) surf.sg
  constructor
  · intro he
    have h1 := h.2.1 he
    have hg : g.toGridS surf = .error (.ub .divZero) := h1
    simp only [Source.pulse, hg]
  · intro hx hy
    have h1 := h.1 ⟨hx, hy⟩
    have hg : g.toGridS surf = _ := h1
    simp only [Source.pulse, hg]
    exact ⟨_, rfl⟩

/-- A segment of three cells, traversed downwards, on a 10 by 10 grid. -/
example : let a : V2 ℤ := ⟨4, 7⟩; let b : V2 ℤ := ⟨4, 4⟩
    (OnSeg a b ⟨4, 7⟩ ∧ OnSeg a b ⟨4, 5⟩ ∧ ¬ OnSeg a b ⟨4, 4⟩ ∧ ¬ OnSeg a b ⟨5, 5⟩) := by
  simp [OnSeg]

/-! ## Several sources -/

/-- Sum of what the sources add to component `C` at node `p`. -/
noncomputable def totalContrib (g : Grid ℝ) (t : ℝ) (srcs : List (Source ℝ)) (C : Fields) (p : V2 ℤ) : ℝ :=
  (srcs.map fun s => contrib g s (s.tp.resp t) C p).sum

/-- **C31** (several sources). In exact arithmetic the sources of a list add up: every value increases by the sum of the
contributions of the individual sources. -/
theorem C31_sources_add_up (g : Grid ℝ) (t : ℝ) : ∀ (srcs : List (Source ℝ)) (f : Flds ℝ), (∀ s ∈ srcs, Fits g s) →
    f.Dims g.Nx g.Ny → ∃ srcs' f', pulseAll g t srcs f = .ok (srcs', f') ∧ f'.Dims g.Nx g.Ny ∧ f.SameCoef f' ∧
      ∀ C : Fields, C.IsComp → ∀ x y, (f'.comp C).val x y = (f.comp C).val x y + totalContrib g t srcs C ⟨x, y⟩
  | [], f, _, hf => ⟨[], f, rfl, hf, ⟨rfl, rfl, rfl, rfl⟩, fun C _ x y => by simp [totalContrib]⟩
  | s :: l, f, hs, hf => by
    obtain ⟨f1, tp', h1, h2, h3, h4, h4'⟩ := Source.pulse_spec g t s f (hs s (by simp)) hf
    obtain ⟨l', f2, h5, h6, h7, h8⟩ := C31_sources_add_up g t l f1 (fun s hs' => hs s (by simp [hs'])) h3
    refine ⟨{ s with tp := tp' } :: l', f2, ?_, h6, ?_, ?_⟩
    · unfold pulseAll
      rw [h1]; simp only [Except.ok_bind]
      rw [h5]; rfl
    · obtain ⟨a1, a2, a3, a4⟩ := h4
      obtain ⟨b1, b2, b3, b4⟩ := h7
      exact ⟨b1.trans a1, b2.trans a2, b3.trans a3, b4.trans a4⟩
    · intro C hC x y
      rw [h8 C hC, h4' C hC]
      simp only [totalContrib, List.map_cons, List.sum_cons, contrib]
      split <;> ring

theorem Flds.ext_comp {f f' : Flds ℝ} {Nx Ny : ℤ} (hf : f.Dims Nx Ny) (hf' : f'.Dims Nx Ny) (hc : f.SameCoef f')
    (h : ∀ C : Fields, C.IsComp → ∀ x y, (f'.comp C).val x y = (f.comp C).val x y) : f' = f := by
  obtain ⟨c1, c2, c3, c4⟩ := hc
  have e1 : f'.Ez = f.Ez := Tensor.ext' (hf'.Ez.1.trans hf.Ez.1.symm) (hf'.Ez.2.trans hf.Ez.2.symm)
    (h .Ez (Or.inl rfl))
  have e2 : f'.Hx = f.Hx := Tensor.ext' (hf'.Hx.1.trans hf.Hx.1.symm) (hf'.Hx.2.trans hf.Hx.2.symm)
    (h .Hx (Or.inr (Or.inl rfl)))
  have e3 : f'.Hy = f.Hy := Tensor.ext' (hf'.Hy.1.trans hf.Hy.1.symm) (hf'.Hy.2.trans hf.Hy.2.symm)
    (h .Hy (Or.inr (Or.inr rfl)))
  cases f; cases f'
  simp only at *
  subst c1 c2 c3 c4 e1 e2 e3
  rfl

/-- **C31** (order). In exact arithmetic the fields after pulsing do not depend on the order of the sources. -/
theorem C31_sources_commute (g : Grid ℝ) (t : ℝ) (srcs srcs2 : List (Source ℝ)) (hperm : srcs.Perm srcs2) (f : Flds ℝ)
    (hs : ∀ s ∈ srcs, Fits g s) (hf : f.Dims g.Nx g.Ny) :
    ∃ f' l l2, pulseAll g t srcs f = .ok (l, f') ∧ pulseAll g t srcs2 f = .ok (l2, f') := by
  obtain ⟨l, f1, h1, d1, c1, v1⟩ := C31_sources_add_up g t srcs f hs hf
  obtain ⟨l2, f2, h2, d2, c2, v2⟩ := C31_sources_add_up g t srcs2 f (fun s h => hs s (hperm.mem_iff.mpr h)) hf
  have : f2 = f1 := by
    refine Flds.ext_comp d1 d2 ?_ ?_
    · obtain ⟨a1, a2, a3, a4⟩ := c1
      obtain ⟨b1, b2, b3, b4⟩ := c2
      exact ⟨b1.trans a1.symm, b2.trans a2.symm, b3.trans a3.symm, b4.trans a4.symm⟩
    · intro C hC x y
      rw [v1 C hC, v2 C hC]
      congr 1
      exact ((hperm.map _).sum_eq).symm
  subst this
  exact ⟨f2, l, l2, h1, h2⟩

/-- **C31** (one update). In exact arithmetic, the electric field after an `update()` with sources is the electric field
after the same `update()` without sources plus the sources' contributions, evaluated once at the new time. -/
theorem C31_update (c : Core ℝ) (hc : c.WF) (hg : c.g.Wide) (srcs : List (Source ℝ)) (hs : ∀ s ∈ srcs, Fits c.g s) :
    ∃ c1 c0 l, c.update srcs = .ok (c1, l) ∧ c.update [] = .ok (c0, []) ∧ c1.t = c.t + c.g.dt ∧
      ∀ x y, c1.f.Ez.val x y = c0.f.Ez.val x y + totalContrib c.g (c.t + c.g.dt) srcs .Ez ⟨x, y⟩ := by
  have stageH_Ez : ∀ {a b : Core ℝ}, a.stageH = .ok b → b.f.Ez = a.f.Ez := by
    intro a b h
    unfold Core.stageH at h
    simp only [Except.bind_ok] at h
    obtain ⟨w, -, hh, -, ⟨p, X, Y⟩, -, h2, -, h4⟩ := h
    cases h4
    rfl
  obtain ⟨c1, h1, w1, g1, s1, n1, t1, f1⟩ := Core.stageE_ok hc hg
  obtain ⟨l, f', h2, d2, -, v2⟩ := C31_sources_add_up c1.g c1.t srcs c1.f (by rw [g1]; exact hs) w1.f
  obtain ⟨c2, h4, w4, g4, s4, n4, t4, f4⟩ := Core.stageH_ok (c := { c1 with f := f' }) { w1 with f := d2 }
    (by rw [show ({ c1 with f := f' } : Core ℝ).g = c.g from g1]; exact hg)
  obtain ⟨c3, h5, -⟩ := Core.stageH_ok (c := c1) w1 (by rw [g1]; exact hg)
  refine ⟨c2, c3, l, ?_, ?_, t4.trans t1, ?_⟩
  · unfold Core.update
    rw [h1]; simp only [Except.ok_bind]
    rw [h2]; simp only [Except.ok_bind]
    rw [h4]; rfl
  · unfold Core.update
    rw [h1]; simp only [Except.ok_bind, pulseAll]
    rw [show ({ c1 with f := c1.f } : Core ℝ) = c1 from rfl, h5]; rfl
  · intro x y
    rw [stageH_Ez h4, stageH_Ez h5]
    have := v2 .Ez (Or.inl rfl) x y
    rw [t1, g1] at this
    exact this

/-- A grid and two sources that meet the hypotheses. -/
example : let g : Grid ℝ := ⟨9, 7, 10, 8, 1, 1 / 2, 1, 3⟩
    Fits g ⟨"a", .point .Ez ⟨4, 4⟩, .continuous 1⟩ ∧ g.toGrid ⟨4, 4⟩ = ⟨4, 4⟩ := by
  have h : roundAway (4 : ℝ) = 4 := by exact_mod_cast roundAway_int 4
  simp [Fits, InGrid, Grid.toGrid, Fields.IsComp, h]

end Qbox.Props
