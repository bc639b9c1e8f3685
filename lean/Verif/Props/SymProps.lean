import Verif.Lemmas.SwapMake
import Verif.Lemmas.Mirror
import Verif.Lemmas.Layer
import Verif.Props.MediumProps

/-!
# C19, C20: symmetries of the update
-/

namespace Qbox.Props
open Qbox Scalar Spec

/-! ## C19: exchanging the axes -/

/-- **C19.** Exchange the axes of any simulation without a total-field region: grid, media, layer memory, dispersive currents,
fields and sources. After any number of updates the result is the exchanged result, exactly (in exact arithmetic), including
memory and clock. -/
theorem C19_exchange (n : ℕ) : ∀ (c : Core ℝ) (l l' : List (Source ℝ)), c.Std → c.tfsf = none → List.Forall₂ (SrcSwap c.g) l l' →
    (∀ s ∈ l, Fits c.g s) → (∀ s ∈ l', Fits (swapGrid c.g) s) →
    ∃ c' k k', c.run n l = .ok (c', k) ∧ (swapCore c).run n l' = .ok (swapCore c', k') := by
  induction n with
  | zero => intro c l l' _ _ _ _ _; exact ⟨c, l, l', rfl, rfl⟩
  | succ n ih =>
    intro c l l' hc ht hl hs hs'
    obtain ⟨c1, k, k', h1, h2, hc1, -, ht1, hl1, hs1, hs1'⟩ := update_swap hc ht hl hs hs'
    obtain ⟨c2, m, m', h3, h4⟩ := ih c1 k k' hc1 ht1 hl1 hs1 hs1'
    refine ⟨c2, m, m', ?_, ?_⟩
    · rw [Core.run, h1]; exact h3
    · rw [Core.run, h2]; exact h4

/-- **C19** (construction). Building a simulation on the exchanged grid gives the exchanged simulation. -/
theorem C19_construct (g : Grid ℝ) (hg : g.Wide) (hl : Lawful g) (hT : g.T = 0 ∨ 2 ≤ g.T) :
    ∃ c, Core.make g = .ok c ∧ Core.make (swapGrid g) = .ok (swapCore c) := make_swap hg hl hT

/-- The same source on the exchanged axes. -/
noncomputable def swapSource (s : Source ℝ) : Source ℝ :=
  match s.kind with
  | .point C p => ⟨s.name, .point (swapComp C) (swapV p), ⟨fun t => swapSign C * s.tp.resp t, none, s.tp.params⟩⟩
  | .line C u => ⟨s.name, .line (swapComp C) ⟨swapV u.a, swapV u.b, u.sg, swapV u.dim, swapV u.normal, swapV u.tangent⟩,
      ⟨fun t => swapSign C * s.tp.resp t, none, s.tp.params⟩⟩

theorem swapComp_inj {C D : Fields} : swapComp C = swapComp D ↔ C = D := by
  cases C <;> cases D <;> simp [swapComp]

theorem swapV_inj {p q : V2 ℤ} : swapV p = swapV q ↔ p = q := by
  cases p; cases q; simp [swapV, and_comm]

theorem onSeg_swap {a b p : V2 ℤ} : OnSeg (swapV a) (swapV b) (swapV p) ↔ OnSeg a b p := by
  unfold OnSeg
  simp only [ne_eq, swapV_inj]
  simp only [swapV]
  tauto

theorem swapV_swapV {α : Type} (p : V2 α) : swapV (swapV p) = p := rfl

/-- **C19** (sources). Every point or line source has a counterpart on the exchanged axes, and it fits the exchanged grid if
the source fits the grid. -/
theorem C19_sources (g : Grid ℝ) (s : Source ℝ) : SrcSwap g s (swapSource s) ∧ (Fits g s → Fits (swapGrid g) (swapSource s)) := by
  have ic : ∀ {C : Fields}, C.IsComp → (swapComp C).IsComp := by
    rintro C (rfl | rfl | rfl) <;> simp [swapComp, Fields.IsComp]
  obtain ⟨nm, kd, tp⟩ := s
  cases kd with
  | point C q =>
    refine ⟨⟨fun D p hD => ?_, fun D p hd t => ?_⟩, fun h => ?_⟩
    · show (swapComp D = swapComp C ∧ swapV p = (swapGrid g).toGrid (swapV q)) ↔ (D = C ∧ p = g.toGrid q)
      rw [swapComp_inj, show (swapGrid g).toGrid (swapV q) = swapV (g.toGrid q) from rfl, swapV_inj]
    · have : D = C := hd.1
      subst this; rfl
    · obtain ⟨h1, h2, h3, h4, h5⟩ := h
      exact ⟨ic h1, h4, h5, h2, h3⟩
  | line C u =>
    refine ⟨⟨fun D p hD => ?_, fun D p hd t => ?_⟩, fun h => ?_⟩
    · show (swapComp D = swapComp C ∧ OnSeg (swapV (g.toGrid u.a)) (swapV (g.toGrid u.b)) (swapV p)) ↔
        (D = C ∧ OnSeg (g.toGrid u.a) (g.toGrid u.b) p)
      rw [swapComp_inj, onSeg_swap]
    · have : D = C := hd.1
      subst this; rfl
    · obtain ⟨h1, h2, h3⟩ := h
      refine ⟨ic h1, h2.symm.imp (fun k => ⟨k.2, k.1⟩) (fun k => ⟨k.2, k.1⟩), fun p hp => ?_⟩
      have hp' : OnSeg (swapV (g.toGrid u.a)) (swapV (g.toGrid u.b)) (swapV (swapV p)) := hp
      obtain ⟨k1, k2, k3, k4⟩ := h3 _ (onSeg_swap.mp hp')
      exact ⟨k3, k4, k1, k2⟩

/-- A non-trivial case of C19: an arbitrary field with a point source in `Hx`, off the diagonal. -/
example (u : ℤ → ℤ → ℝ) : ∃ c : Core ℝ, ∃ s : Source ℝ, (withEz c u).Std ∧ (withEz c u).tfsf = none ∧
    List.Forall₂ (SrcSwap (withEz c u).g) [s] [swapSource s] ∧ Fits (withEz c u).g s ∧
    Fits (swapGrid (withEz c u).g) (swapSource s) := by
  obtain ⟨c, -, hs, hg, hz⟩ := gEx_std
  have hf : Fits gEx ⟨"s", .point .Hx ⟨5, 8⟩, .continuous (1 : ℝ)⟩ := by
    refine ⟨Or.inr (Or.inl rfl), ?_⟩
    have r5 : roundAway (5 : ℝ) = 5 := by simpa using roundAway_int 5
    have r8 : roundAway (8 : ℝ) = 8 := by simpa using roundAway_int 8
    have e : gEx.toGrid ⟨5, 8⟩ = ⟨5, 8⟩ := by simp [Grid.toGrid, gEx_dx, r5, r8]
    rw [e]
    exact ⟨by norm_num, by rw [gEx_Nx]; norm_num, by norm_num, by rw [gEx_Ny]; norm_num⟩
  have eg : (withEz c u).g = gEx := hg
  refine ⟨c, ⟨"s", .point .Hx ⟨5, 8⟩, .continuous (1 : ℝ)⟩, withEz_std hs u, hz.tfsf, .cons (C19_sources _ _).1 .nil, by rw [eg]; exact hf,
    (C19_sources _ _).2 (by rw [eg]; exact hf)⟩

/-! ## C20: mirror images -/

/-- **C20**, weakened. The full claim is `MirOn 0` in the conclusion; see `C20_not_mirror_symmetric`. What holds: mirror any
simulation left-right (media, layer memory, currents, fields, sources; no total-field region; magnetic media uniform along x).
After `n` updates the result is the mirrored result at every node at least `n` columns away from the left and right edges. -/
theorem C20_left_right_partial (n : ℕ) : ∀ (r : ℤ) (c d : Core ℝ) (l l' : List (Source ℝ)), 0 ≤ r → c.Std → d.Std → MirOn r c d →
    List.Forall₂ (SrcMir c.g) l l' → (∀ s ∈ l, Fits c.g s) → (∀ s ∈ l', Fits c.g s) →
    ∃ c' d' k k', c.run n l = .ok (c', k) ∧ d.run n l' = .ok (d', k') ∧ MirOn (r + n) c' d' := by
  induction n with
  | zero => intro r c d l l' _ _ _ h _ _ _; exact ⟨c, d, l, l', rfl, rfl, by simpa using h⟩
  | succ n ih =>
    intro r c d l l' hr hc hd h hl hs hs'
    obtain ⟨c1, d1, k, k', h1, h2, hc1, hd1, -, m1, hl1, hs1, hs1'⟩ := mir_update hr hc hd h hl hs hs'
    obtain ⟨c2, d2, m, m', h3, h4, m2⟩ := ih (r + 1) c1 d1 k k' (by omega) hc1 hd1 m1 hl1 hs1 hs1'
    refine ⟨c2, d2, m, m', ?_, ?_, ?_⟩
    · rw [Core.run, h1]; exact h3
    · rw [Core.run, h2]; exact h4
    · rw [show r + ((n + 1 : ℕ) : ℤ) = r + 1 + n by push_cast; ring]; exact m2

/-- Exchanging the axes turns a bottom-top mirrored source into a left-right mirrored one. -/
theorem srcMirY_swap {g : Grid ℝ} {s s' : Source ℝ} (hf : Fits g s) (h : SrcMirY g s s') : SrcMir (swapGrid g) (swapSource s) (swapSource s') := by
  have sw : ∀ C : Fields, swapComp (swapComp C) = C := fun C => by cases C <;> rfl
  have ic : ∀ {C : Fields}, C.IsComp → (swapComp C).IsComp := by
    rintro C (rfl | rfl | rfl) <;> simp [swapComp, Fields.IsComp]
  have A := (C19_sources g s).1
  have A' := (C19_sources g s').1
  have one : ∀ C i j, C.IsComp → (Drives (swapGrid g) (swapSource s) C ⟨i, j⟩ ↔ Drives g s (swapComp C) ⟨j, i⟩) := fun C i j hC => by
    have := A.drives (swapComp C) ⟨j, i⟩ (ic hC)
    rwa [sw] at this
  refine ⟨fun C i j hC => ?_, fun C p hd t => ?_⟩
  · rw [one C i j hC, ← h.drives _ j i (ic hC)]
    have := A'.drives (swapComp C) ⟨j, mirRow g.Ny (swapComp C) i⟩ (ic hC)
    rw [sw] at this
    rw [← this]
    cases C <;> exact Iff.rfl
  · have hC : C.IsComp := by
      obtain ⟨nm, kd, tp⟩ := s
      cases kd with
      | point D q => rw [show C = swapComp D from hd.1]; exact ic hf.1
      | line D u => rw [show C = swapComp D from hd.1]; exact ic hf.1
    have d := (one C p.x p.y hC).mp hd
    have e1 := A.signal _ _ d t
    have e3 := h.signal _ _ d t
    have e2 := A'.signal _ _ ((h.drives _ p.y p.x (ic hC)).mpr d) t
    rw [e2, e3, e1]
    cases C <;> simp [swapComp, mirSign, mirSignY]

/-- **C20**, weakened, bottom-top: the mirrored result at every node at least `n` rows away from the bottom and top edges. -/
theorem C20_bottom_top_partial (n : ℕ) (r : ℤ) (c d : Core ℝ) (l l' : List (Source ℝ)) (hr : 0 ≤ r) (hc : c.Std) (hd : d.Std) (h : MirOnY r c d)
    (hl : List.Forall₂ (SrcMirY c.g) l l') (hs : ∀ s ∈ l, Fits c.g s) (hs' : ∀ s ∈ l', Fits c.g s) :
    ∃ c' d' k k', c.run n l = .ok (c', k) ∧ d.run n l' = .ok (d', k') ∧ MirOn (r + n) (swapCore c') (swapCore d') := by
  obtain ⟨⟨h1, h2⟩, h3⟩ := h
  have eg : d.g = c.g := congrArg swapGrid h3.g
  have sw : ∀ (g : Grid ℝ) (l : List (Source ℝ)), List.Forall₂ (SrcSwap g) l (l.map swapSource) := fun g l => by
    rw [List.forall₂_map_right_iff]
    exact List.forall₂_same.mpr fun s _ => (C19_sources g s).1
  have fit : ∀ (g : Grid ℝ) (l : List (Source ℝ)), (∀ s ∈ l, Fits g s) → ∀ s ∈ l.map swapSource, Fits (swapGrid g) s := fun g l h s hs => by
    obtain ⟨u, hu, rfl⟩ := List.mem_map.mp hs
    exact (C19_sources g u).2 (h u hu)
  have mir : ∀ (g : Grid ℝ) (l l' : List (Source ℝ)), List.Forall₂ (SrcMirY g) l l' → (∀ s ∈ l, Fits g s) →
      List.Forall₂ (SrcMir (swapGrid g)) (l.map swapSource) (l'.map swapSource) := fun g l l' h hs => by
    induction h with
    | nil => exact .nil
    | cons h _ ih => exact .cons (srcMirY_swap (hs _ (by simp)) h) (ih fun s hm => hs s (by simp [hm]))
  obtain ⟨c', k, k', a1, a2⟩ := C19_exchange n c l _ hc h1 (sw c.g l) hs (fit c.g l hs)
  obtain ⟨d', m, m', b1, b2⟩ := C19_exchange n d l' _ hd h2 (sw d.g l') (by rw [eg]; exact hs') (by rw [eg]; exact fit c.g l' hs')
  obtain ⟨e, f, p, q, c1, c2, c3⟩ := C20_left_right_partial n r _ _ (l.map swapSource) (l'.map swapSource) hr hc.swap hd.swap h3
    (mir c.g l l' hl hs) (fit c.g l hs) (fit c.g l' hs')
  rw [a2] at c1; rw [b2] at c2
  obtain ⟨rfl, -⟩ := Prod.mk.inj (Except.ok.inj c1)
  obtain ⟨rfl, -⟩ := Prod.mk.inj (Except.ok.inj c2)
  exact ⟨c', d', k, m, a1, b1, c3⟩

/-- Two simulations on the example grid that are mirror images of each other. -/
theorem mirror_pair (u : ℤ → ℤ → ℝ) : ∃ c : Core ℝ, c.g = gEx ∧ Silent c ∧ (withEz c u).Std ∧ (withEz c fun i j => u (19 - i) j).Std ∧
    MirOn 0 (withEz c u) (withEz c fun i j => u (19 - i) j) ∧
    (c.debye = [] ∧ c.drude = [] ∧ c.lorentz = [] ∧ c.prevE = none) ∧
    (∀ i j, 0 ≤ i → i < 20 → 0 ≤ j → j < 20 → c.f.Ca.val i j = 1 ∧ c.f.Db.val i j = 1 / 2) := by
  obtain ⟨c, hm, hs, hg, hz⟩ := gEx_std
  have hNx : c.g.Nx = 20 := by rw [hg, gEx_Nx]
  have hm' := hm
  unfold Core.make at hm'
  simp only at hm'
  rw [clearMaterials_closed ⟨⟨rfl, rfl⟩, ⟨rfl, rfl⟩, ⟨rfl, rfl⟩, ⟨rfl, rfl⟩, ⟨rfl, rfl⟩, ⟨rfl, rfl⟩, ⟨rfl, rfl⟩⟩] at hm'
  simp only [Except.ok_bind, Except.bind_ok, Except.pure_eq] at hm'
  obtain ⟨p, -, sc, -, hcc⟩ := hm'
  have hf := (congrArg Core.f (Except.ok.inj hcc)).symm
  simp only at hf
  have hn : c.debye = [] ∧ c.drude = [] ∧ c.lorentz = [] ∧ c.prevE = none :=
    ⟨(congrArg Core.debye (Except.ok.inj hcc)).symm, (congrArg Core.drude (Except.ok.inj hcc)).symm,
      (congrArg Core.lorentz (Except.ok.inj hcc)).symm, (congrArg Core.prevE (Except.ok.inj hcc)).symm⟩
  have z : ∀ {a : Tensor ℝ} {r : ℤ}, TZero a → ColMir 20 r a a := fun h i j _ _ => by rw [h, h]
  have zh : ∀ {a : Tensor ℝ} {r : ℤ}, TZero a → HalfMir 20 r a a := fun h i j _ _ => by rw [h, h]; simp
  have zs : ∀ {a b : Tensor ℝ} {r : ℤ} {σ : ℝ}, TZero a → TZero b → StripMir 20 r σ a b a b := fun h h' i j _ _ => by
    rw [h, h']; simp
  refine ⟨c, hg, hz, withEz_std hs u, withEz_std hs _, ?_, hn, ?_⟩
  · exact {
      g := rfl, t := rfl, co := rfl, tf := ⟨hz.tfsf, hz.tfsf⟩
      f := by
        rw [show (withEz c u).g.Nx = 20 from hNx]
        exact ⟨fun i j h1 h2 => by simp only [withEz, Tensor.setv_val]; congr 1; omega, z hz.Hx, zh hz.Hy⟩
      tab := by
        rw [show (withEz c u).g.Nx = 20 from hNx]
        refine ⟨fun i j h1 h2 => ?_, fun i j h1 h2 => ?_, fun i j h1 h2 => ?_, fun i j h1 h2 => ?_, fun i j h1 h2 => ?_,
          fun i j h1 h2 => ?_⟩
        all_goals
          simp only [withEz, hf, Flds.paint, Tensor.setv_val, Tensor.const]
          refine if_congr ?_ rfl rfl
          simp only [mem_rect, gEx_Nx, gEx_Ny, and_true]; omega
      psi := by
        rw [show (withEz c u).g.Nx = 20 from hNx]
        exact ⟨z hz.Ezy1, z hz.Ezy2, z hz.Hxy1, z hz.Hxy2, zs hz.Ezx1 hz.Ezx2, zs hz.Hyx1 hz.Hyx2⟩
      prevE := Or.inl ⟨hn.2.2.2, hn.2.2.2⟩
      debye := by
        rw [show (withEz c u).debye = [] from hn.1, show (withEz c fun i j => u (19 - i) j).debye = [] from hn.1]; exact .nil
      drude := by
        rw [show (withEz c u).drude = [] from hn.2.1, show (withEz c fun i j => u (19 - i) j).drude = [] from hn.2.1]; exact .nil
      lorentz := by
        rw [show (withEz c u).lorentz = [] from hn.2.2.1, show (withEz c fun i j => u (19 - i) j).lorentz = [] from hn.2.2.1]
        exact .nil }
  · intro i j h1 h2 h3 h4
    have hm : (i, j) ∈ rect 0 gEx.Nx 0 gEx.Ny := by rw [mem_rect, gEx_Nx, gEx_Ny]; exact ⟨⟨h1, h2⟩, ⟨h3, h4⟩⟩
    rw [hf]
    simp only [Flds.paint, Tensor.setv_val, hm, true_and, if_true]
    constructor
    · simp [MatKind.Ca, Simple.Ca, vacuum]
    · simp [MatKind.Db, Simple.Db, vacuum, gEx_dt]

/-- **C20 fails.** There are two simulations that are complete mirror images of each other whose states after one update are not:
`Hy` half a cell from the right edge is updated, `Hy` half a cell from the left edge never is. -/
theorem C20_not_mirror_symmetric : ∃ c d c' d' : Core ℝ, c.Std ∧ d.Std ∧ MirOn 0 c d ∧ c.update [] = .ok (c', []) ∧
    d.update [] = .ok (d', []) ∧ ¬ MirOn 0 c' d' := by
  obtain ⟨c, hg, hz, s1, s2, hm, ⟨n1, n2, n3, -⟩, hv⟩ := mirror_pair (fun i j => if i = 1 ∧ j = 10 then 1 else 0)
  obtain ⟨c', k, E2, E3, E4, f, hu, S⟩ := Core.update_step s1 [] (by simp)
  obtain ⟨d', k', F2, F3, F4, f', hv', R⟩ := Core.update_step s2 [] (by simp)
  have k0 : k = [] := by have := S.same; cases this; rfl
  have k0' : k' = [] := by have := R.same; cases this; rfl
  subst k0 k0'
  refine ⟨_, _, c', d', s1, s2, hm, hu, hv', fun hbad => ?_⟩
  have w1 : ∀ u, (withEz c u).tfsf = none := fun _ => hz.tfsf
  have w2 : ∀ u, (withEz c u).g = gEx := fun _ => hg
  have w3 : ∀ u, (withEz c u).debye = [] := fun _ => n1
  have w4 : ∀ u, (withEz c u).drude = [] := fun _ => n2
  have w5 : ∀ u, (withEz c u).lorentz = [] := fun _ => n3
  have b := hbad.f.Hy 0 10 le_rfl (by rw [S.g, w2, gEx_Nx]; norm_num)
  have eN : c'.g.Nx = 20 := by rw [S.g, w2, gEx_Nx]
  have t1 : c'.tfsf = none := by have := S.tf; rw [w1] at this; exact (Except.ok.inj this).symm
  have t2 : d'.tfsf = none := by have := R.tf; rw [w1] at this; exact (Except.ok.inj this).symm
  have gN : c.g.Nx = 20 := by rw [hg, gEx_Nx]
  have gM : c.g.Ny = 20 := by rw [hg, gEx_Ny]
  have gT : c.pml.par.T = 3 := by have := s1.wf.pml.thk; rw [w2, gEx_T] at this; exact this
  have pN : c.pml.Nx = 20 := by have := s1.wf.pml.nx; rw [w2, gEx_Nx] at this; exact this
  have pM : c.pml.Ny = 20 := by have := s1.wf.pml.ny; rw [w2, gEx_Ny] at this; exact this
  -- the left column is never written
  have left : c'.f.Hy.val 0 10 = 0 := by
    rw [S.eY, t1]
    have m1 : ¬ ((0 : ℤ), (10 : ℤ)) ∈ rect 1 ((withEz c fun i j => if i = 1 ∧ j = 10 then 1 else 0).g.Nx - 1) 1
        ((withEz c fun i j => if i = 1 ∧ j = 10 then 1 else 0).g.Ny - 1) := by rw [mem_rect]; simp
    rw [Tensor.upd_val, if_neg m1, S.fY]
    simp only [tfHy, Pml.corrHy, Pml.afterE, withEz, pN, pM, gT, mem_rect, totalContrib, hz.Hy 0 10]
    norm_num
  -- the right column is
  have right : d'.f.Hy.val 18 10 = -(1 / 2) := by
    rw [R.eY, t2]
    have m1 : ((18 : ℤ), (10 : ℤ)) ∈ rect 1 ((withEz c fun i j => if 19 - i = 1 ∧ j = 10 then 1 else 0).g.Nx - 1) 1
        ((withEz c fun i j => if 19 - i = 1 ∧ j = 10 then 1 else 0).g.Ny - 1) := by
      rw [mem_rect, w2, gEx_Nx, gEx_Ny]; norm_num
    have hE : ∀ i, f'.Ez.val i 10 = (withEz c fun i j => if 19 - i = 1 ∧ j = 10 then 1 else 0).E1.val i 10 := by
      intro i
      have h1 := R.hd; have h2 := R.hr; have h3 := R.hl
      rw [w3] at h1
      rw [w4] at h2
      rw [w5] at h3
      have e1 := (Prod.mk.inj (Except.ok.inj h1)).2
      have e2 := (Prod.mk.inj (Except.ok.inj h2)).2
      have e3 := (Prod.mk.inj (Except.ok.inj h3)).2
      rw [R.fE, ← e3, ← e2, ← e1, w1]
      simp [tfEz, totalContrib]
    have c0 : ∀ i j, c.pml.corrE c.f.Hx c.f.Hy c.f.Cb i j = 0 := by
      intro i j
      simp [Pml.corrE, pEy1, pEy2, pEx1, pEx2, hz.Hx _ _, hz.Hy _ _, hz.Ezx1 _ _, hz.Ezx2 _ _, hz.Ezy1 _ _, hz.Ezy2 _ _]
    have m2 : ((18 : ℤ), (10 : ℤ)) ∈ rect 1 (c.g.Nx - 1) 1 (c.g.Ny - 1) := by rw [mem_rect, gN, gM]; norm_num
    have m3 : ¬ ((19 : ℤ), (10 : ℤ)) ∈ rect 1 (c.g.Nx - 1) 1 (c.g.Ny - 1) := by rw [mem_rect, gN, gM]; norm_num
    have v18 : f'.Ez.val 18 10 = 1 := by
      rw [hE]
      simp only [Core.E1, Tensor.setv_val, Tensor.upd_val, withEz, c0, m2, if_true, ezVal, hz.Hx _ _, hz.Hy _ _,
        (hv 18 10 (by norm_num) (by norm_num) (by norm_num) (by norm_num)).1]
      norm_num
    have v19 : f'.Ez.val 19 10 = 0 := by
      rw [hE]
      simp only [Core.E1, Tensor.setv_val, Tensor.upd_val, withEz, c0, m3, if_false]
      norm_num
    obtain ⟨-, -, -, q4⟩ := R.coef
    have vD : f'.Db.val 18 10 = 1 / 2 := by
      rw [q4]; exact (hv 18 10 (by norm_num) (by norm_num) (by norm_num) (by norm_num)).2
    have vH : f'.Hy.val 18 10 = 0 := by
      rw [R.fY]; simp [totalContrib, withEz, hz.Hy 18 10]
    have vs : (withEz c fun i j => if 19 - i = 1 ∧ j = 10 then 1 else 0).sc.khdx.val 18 = 1 := by
      rw [s2.sc.khdx]; show c.g.dx = 1; rw [hg, gEx_dx]
    rw [Tensor.upd_val, if_pos m1]
    simp only [hyVal, show (18 : ℤ) + 1 = 19 by norm_num, v18, v19, vD, vH, vs]
    simp only [tfHy, Pml.corrHy, Pml.afterE, withEz, pN, pM, gT, mem_rect]
    norm_num
  rw [eN, left, show (20 : ℤ) - 2 - 0 = 18 by norm_num, right] at b
  norm_num at b

/-- A non-trivial case of the weakened claim: any field and its mirror image on the example grid. -/
example (u : ℤ → ℤ → ℝ) : ∃ c d : Core ℝ, c.Std ∧ d.Std ∧ MirOn 0 c d ∧ List.Forall₂ (SrcMir c.g) [] [] ∧
    ∀ i j, c.f.Ez.val i j = u i j := by
  obtain ⟨c, -, -, h1, h2, h3, -⟩ := mirror_pair u
  exact ⟨_, _, h1, h2, h3, .nil, fun i j => rfl⟩

/-- Mirrored sources: a source of `Hy` in column 5 and the opposite one in column 13 of 20, left-right; a source of `Ez` in row 8 and the same
one in row 11, bottom-top. -/
example (tp : TimeProfile ℝ) : SrcMir gEx ⟨"a", .point .Hy ⟨5, 8⟩, tp⟩ ⟨"b", .point .Hy ⟨13, 8⟩, ⟨fun t => -tp.resp t, none, tp.params⟩⟩ ∧
    SrcMirY gEx ⟨"a", .point .Ez ⟨5, 8⟩, tp⟩ ⟨"b", .point .Ez ⟨5, 11⟩, tp⟩ := by
  have r : ∀ n : ℤ, roundAway (n : ℝ) = n := fun n => roundAway_int n
  have e : ∀ m n : ℤ, gEx.toGrid ⟨m, n⟩ = ⟨m, n⟩ := fun m n => by simp [Grid.toGrid, gEx_dx, r]
  have e1 := e 5 8
  have e2 := e 13 8
  have e3 := e 5 11
  push_cast at e1 e2 e3
  refine ⟨⟨fun C i j hC => ?_, fun C p hd t => ?_⟩, fun C i j hC => ?_, fun C p hd t => ?_⟩
  · simp only [Drives, e1, e2, gEx_Nx]
    refine and_congr_right fun h => ?_
    subst h
    simp only [mirCol, V2.mk.injEq]
    refine and_congr_left fun _ => ?_
    constructor <;> intro h <;> omega
  · obtain rfl : C = .Hy := hd.1
    simp [mirSign]
  · simp only [Drives, e1, e3, gEx_Ny]
    refine and_congr_right fun h => ?_
    subst h
    simp only [mirRow, V2.mk.injEq]
    refine and_congr_right fun _ => ?_
    constructor <;> intro h <;> omega
  · obtain rfl : C = .Ez := hd.1
    simp [mirSignY]

end Qbox.Props
