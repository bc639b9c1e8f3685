import Verif.Lemmas.Restart
import Verif.Props.LocalProps
import Verif.Props.SimProps

/-! # Restarting with `clear_fields` (C50) -/

namespace Qbox.Props
open Qbox Scalar Spec

set_option linter.unusedSectionVars false

variable {K : Type} [Scalar K]

theorem make_rest {g : Grid K} {c : Core K} (h : Core.make g = .ok c) (o : List (Object K)) (ho : o = []) (l : List (Source K)) (hl : l = []) :
    (⟨c, l, o⟩ : Phys K).Plain ∧ (⟨c, l, o⟩ : Phys K).bare = (⟨c, l, o⟩ : Phys K).rest := by
  subst ho hl
  unfold Core.make at h
  simp only [Except.bind_ok] at h
  obtain ⟨f, h1, p, h2, sc, h3, h⟩ := h
  cases h
  refine ⟨⟨rfl, rfl, rfl, rfl, rfl, by simp⟩, ?_⟩
  have hp : p.psi = PmlPsi.init p.par.T p.Nx p.Ny := by
    unfold Pml.make Pml.makeWith at h2
    obtain ⟨co, -, h2⟩ := (Except.bind_ok ..).mp h2
    cases h2; rfl
  have hf : f.rest = f := by
    exact (Except.ok.inj (h1.symm.trans (clearMaterials_rest h1))).symm
  unfold Phys.bare Phys.rest Core.bare Core.rest
  unfold Flds.rest at hf
  simp only [hf, ← hp]
  rfl

/-- A history and its building calls alone lead to the same state at rest. -/
theorem run_rest : ∀ (ops : List (Op K)) (p q p' q' : Phys K), (∀ op ∈ ops, NoDispersion op) → p.Plain → q.Plain → p.rest = q.rest → q.bare = q.rest →
    p.run ops = .ok p' → q.run (rebuild ops) = .ok q' → p'.rest = q'.bare ∧ p'.Plain
  | [], p, q, p', q', _, hp, hq, h1, h2, h3, h4 => by
    cases h3; cases h4
    exact ⟨h1.trans h2.symm, hp⟩
  | op :: l, p, q, p', q', hd, hp, hq, h1, h2, h3, h4 => by
    unfold Phys.run at h3
    obtain ⟨p1, e1, h3⟩ := (Except.bind_ok ..).mp h3
    obtain ⟨k1, k2⟩ := Phys.step_rest hp (hd op (by simp)) e1
    unfold rebuild at h4
    cases hb : builds op with
    | true =>
      rw [List.filter_cons_of_pos (by simp [hb])] at h4
      unfold Phys.run at h4
      obtain ⟨q1, e2, h4⟩ := (Except.bind_ok ..).mp h4
      obtain ⟨m1, m2⟩ := Phys.step_rest hq (hd op (by simp)) e2
      have m3 := Phys.step_bare e2
      simp only [hb, ↓reduceIte] at k2 m2
      rw [h1, m2] at k2
      rw [h2, m2] at m3
      exact run_rest l p1 q1 p' q' (fun o ho => hd o (by simp [ho])) k1 m1 (Except.ok.inj k2).symm (Except.ok.inj m3).symm h3 h4
    | false =>
      rw [List.filter_cons_of_neg (by simp [hb])] at h4
      simp only [hb, Bool.false_eq_true, ↓reduceIte] at k2
      exact run_rest l p1 q p' q' (fun o ho => hd o (by simp [ho])) k1 hq (k2.trans h1) h2 h3 h4

theorem clear_rest {p : Phys K} (hp : p.Plain) (hm : EmptyMemory p.core.pml) : (⟨p.core.clearFields, p.srcs, p.objs⟩ : Phys K).bare = p.rest := by
  unfold Phys.bare Phys.rest Core.bare Core.rest Core.clearFields
  simp only [hp.debye, hp.drude, hp.lorentz, List.map_nil, ← show p.core.pml.psi = _ from hm]
  cases p.core.tfsf <;> rfl

/-- **C50**, in any arithmetic, where it holds: no dispersive material has been added, and the absorbing layer remembers nothing. Then, whatever
calls were made before `clear_fields`, every later field is that of a new simulation, of the same grid, that only received the calls that add
objects, sources and the incident wave and that move objects or repaint them, in the same order. Looking at the fields does not matter on either
side. What is missing: the statement is false with memory left in the layer (`C50_layer_false`) and with dispersive materials
(`C50_dispersion_false`). -/
theorem C50_restart_partial {now now' : ℕ → ℝ} {g : Grid K} {fn fn' : String} {s0 s s1 t0 t1 : Sim K} {before after again : List (Op K)}
    (hs : Sim.make now g fn = .ok s0) (ht : Sim.make now' g fn' = .ok t0) (hd : ∀ op ∈ before, NoDispersion op)
    (h1 : s0.runOk now before = .ok s) (hm : EmptyMemory s.core.pml) (h2 : s.runOk now (.clearFields :: after) = .ok s1)
    (ha : physical again = rebuild before ++ physical after) (h3 : t0.runOk now' again = .ok t1) :
    s1.core.f = t1.core.f ∧ s1.core.t = t1.core.t ∧ s1.core.tStep = t1.core.tStep := by
  obtain ⟨-, -, c1, o1, l1, -, -⟩ := make_unwatched hs
  obtain ⟨-, -, c2, o2, l2, -, -⟩ := make_unwatched ht
  obtain ⟨p1, b1⟩ := make_rest c1 _ o1 _ l1
  obtain ⟨p2, b2⟩ := make_rest c2 _ o2 _ l2
  have r1 := Sim.run_phys _ _ _ h1
  have r2 := Sim.run_phys _ _ _ h2
  have r3 := Sim.run_phys _ _ _ h3
  rw [ha, Phys.run_append] at r3
  obtain ⟨q, r3, r4⟩ := (Except.bind_ok ..).mp r3
  have e0 : s0.phys.rest = t0.phys.rest := by
    rw [c1] at c2
    unfold Sim.phys
    rw [o1, o2, l1, l2, Except.ok.inj c2]
  have er : rebuild (physical before) = rebuild before := by
    unfold rebuild physical
    rw [List.filter_filter]
    refine List.filter_congr fun op _ => ?_
    cases op <;> rfl
  obtain ⟨e1, pl⟩ := run_rest (physical before) s0.phys t0.phys s.phys q (fun o ho => hd o (List.mem_filter.mp ho).1) p1 p2 e0 b2 r1 (by rw [er]; exact r3)
  have r5 : (⟨s.core.clearFields, s.srcs, s.objs⟩ : Phys K).run (physical after) = .ok s1.phys := by
    unfold physical at r2
    rw [List.filter_cons_of_pos (by rfl)] at r2
    exact r2
  have e2 := clear_rest pl hm
  have e3 := Phys.run_bare (physical after) _ q s1.phys t1.phys (e2.trans e1) r5 r4
  have hc := congrArg Phys.core e3
  have f1 := congrArg Core.f hc
  have f2 := congrArg Core.t hc
  have f3 := congrArg Core.tStep hc
  exact ⟨f1, f2, f3⟩

/-! ## Before the wave has reached the layer -/

theorem make_memory {g : Grid K} {c : Core K} (h : Core.make g = .ok c) : EmptyMemory c.pml := by
  unfold Core.make at h
  simp only [Except.bind_ok] at h
  obtain ⟨f, h1, p, h2, sc, h3, h⟩ := h
  cases h
  unfold Pml.make Pml.makeWith at h2
  obtain ⟨co, -, h2⟩ := (Except.bind_ok ..).mp h2
  cases h2; rfl

theorem run_last : ∀ (n : ℕ) (c : Core K) (l : List (Source K)), c.run (n + 1) l = (c.run n l >>= fun q => q.1.update q.2)
  | 0, c, l => by
    unfold Core.run
    rw [Except.ok_bind]
    cases e : c.update l with
    | error e => rfl
    | ok q => rfl
  | n + 1, c, l => by
    rw [Core.run]
    conv_rhs => rw [Core.run]
    cases e : c.update l with
    | error e => rfl
    | ok q => exact run_last n q.1 q.2

theorem Tensor.upd_zero {t : Tensor ℝ} {nx ny : ℤ} {D : Finset (ℤ × ℤ)} {u : ℤ → ℤ → ℝ} (h : t = .const nx ny 0) (hu : ∀ i j, (i, j) ∈ D → u i j = 0) :
    t.upd D u = .const nx ny 0 := by
  subst h
  refine Tensor.ext' rfl rfl fun x y => ?_
  show (if (x, y) ∈ D then u x y else 0) = 0
  split
  · rename_i hd; exact hu x y hd
  · rfl

/-- The memory of the layer stays empty as long as the fields vanish there. -/
theorem step_memory {c c' : Core ℝ} {l l' : List (Source ℝ)} {E2 E3 E4 : Tensor ℝ} {f : Flds ℝ} (hc : c.Std) (h : c.Step l c' l' E2 E3 E4 f)
    (hm : EmptyMemory c.pml) (hX : ∀ i j, NearLayer c.g i j → c.f.Hx.val i j = 0) (hY : ∀ i j, NearLayer c.g i j → c.f.Hy.val i j = 0)
    (hE : ∀ i j, NearLayer c.g i j → c'.f.Ez.val i j = 0) : EmptyMemory c'.pml := by
  have nx : c.pml.Nx = c.g.Nx := hc.wf.pml.nx
  have ny : c.pml.Ny = c.g.Ny := hc.wf.pml.ny
  have nt : c.pml.par.T = c.g.T := by rw [hc.par]; rfl
  rw [h.eE] at hE
  unfold EmptyMemory at hm ⊢
  rw [h.pml]
  unfold NearLayer at hX hY hE
  show PmlPsi.mk _ _ _ _ _ _ _ _ = PmlPsi.init c.pml.par.T c.pml.Nx c.pml.Ny
  have z1 := congrArg PmlPsi.Ezx1 hm
  have z2 := congrArg PmlPsi.Ezx2 hm
  have z3 := congrArg PmlPsi.Hyx1 hm
  have z4 := congrArg PmlPsi.Hyx2 hm
  have z5 := congrArg PmlPsi.Ezy1 hm
  have z6 := congrArg PmlPsi.Ezy2 hm
  have z7 := congrArg PmlPsi.Hxy1 hm
  have z8 := congrArg PmlPsi.Hxy2 hm
  have v : ∀ {t : Tensor ℝ} {a b : ℤ}, t = .const a b 0 → ∀ i j, t.val i j = 0 := by rintro t a b rfl i j; rfl
  unfold PmlPsi.init at *
  congr 1
  · refine Tensor.upd_zero z1 fun i j hd => ?_
    rw [mem_rect] at hd
    simp only [pEx1, v z1, hY i j (by omega), hY (i - 1) j (by omega)]
    simp
  · refine Tensor.upd_zero z2 fun i j hd => ?_
    rw [mem_rect] at hd
    simp only [pEx2, v z2, hY (c.pml.Nx - 1 - i) j (by omega), hY (c.pml.Nx - 1 - i - 1) j (by omega)]
    simp
  · refine Tensor.upd_zero z3 fun i j hd => ?_
    rw [mem_rect] at hd
    simp only [Pml.afterE] at hd ⊢
    simp only [pHx1, v z3, hE i j (by omega), hE (i + 1) j (by omega)]
    simp
  · refine Tensor.upd_zero z4 fun i j hd => ?_
    rw [mem_rect] at hd
    simp only [Pml.afterE] at hd ⊢
    simp only [pHx2, v z4, hE (c.pml.Nx - 1 - i) j (by omega), hE (c.pml.Nx - 1 - i - 1) j (by omega)]
    simp
  · refine Tensor.upd_zero z5 fun i j hd => ?_
    rw [mem_rect] at hd
    simp only [pEy1, v z5, hX i j (by omega), hX i (j - 1) (by omega)]
    simp
  · refine Tensor.upd_zero z6 fun i j hd => ?_
    rw [mem_rect] at hd
    simp only [pEy2, v z6, hX i (c.pml.Ny - 1 - j) (by omega), hX i (c.pml.Ny - 1 - j - 1) (by omega)]
    simp
  · refine Tensor.upd_zero z7 fun i j hd => ?_
    rw [mem_rect] at hd
    simp only [Pml.afterE] at hd ⊢
    simp only [pHy1, v z7, hE i j (by omega), hE i (j + 1) (by omega)]
    simp
  · refine Tensor.upd_zero z8 fun i j hd => ?_
    rw [mem_rect] at hd
    simp only [Pml.afterE] at hd ⊢
    simp only [pHy2, v z8, hE i (c.pml.Ny - 1 - j) (by omega), hE i (c.pml.Ny - 1 - j - 1) (by omega)]
    simp

/-- Sources at least `n + 1` cells away from the layer leave no memory in it within `n` steps. -/
theorem run_memory (c : Core ℝ) (hc : c.Std) (hz : Silent c) (hm : EmptyMemory c.pml) (l : List (Source ℝ)) (fl : ∀ s ∈ l, Fits c.g s) :
    ∀ n : ℕ, (∀ s ∈ l, FarFromLayer c.g n s) → ∃ c' k, c.run n l = .ok (c', k) ∧ EmptyMemory c'.pml ∧ c'.Std ∧ c'.g = c.g ∧ ∀ s ∈ k, Fits c.g s
  | 0, _ => ⟨c, l, rfl, hm, hc, rfl, fl⟩
  | n + 1, hl => by
    have hl' : ∀ s ∈ l, FarFromLayer c.g n s := fun s hs i j hn C x y hb => hl s hs i j hn C x y (Ball.mono (by push_cast; omega) hb)
    obtain ⟨c1, k1, e1, m1, s1, g1, f1⟩ := run_memory c hc hz hm l fl n hl'
    obtain ⟨c2, k2, E2, E3, E4, f, e2, S⟩ := Core.update_step s1 k1 (by rw [g1]; exact f1)
    have e3 : c.run (n + 1) l = .ok (c2, k2) := by rw [run_last, e1]; exact e2
    have front : ∀ (m : ℕ) (d : Core ℝ) (k : List (Source ℝ)), c.run m l = .ok (d, k) → (∀ s ∈ l, FarFromLayer c.g m s) → ∀ i j, NearLayer c.g i j →
        d.f.Ez.val i j = 0 ∧ d.f.Hx.val i j = 0 ∧ d.f.Hy.val i j = 0 := by
      intro m d k e h i j hn
      obtain ⟨d', k', e', z⟩ := C16_front i j 0 m c hc hz l fl (fun s hs => by rw [zero_add]; exact h s hs i j hn)
      rw [e] at e'
      cases e'
      exact z i j (by unfold Ball; omega)
    refine ⟨c2, k2, e3, step_memory s1 S m1 ?_ ?_ ?_, S.std, S.g.trans g1, ?_⟩
    · intro i j hn; rw [g1] at hn; exact (front n c1 k1 e1 hl' i j hn).2.1
    · intro i j hn; rw [g1] at hn; exact (front n c1 k1 e1 hl' i j hn).2.2
    · intro i j hn; rw [g1] at hn; exact (front (n + 1) c2 k2 e3 hl i j hn).1
    · intro s hs; have := S.fits s hs; rwa [S.g, g1] at this

theorem phys_sources : ∀ (l : List (Source K)) (p : Phys K), p.run (l.map .addSource) = .ok { p with srcs := p.srcs ++ l }
  | [], p => by simp [Phys.run]
  | x :: l, p => by
    rw [List.map_cons, Phys.run]
    show Phys.run { p with srcs := p.srcs ++ [x] } (l.map .addSource) = _
    rw [phys_sources l]
    simp

theorem phys_updates : ∀ (n : ℕ) (p p' : Phys K), p.run (List.replicate n .update) = .ok p' → p.core.run n p.srcs = .ok (p'.core, p'.srcs)
  | 0, p, p', h => by cases h; rfl
  | n + 1, p, p', h => by
    rw [List.replicate_succ, Phys.run] at h
    obtain ⟨q, h1, h⟩ := (Except.bind_ok ..).mp h
    obtain ⟨⟨c, l⟩, h3, h2⟩ := (Except.bind_ok ..).mp h1
    cases h2
    rw [Core.run, h3]
    exact phys_updates n ⟨c, l, p.objs⟩ p' h

/-- **C50** before the wave has reached the layer, in exact arithmetic: sources that drive no node within `n` cells of the absorbing layer, `n`
updates, `clear_fields`, and then any calls; the fields are those of a new simulation with the same sources and the same later calls. -/
theorem C50_before_layer {now now' : ℕ → ℝ} {g : Grid ℝ} {fn fn' : String} {s0 s s1 t0 t1 : Sim ℝ} (hw : g.Wide) (hl : Lawful g) (hT : g.T = 0 ∨ 2 ≤ g.T)
    {l : List (Source ℝ)} (n : ℕ) (fl : ∀ x ∈ l, Fits g x) (far : ∀ x ∈ l, FarFromLayer g n x) {after : List (Op ℝ)}
    (hs : Sim.make now g fn = .ok s0) (ht : Sim.make now' g fn' = .ok t0) (h1 : s0.runOk now (l.map .addSource ++ List.replicate n .update) = .ok s)
    (h2 : s.runOk now (.clearFields :: after) = .ok s1) (h3 : t0.runOk now' (l.map .addSource ++ after) = .ok t1) :
    s1.core.f = t1.core.f ∧ s1.core.t = t1.core.t ∧ s1.core.tStep = t1.core.tStep := by
  have pb : physical (l.map .addSource ++ List.replicate n .update) = l.map .addSource ++ List.replicate n .update := by
    unfold physical
    rw [List.filter_eq_self]
    intro op ho
    rcases List.mem_append.mp ho with h | h
    · obtain ⟨x, -, rfl⟩ := List.mem_map.mp h; rfl
    · rw [List.eq_of_mem_replicate h]; rfl
  have pl : physical (l.map Op.addSource) = l.map .addSource := by
    unfold physical
    rw [List.filter_eq_self]
    intro op h
    obtain ⟨x, -, rfl⟩ := List.mem_map.mp h; rfl
  have rb : rebuild (l.map .addSource ++ List.replicate n .update) = l.map Op.addSource := by
    unfold rebuild
    rw [List.filter_append, List.filter_eq_self.mpr, List.filter_eq_nil_iff.mpr, List.append_nil]
    · intro op h; rw [List.eq_of_mem_replicate h]; simp [builds]
    · intro op h; obtain ⟨x, -, rfl⟩ := List.mem_map.mp h; rfl
  refine C50_restart_partial hs ht ?_ h1 ?_ h2 ?_ h3
  · intro op ho
    rcases List.mem_append.mp ho with h | h
    · obtain ⟨x, -, rfl⟩ := List.mem_map.mp h; trivial
    · rw [List.eq_of_mem_replicate h]; trivial
  · obtain ⟨-, -, c1, o1, l1, -, -⟩ := make_unwatched hs
    obtain ⟨c, hm, hstd, hg, hz⟩ := make_silent hw hl hT
    rw [c1] at hm
    cases hm
    have r := Sim.run_phys _ _ _ h1
    rw [pb, Phys.run_append, phys_sources, Except.ok_bind] at r
    have r := phys_updates _ _ _ r
    simp only [Sim.phys, l1, List.nil_append] at r
    obtain ⟨c', k, e, m, -⟩ := run_memory s0.core hstd hz (make_memory c1) l (by rw [hg]; exact fl) n (by rw [hg]; exact far)
    rw [e] at r
    cases r
    exact m
  · rw [rb]
    unfold physical at pl ⊢
    rw [List.filter_append, pl]

end Qbox.Props
