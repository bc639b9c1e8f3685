import Verif.Spec.ReachSpec
import Verif.Lemmas.Reach
import Verif.Props.MaterialGridProps

/-!
# Every reachable state is well formed
-/

namespace Qbox
open Scalar Spec

section
variable {K : Type} [Scalar K]

theorem Tensor.wr_dims {a b : Tensor K} {i j : ℤ} {v : K} (h : a.wr i j v = .ok b) : b.nx = a.nx ∧ b.ny = a.ny := by
  by_cases hi : a.In i j
  · obtain ⟨h1, h2, h3, h4⟩ := hi
    rw [Tensor.wr_in h1 h2 h3 h4] at h
    cases h; exact ⟨rfl, rfl⟩
  · rw [Tensor.wr_out hi] at h; cases h

theorem Flds.addAt_dims {f f' : Flds K} {C : Fields} {i j : ℤ} {v : K} (h : f.addAt C i j v = .ok f') {n m : ℤ}
    (hf : f.Dims n m) : f'.Dims n m := by
  obtain ⟨⟨a1, a2⟩, ⟨b1, b2⟩, ⟨c1, c2⟩, h4, h5, h6, h7⟩ := hf
  cases C <;> simp only [Flds.addAt, Except.bind_ok, Except.pure_eq] at h <;> try (cases h; done)
  all_goals
    obtain ⟨x, -, a, ha, he⟩ := h
    obtain ⟨e1, e2⟩ := Tensor.wr_dims ha
    cases he
  · exact ⟨⟨e1.trans a1, e2.trans a2⟩, ⟨b1, b2⟩, ⟨c1, c2⟩, h4, h5, h6, h7⟩
  · exact ⟨⟨a1, a2⟩, ⟨e1.trans b1, e2.trans b2⟩, ⟨c1, c2⟩, h4, h5, h6, h7⟩
  · exact ⟨⟨a1, a2⟩, ⟨b1, b2⟩, ⟨e1.trans c1, e2.trans c2⟩, h4, h5, h6, h7⟩

theorem lineLoop_dims {C : Fields} {b tg : V2 ℤ} {amp : K} {n m : ℤ} : ∀ (k : ℕ) (p : V2 ℤ) (f f' : Flds K),
    lineLoop C b tg amp k p f = .ok f' → f.Dims n m → f'.Dims n m
  | 0, _, _, _, h, _ => by cases h
  | k + 1, p, f, f', h, hf => by
    unfold lineLoop at h
    split at h
    · cases h; exact hf
    · simp only [Except.bind_ok] at h
      obtain ⟨f1, h1, h2⟩ := h
      exact lineLoop_dims k _ f1 f' h2 (Flds.addAt_dims h1 hf)

theorem Source.pulse_dims {g : Grid K} {t : K} {s : Source K} {f f' : Flds K} {n m : ℤ} (h : (s.pulse g t f).2 = .ok f')
    (hf : f.Dims n m) : f'.Dims n m := by
  unfold Source.pulse at h
  split at h
  · split at h
    · cases h
    · exact Flds.addAt_dims h hf
  · split at h
    · cases h
    · split at h
      · cases h
      · exact lineLoop_dims _ _ _ _ h hf

theorem pulseAll_dims {g : Grid K} {t : K} {n m : ℤ} : ∀ (l l' : List (Source K)) (f f' : Flds K),
    pulseAll g t l f = .ok (l', f') → f.Dims n m → f'.Dims n m
  | [], _, f, f', h, hf => by cases h; exact hf
  | s :: l, l', f, f', h, hf => by
    unfold pulseAll at h
    simp only [Except.bind_ok] at h
    obtain ⟨f1, h1, ⟨k, f2⟩, h2, h3⟩ := h
    cases h3
    exact pulseAll_dims l k f1 f2 h2 (Source.pulse_dims h1 hf)

theorem paintObject_ok_safe {g : Grid K} {f f' : Flds K} {o : Object K} (hf : f.Dims g.Nx g.Ny)
    (h : paintObject g o f = .ok f') : o.Safe g := by
  by_contra hs
  rw [Props.paintObject_fail hf hs] at h
  cases h

theorem atInsert_ok_has {P : Type} {name : String} {ins : P → M P} {l l' : List (String × P)} (h : atInsert name ins l = .ok l') :
    (mapFind name l).isSome := by
  unfold atInsert at h
  cases hm : mapFind name l with
  | none => rw [hm] at h; cases h
  | some p => rfl

theorem Core.updatePolGrid_ok_has {c c' : Core K} {o : Object K} (h : c.updatePolGrid o = .ok c') : c.HasPol o := by
  unfold Core.updatePolGrid at h
  unfold Core.HasPol
  cases hk : o.mat.kind <;> rw [hk] at h <;> simp only [Except.bind_ok] at h
  · trivial
  all_goals
    obtain ⟨l, h1, -⟩ := h
    exact atInsert_ok_has h1

/-- What `updatePolGrid` leaves alone. -/
theorem Core.updatePolGrid_same {c c' : Core K} {o : Object K} (h : c.updatePolGrid o = .ok c') :
    c'.sc = c.sc ∧ c'.pml = c.pml ∧ c'.f = c.f ∧ c'.prevE = c.prevE ∧ c'.prev2E = c.prev2E := by
  unfold Core.updatePolGrid at h
  cases hk : o.mat.kind <;> rw [hk] at h <;> simp only [Except.bind_ok] at h
  · cases h; exact ⟨rfl, rfl, rfl, rfl, rfl⟩
  all_goals
    obtain ⟨l, -, h2⟩ := h
    cases h2; exact ⟨rfl, rfl, rfl, rfl, rfl⟩

theorem updateMaterialGrid_ok_inv {c c' : Core K} (hc : c.WF) {objs : List (Object K)} (h : c.updateMaterialGrid objs = .ok c') :
    c'.WF ∧ c'.g = c.g ∧ c'.sc = c.sc ∧ c'.pml = c.pml ∧ c'.prevE = c.prevE ∧ c'.prev2E = c.prev2E ∧ c'.tfsf = c.tfsf ∧
      c'.t = c.t ∧ c'.tStep = c.tStep := by
  have loop : ∀ (objs : List (Object K)) (c c' : Core K), c.WF → forList objs c (fun o c => do
      let f ← paintObject c.g o c.f
      ({ c with f := f }).updatePolGrid o) = .ok c' → c'.WF ∧ c'.g = c.g ∧ c'.sc = c.sc ∧ c'.pml = c.pml ∧ c'.prevE = c.prevE ∧
        c'.prev2E = c.prev2E ∧ c'.tfsf = c.tfsf ∧ c'.t = c.t ∧ c'.tStep = c.tStep := by
    intro objs
    induction objs with
    | nil => intro c c' hc h; cases h; exact ⟨hc, rfl, rfl, rfl, rfl, rfl, rfl, rfl, rfl⟩
    | cons o objs ih =>
      intro c c' hc h
      rw [forList_cons] at h
      simp only [Except.bind_ok] at h
      obtain ⟨c1, ⟨f, h1, h2⟩, h3⟩ := h
      have hs := paintObject_ok_safe hc.f h1
      rw [paintObject_closed hc.f hs] at h1
      have wf : f.Dims c.g.Nx c.g.Ny := by cases h1; exact Flds.paint_dims hc.f _ _ _ _
      have w1 : ({ c with f := f } : Core K).WF := { hc with f := wf }
      obtain ⟨c2, k1, w2, e1, e2, e3, e4, -⟩ := Core.updatePolGrid_ok w1 o (Core.updatePolGrid_ok_has h2)
      rw [h2] at k1
      cases k1
      obtain ⟨s1, s2, -, s4, s5⟩ := Core.updatePolGrid_same h2
      obtain ⟨r1, r2, r3, r4, r5, r6, r7, r8, r9⟩ := ih c1 c' w2 h3
      exact ⟨r1, r2.trans e1, r3.trans s1, r4.trans s2, r5.trans s4, r6.trans s5, r7.trans e4, r8.trans e3, r9.trans e2⟩
  unfold Core.updateMaterialGrid at h
  rw [clearMaterials_closed hc.f] at h
  simp only [Except.ok_bind] at h
  have := loop objs _ c' (by exact { hc with f := Flds.paint_dims hc.f (.simple vacuum) c.g.dt (fun _ _ => true) (rect 0 c.g.Nx 0 c.g.Ny) } : ({ c with f := c.f.paint (.simple vacuum) c.g.dt (fun _ _ => true) (rect 0 c.g.Nx 0 c.g.Ny) } : Core K).WF) h
  exact this

theorem update_ok_inv {c c' : Core K} (hc : c.WF) (hg : c.g.Wide) {l l' : List (Source K)} (h : c.update l = .ok (c', l')) :
    ∃ c1 f c2, c.stageE = .ok c1 ∧ c1.WF ∧ c1.g = c.g ∧ pulseAll c1.g c1.t l c1.f = .ok (l', f) ∧ f.Dims c.g.Nx c.g.Ny ∧
      c2 = { c1 with f := f } ∧ c2.WF ∧ c2.stageH = .ok c' ∧ c'.WF ∧ c'.g = c.g := by
  unfold Core.update at h
  simp only [Except.bind_ok, Except.pure_eq] at h
  obtain ⟨c1, g1, ⟨s', f'⟩, g2, c2, g3, g4⟩ := h
  obtain ⟨d1, k1, w1, e1, -⟩ := Core.stageE_ok hc hg
  rw [g1] at k1
  cases k1
  cases g4
  have df := pulseAll_dims _ _ _ _ g2 w1.f
  have w2 : ({ c1 with f := f' } : Core K).WF := { w1 with f := df }
  obtain ⟨d2, k2, w3, e2, -⟩ := Core.stageH_ok w2 (show c1.g.Wide by rw [e1]; exact hg)
  rw [g3] at k2
  cases k2
  exact ⟨c1, f', _, g1, w1, e1, g2, by rw [← e1]; exact df, rfl, w2, g3, w3, e2.trans e1⟩

theorem Spec.Reach.wf {g : Grid K} (hg : g.Wide) {c : Core K} (h : Reach g c) : c.WF ∧ c.g = g := by
  induction h with
  | make h =>
    obtain ⟨c', h1, h2, h3, -⟩ := Core.make_ok (g := g) (by have := hg.nx; omega) (by have := hg.ny; omega)
    rw [h] at h1; cases h1; exact ⟨h2, h3⟩
  | insert o _ h ih =>
    obtain ⟨w, e⟩ := ih
    have hs := ((Props.C10_faults_iff _ w o).2).mp ⟨_, h⟩
    obtain ⟨c', h1, h2, h3, -⟩ := Core.insertObject_ok w hs
    rw [h] at h1; cases h1; exact ⟨h2, h3.trans e⟩
  | updateGrid objs _ h ih =>
    obtain ⟨w, e⟩ := ih
    obtain ⟨h1, h2, -⟩ := updateMaterialGrid_ok_inv w h
    exact ⟨h1, h2.trans e⟩
  | clearMaterials _ h ih =>
    obtain ⟨w, e⟩ := ih
    rw [clearMaterials_closed w.f] at h
    cases h
    exact ⟨{ w with f := Flds.paint_dims w.f _ _ _ _ }, e⟩
  | clearFields _ ih => exact ⟨(Core.clearFields_ok ih.1).1, ih.2⟩
  | setTfsf vol tp _ hf ih => exact ⟨Core.setTfsf_ok ih.1 hf tp, ih.2⟩
  | update _ h ih =>
    obtain ⟨w, e⟩ := ih
    obtain ⟨-, -, -, -, -, -, -, -, -, -, -, h1, h2⟩ := update_ok_inv w (by rw [e]; exact hg) h
    exact ⟨h1, h2.trans e⟩
  | poke f _ hf ih => exact ⟨{ ih.1 with f := hf }, ih.2⟩

end

end Qbox
