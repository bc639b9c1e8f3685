import Verif.Spec.ReversalSpec
import Verif.Lemmas.PolarWindow
import Verif.Props.PolarCases

/-!
# A lossless closed domain can be run backwards (C92)

The update of a closed domain of lossless media without sources has an inverse: the update itself, with time reversed before and after. So the program keeps all
information about the start, and different starts never lead to the same state.
-/

namespace Qbox.Props
open Scalar Qbox.Spec

/-- Run for one more step. -/
theorem run_more {K : Type} [Scalar K] (n : ℕ) (c : Core K) (l : List (Source K)) :
    c.run (n + 1) l = (do let (c, l) ← c.run n l; c.update l) := by
  induction n generalizing c l with
  | zero => 
    show (do let (c, l) ← c.update l; Core.run 0 c l) = c.update l
    cases h : c.update l with
    | error e => rfl
    | ok p => rfl
  | succ n ih =>
    show (do let (c, l) ← c.update l; Core.run (n + 1) c l) = _
    rw [show c.run (n + 1) l = (do let (c, l) ← c.update l; Core.run n c l) from rfl]
    cases h : c.update l with
    | error e => rfl
    | ok p => exact ih p.1 p.2

/-- `b` is `a` with time reversed, at the nodes that an update changes. -/
structure Reversed (med : ℤ → ℤ → Medium) (a b : Core ℝ) : Prop where
  Ez : ∀ i j, (updatedNodes a.g).Mem i j → b.f.Ez.val i j = a.f.Ez.val i j
  Hx : ∀ i j, (updatedNodes a.g).Mem i j → b.f.Hx.val i j = -hxBack a.g a.f i j
  Hy : ∀ i j, (updatedNodes a.g).Mem i j → b.f.Hy.val i j = -hyBack a.g a.f i j
  cur : ∀ i j, (updatedNodes a.g).Mem i j → (med i j).res.flow ((med i j).cur b i j) = -(med i j).res.flow ((med i j).cur a i j)

/-- No conductivity, and a delayed response without loss. -/
def KeepsEnergy (m : Medium) : Prop := m.base.conduc = 0 ∧ (m.res = .plain ∨ ∃ o, m.res = .drude 0 o)

theorem carries_none (g : Grid ℝ) : Spec.Carries g [] (fun _ _ => 0) (fun _ _ => 0) (fun _ _ _ => 0) 0 0 :=
  ⟨by simp, fun n i j _ _ _ _ _ => by simp⟩

/-- One update without sources. -/
theorem still_step {c : Core ℝ} {med : ℤ → ℤ → Medium} (h : Remembers c med) :
    ∃ c', c.update [] = .ok (c', []) ∧ c'.g = c.g ∧ Remembers c' med ∧
      Laws c.g (fun i j => (med i j).base) (updatedNodes c.g) c.f c'.f
        (fun i j => -(((med i j).res.flow ((med i j).cur c' i j) + (med i j).res.flow ((med i j).cur c i j)) / 2)) (fun _ _ => 0) (fun _ _ => 0) ∧
      ∀ i j, (updatedNodes c.g).Mem i j → (med i j).res.step c.g.dt (c.f.Ez.val i j) (c'.f.Ez.val i j) ((med i j).cur c i j) ((med i j).cur c' i j) 0 := by
  obtain ⟨c', l0, F2, F3, F4, f', u, S⟩ := Core.update_step h.std [] (by simp)
  obtain rfl : l0 = [] := by have := S.same; cases this; rfl
  obtain ⟨a, b, d⟩ := remembers_step h S (carries_none c.g) (fun i j _ _ t => by simp [addedE])
  refine ⟨c', u, S.g, a, ⟨fun i j hm => ?_, b.faradayX, b.faradayY⟩, d⟩
  have := b.ampere i j hm
  have z : addedE c.g [] (c.t + c.g.dt) i j = 0 := by simp [addedE]
  simp only [z, mul_zero, zero_sub] at this
  exact this

theorem reversed_step {c c1 d d1 : Core ℝ} {med : ℤ → ℤ → Medium} (hl : Lawful c.g) (hc : Remembers c med) (hd : Remembers d med) (eg : d.g = c.g) (eg1 : c1.g = c.g)
    (h1 : Remembers c1 med) (hd1 : Remembers d1 med) (egd : d1.g = c.g)
    (hk : ∀ i j, (updatedNodes c.g).Mem i j → KeepsEnergy (med i j))
    (Lc : Laws c.g (fun i j => (med i j).base) (updatedNodes c.g) c.f c1.f
        (fun i j => -(((med i j).res.flow ((med i j).cur c1 i j) + (med i j).res.flow ((med i j).cur c i j)) / 2)) (fun _ _ => 0) (fun _ _ => 0))
    (Pc : ∀ i j, (updatedNodes c.g).Mem i j → (med i j).res.step c.g.dt (c.f.Ez.val i j) (c1.f.Ez.val i j) ((med i j).cur c i j) ((med i j).cur c1 i j) 0)
    (Ld : Laws c.g (fun i j => (med i j).base) (updatedNodes c.g) d.f d1.f
        (fun i j => -(((med i j).res.flow ((med i j).cur d1 i j) + (med i j).res.flow ((med i j).cur d i j)) / 2)) (fun _ _ => 0) (fun _ _ => 0))
    (Pd : ∀ i j, (updatedNodes c.g).Mem i j → (med i j).res.step c.g.dt (d.f.Ez.val i j) (d1.f.Ez.val i j) ((med i j).cur d i j) ((med i j).cur d1 i j) 0)
    (r : Reversed med c1 d) : Reversed med c d1 := by
  have hx := hl.dx
  have dt0 : 0 < c.g.dt := by rw [hl.dt]; linarith
  obtain ⟨rE, rX, rY, rK⟩ := r
  rw [eg1] at rE rX rY rK
  have bX : ∀ i j, (updatedNodes c.g).Mem i j → d.f.Hx.val i j = -c.f.Hx.val i j := fun i j h => by
    rw [rX i j h]; unfold hxBack; rw [Lc.faradayX i j h]; ring
  have bY : ∀ i j, (updatedNodes c.g).Mem i j → d.f.Hy.val i j = -c.f.Hy.val i j := fun i j h => by
    rw [rY i j h]; unfold hyBack; rw [Lc.faradayY i j h]; ring
  have qd := hd.frame
  rw [eg] at qd
  have qc := hc.frame
  have qd1 := hd1.frame
  rw [egd] at qd1
  have leftY : ∀ i j, (updatedNodes c.g).Mem i j → d.f.Hy.val (i - 1) j = -c.f.Hy.val (i - 1) j := fun i j h => by
    by_cases hm : (updatedNodes c.g).Mem (i - 1) j
    · exact bY _ _ hm
    · have : i - 1 = (updatedNodes c.g).l - 1 := by unfold Box.Mem at h hm; omega
      rw [this, qd.left, qc.left, neg_zero]
  have downX : ∀ i j, (updatedNodes c.g).Mem i j → d.f.Hx.val i (j - 1) = -c.f.Hx.val i (j - 1) := fun i j h => by
    by_cases hm : (updatedNodes c.g).Mem i (j - 1)
    · exact bX _ _ hm
    · have : j - 1 = (updatedNodes c.g).b - 1 := by unfold Box.Mem at h hm; omega
      rw [this, qd.bottom, qc.bottom, neg_zero]
  have node : ∀ i j, (updatedNodes c.g).Mem i j → d1.f.Ez.val i j = c.f.Ez.val i j ∧
      (med i j).res.flow ((med i j).cur d1 i j) = (med i j).res.flow (-(med i j).cur c i j) := by
    intro i j h
    have ac := Lc.ampere i j h
    have ad := Ld.ampere i j h
    have pc := Pc i j h
    have pd := Pd i j h
    obtain ⟨k0, kr⟩ := hk i j h
    have kk := rK i j h
    unfold ConductiveLaw curlH at ac ad
    simp only [k0] at ac ad
    rw [bX i j h, bY i j h, leftY i j h, downX i j h, rE i j h] at ad
    rw [rE i j h] at pd
    have neg : (med i j).res.flow (-(med i j).cur c i j) = -(med i j).res.flow ((med i j).cur c i j) := by
      cases (med i j).res <;> simp [Response.flow]
    refine matter_unique (eps := (med i j).base.eps) (sig := 0) dt0 (by linarith [(Medium.Passive.base_eps (hc.media.passive i j h)).1]) le_rfl (Medium.res_passive (hc.media.passive i j h))
      (E := c1.f.Ez.val i j) (K := (med i j).cur d i j)
      (cu := -((c.f.Hy.val i j - c.f.Hy.val (i - 1) j) / c.g.dx - (c.f.Hx.val i j - c.f.Hx.val i (j - 1)) / c.g.dx)) (by linear_combination ad) pd ?_ ?_
    · rw [neg]
      linear_combination -ac + kk / 2
    · rcases kr with kr | ⟨o, kr⟩
      · rw [kr]; trivial
      · rw [kr] at kk pc ⊢
        simp only [Response.flow, Response.step] at kk pc ⊢
        rw [kk]
        linear_combination pc
  have topE : ∀ i j, (updatedNodes c.g).Mem i j → d1.f.Ez.val i (j + 1) = c.f.Ez.val i (j + 1) := fun i j h => by
    by_cases hm : (updatedNodes c.g).Mem i (j + 1)
    · exact (node _ _ hm).1
    · have : j + 1 = (updatedNodes c.g).t + 1 := by unfold Box.Mem at h hm; omega
      rw [this, qd1.top, qc.top]
  have rightE : ∀ i j, (updatedNodes c.g).Mem i j → d1.f.Ez.val (i + 1) j = c.f.Ez.val (i + 1) j := fun i j h => by
    by_cases hm : (updatedNodes c.g).Mem (i + 1) j
    · exact (node _ _ hm).1
    · have : i + 1 = (updatedNodes c.g).r + 1 := by unfold Box.Mem at h hm; omega
      rw [this, qd1.right, qc.right]
  refine ⟨fun i j h => (node i j h).1, fun i j h => ?_, fun i j h => ?_, fun i j h => ?_⟩
  · rw [Ld.faradayX i j h, bX i j h, (node i j h).1, topE i j h]; unfold hxBack; ring
  · rw [Ld.faradayY i j h, bY i j h, (node i j h).1, rightE i j h]; unfold hyBack; ring
  · rw [(node i j h).2]
    cases (med i j).res <;> simp [Response.flow]

/-- The runs of a closed domain. -/
theorem still_run {med : ℤ → ℤ → Medium} (n : ℕ) : ∀ c : Core ℝ, Remembers c med → ∃ c', c.run n [] = .ok (c', []) ∧ c'.g = c.g ∧ Remembers c' med := by
  induction n with
  | zero => exact fun c h => ⟨c, rfl, rfl, h⟩
  | succ n ih =>
    intro c h
    obtain ⟨c1, u, g1, r1, -⟩ := still_step h
    obtain ⟨c2, v, g2, r2⟩ := ih c1 r1
    refine ⟨c2, ?_, g2.trans g1, r2⟩
    show (do let (c, l) ← c.update []; Core.run n c l) = _
    rw [u]
    exact v

/-- **C92**: a closed domain of lossless media without sources, run for `n` updates. From the state with time reversed, `n` updates lead to the start with time reversed. -/
theorem C92_back {med : ℤ → ℤ → Medium} (n : ℕ) : ∀ (c d c' : Core ℝ), Lawful c.g → Remembers c med → Remembers d med → d.g = c.g →
    (∀ i j, (updatedNodes c.g).Mem i j → KeepsEnergy (med i j)) → c.run n [] = .ok (c', []) → Reversed med c' d →
    ∃ d', d.run n [] = .ok (d', []) ∧ Remembers d' med ∧ d'.g = c.g ∧ Reversed med c d' := by
  induction n with
  | zero =>
    intro c d c' hl hc hd eg hk h r
    obtain ⟨rfl, -⟩ := Prod.mk.inj (Except.ok.inj h)
    exact ⟨d, rfl, hd, eg, r⟩
  | succ n ih =>
    intro c d c' hl hc hd eg hk h r
    obtain ⟨c1, u, g1, r1, Lc, Pc⟩ := still_step hc
    have h' : c1.run n [] = .ok (c', []) := by
      rw [show c.run (n + 1) [] = (do let (c, l) ← c.update []; Core.run n c l) from rfl, u] at h
      exact h
    obtain ⟨d1, v, rd, gd, re⟩ := ih c1 d c' (by rw [g1]; exact hl) r1 hd (by rw [g1, eg]) (by rw [g1]; exact hk) h' r
    obtain ⟨d2, w, g2, r2, Ld, Pd⟩ := still_step rd
    have e1 : d1.g = c.g := gd.trans g1
    rw [e1] at Ld Pd
    refine ⟨d2, ?_, r2, g2.trans e1, reversed_step hl hc rd e1 g1 r1 r2 (g2.trans e1) hk Lc Pc Ld Pd re⟩
    rw [run_more, v]
    exact w

open Classical in
theorem turn_Hx (c : Core ℝ) (i j : ℤ) : (turned c).f.Hx.val i j = if (updatedNodes c.g).Mem i j then -hxBack c.g c.f i j else c.f.Hx.val i j := rfl

open Classical in
theorem turn_Hy (c : Core ℝ) (i j : ℤ) : (turned c).f.Hy.val i j = if (updatedNodes c.g).Mem i j then -hyBack c.g c.f i j else c.f.Hy.val i j := rfl

theorem quiet_turn_debye {P : DebyePol ℝ} {i j : ℤ} (h : DebyeQuiet P i j) : DebyeQuiet (debyeTurn P) i j :=
  fun N n0 n1 => ⟨by show -_ = (0 : ℝ); rw [(h N n0 n1).1, neg_zero], (h N n0 n1).2⟩

theorem quiet_turn_drude {P : DrudePol ℝ} {i j : ℤ} (h : DrudeQuiet P i j) : DrudeQuiet (drudeTurn P) i j :=
  fun N n0 n1 => ⟨by show -_ = (0 : ℝ); rw [(h N n0 n1).1, neg_zero], (h N n0 n1).2⟩

/-- Reversing time leaves the media as they are. -/
theorem filled_turn {c : Core ℝ} {i j : ℤ} {m : Medium} (h : Filled c i j m) : Filled (turned c) i j m := by
  cases m with
  | simple m =>
    have h' : InSimple c m i j := h
    refine ⟨fun q hq => ?_, fun q hq => ?_, h'.lorentz, ⟨h'.medium.Ca, h'.medium.Cb, h'.medium.Da, h'.medium.Db⟩⟩
    · obtain ⟨q', h1, rfl⟩ := List.mem_map.mp hq
      exact quiet_turn_debye (h'.debye q' h1)
    · obtain ⟨q', h1, rfl⟩ := List.mem_map.mp hq
      exact quiet_turn_drude (h'.drude q' h1)
  | debye k m =>
    obtain ⟨n, P, b, a, h, rfl, rfl⟩ := h
    refine ⟨n, debyeTurn P, b.map fun q => (q.1, debyeTurn q.2), a.map fun q => (q.1, debyeTurn q.2), ⟨?_, fun q hq => ?_, fun q hq => ?_, h.lorentz, ⟨h.medium.Ca, h.medium.Cb, h.medium.Da, h.medium.Db⟩, h.strength⟩, by simp, rfl⟩
    · show c.debye.map _ = _
      rw [h.entry, List.map_append, List.map_cons]
    · rw [← List.map_append] at hq
      obtain ⟨q', h1, rfl⟩ := List.mem_map.mp hq
      exact quiet_turn_debye (h.others q' h1)
    · obtain ⟨q', h1, rfl⟩ := List.mem_map.mp hq
      exact quiet_turn_drude (h.drude q' h1)
  | drude k m =>
    obtain ⟨n, P, b, a, h, rfl, rfl⟩ := h
    refine ⟨n, drudeTurn P, b.map fun q => (q.1, drudeTurn q.2), a.map fun q => (q.1, drudeTurn q.2), ⟨?_, fun q hq => ?_, fun q hq => ?_, h.lorentz, ⟨h.medium.Ca, h.medium.Cb, h.medium.Da, h.medium.Db⟩, h.strength⟩, by simp, rfl⟩
    · show c.drude.map _ = _
      rw [h.entry, List.map_append, List.map_cons]
    · rw [← List.map_append] at hq
      obtain ⟨q', h1, rfl⟩ := List.mem_map.mp hq
      exact quiet_turn_drude (h.others q' h1)
    · obtain ⟨q', h1, rfl⟩ := List.mem_map.mp hq
      exact quiet_turn_debye (h.debye q' h1)

theorem std_turn {c : Core ℝ} (hc : c.Std) : (turned c).Std := by
  refine hc.of_same { hc.wf with
    f := { hc.wf.f with Ez := hc.wf.f.Ez, Hx := hc.wf.f.Hx, Hy := hc.wf.f.Hy }
    hasE := ?_
    debye := ?_
    drude := ?_ } rfl rfl rfl rfl
  · intro h
    refine hc.wf.hasE ?_
    simpa [turned] using h
  · intro q hq
    obtain ⟨q', h1, rfl⟩ := List.mem_map.mp hq
    have := hc.wf.debye q' h1
    exact ⟨this.np, this.J, this.beta⟩
  · intro q hq
    obtain ⟨q', h1, rfl⟩ := List.mem_map.mp hq
    have := hc.wf.drude q' h1
    exact ⟨this.np, this.J, this.beta⟩

theorem cur_turn (c : Core ℝ) (i j : ℤ) (m : Medium) : m.cur (turned c) i j = -m.cur c i j := by
  cases m with
  | simple m => simp [Medium.cur]
  | debye k m =>
    simp only [Medium.cur, turned, List.getElem?_map]
    cases c.debye[k]? <;> simp [debyeTurn]
  | drude k m =>
    simp only [Medium.cur, turned, List.getElem?_map]
    cases c.drude[k]? <;> simp [drudeTurn]

theorem remembers_turn {c : Core ℝ} {med : ℤ → ℤ → Medium} (h : Remembers c med) : Remembers (turned c) med := by
  refine ⟨std_turn h.std, h.layer, h.wave, ⟨h.media.beyond, fun i j hm => filled_turn (h.media.filled i j hm), h.media.passive, h.media.lorentz⟩, h.single, ⟨?_, ?_⟩, ?_⟩
  · intro q hq i j N a1 a2 a3 a4 a5 a6 a7
    obtain ⟨q', h1, rfl⟩ := List.mem_map.mp hq
    simpa [debyeTurn] using h.edge.debye q' h1 i j N a1 a2 a3 a4 a5 a6 a7
  · intro q hq i j N a1 a2 a3 a4 a5 a6 a7
    obtain ⟨q', h1, rfl⟩ := List.mem_map.mp hq
    simpa [drudeTurn] using h.edge.drude q' h1 i j N a1 a2 a3 a4 a5 a6 a7
  · have gg : (turned c).g = c.g := rfl
    rw [gg]
    refine ⟨fun j => ?_, h.frame.right, fun i => ?_, h.frame.top⟩
    · rw [turn_Hy, if_neg (by unfold Box.Mem; omega)]
      exact h.frame.left j
    · rw [turn_Hx, if_neg (by unfold Box.Mem; omega)]
      exact h.frame.bottom i

theorem reversed_turn (med : ℤ → ℤ → Medium) (c : Core ℝ) : Reversed med c (turned c) := by
  refine ⟨fun i j h => rfl, fun i j h => ?_, fun i j h => ?_, fun i j h => ?_⟩
  · rw [turn_Hx, if_pos h]
  · rw [turn_Hy, if_pos h]
  · rw [cur_turn]
    cases (med i j).res <;> simp [Response.flow]

/-- Time reversed twice. -/
theorem Reversed.fields {med : ℤ → ℤ → Medium} {a b : Core ℝ} (ha : FrameQuiet a.f (updatedNodes a.g)) (hb : FrameQuiet b.f (updatedNodes a.g)) (eg : b.g = a.g)
    (h : Reversed med a b) {i j : ℤ} (hm : (updatedNodes a.g).Mem i j) :
    (turned b).f.Ez.val i j = a.f.Ez.val i j ∧ (turned b).f.Hx.val i j = a.f.Hx.val i j ∧ (turned b).f.Hy.val i j = a.f.Hy.val i j := by
  have topE : b.f.Ez.val i (j + 1) = a.f.Ez.val i (j + 1) := by
    by_cases h' : (updatedNodes a.g).Mem i (j + 1)
    · exact h.Ez _ _ h'
    · have : j + 1 = (updatedNodes a.g).t + 1 := by unfold Box.Mem at hm h'; omega
      rw [this, ha.top, hb.top]
  have rightE : b.f.Ez.val (i + 1) j = a.f.Ez.val (i + 1) j := by
    by_cases h' : (updatedNodes a.g).Mem (i + 1) j
    · exact h.Ez _ _ h'
    · have : i + 1 = (updatedNodes a.g).r + 1 := by unfold Box.Mem at hm h'; omega
      rw [this, ha.right, hb.right]
  refine ⟨h.Ez i j hm, ?_, ?_⟩
  · rw [turn_Hx, eg, if_pos hm]
    unfold hxBack
    rw [topE, h.Ez i j hm, h.Hx i j hm]
    unfold hxBack
    ring
  · rw [turn_Hy, eg, if_pos hm]
    unfold hyBack
    rw [rightE, h.Ez i j hm, h.Hy i j hm]
    unfold hyBack
    ring

/-- A new simulation of a closed domain with lossless objects, and any fields in it. -/
theorem lossless_setup (g : Grid ℝ) (hw : g.Wide) (hl : Lawful g) (hT : g.T = 0) (objs : List (Object ℝ)) (hb : ∀ o ∈ objs, BoxSound o)
    (hc : ∀ o ∈ objs, ClearOfUnguardedEdges g o) (hp : ∀ o ∈ objs, PassiveKind o.mat.kind) (hnm : OneMeaning objs) (hu : Uncovered g objs)
    (hk : ∀ o ∈ objs, Reversible o.mat.kind) :
    ∃ c0 c1 med, Core.make g = .ok c0 ∧ forList objs c0 (fun o c => c.insertObject o) = .ok c1 ∧ c1.g = g ∧
      (∀ i j, (updatedNodes g).Mem i j → KeepsEnergy (med i j)) ∧
      ∀ e x y : ℤ → ℤ → ℝ, (∀ i j, ¬ (updatedNodes g).Mem i j → e i j = 0 ∧ x i j = 0 ∧ y i j = 0) → Remembers (withFields c1 e x y) med := by
  obtain ⟨c0, c1, h1, h2, h3, h4, h5, h6, h7⟩ := objects_filled hw hl (.inl hT) objs hb hc hp hnm hu
  have pick : ∀ i j, ∃ m : Medium, (updatedNodes g).Mem i j → m.Passive ∧ Filled c1 i j m ∧
        (∀ o, TopAt objs (g.toReal ⟨i, j⟩) o → Medium.Of o.mat.kind m) ∧ ((∀ o ∈ objs, o.inside (g.toReal ⟨i, j⟩) = false) → m = .simple Qbox.vacuum) := by
    intro i j
    by_cases h : (updatedNodes g).Mem i j
    · have hx := h
      unfold Box.Mem updatedNodes at hx
      simp only at hx
      obtain ⟨m, hm⟩ := h7 i j (by omega) (by omega) (by omega) (by omega)
      exact ⟨m, fun _ => hm⟩
    · exact ⟨.simple Qbox.vacuum, fun h' => absurd h' h⟩
  choose med hmed using pick
  have kind : ∀ i j, (updatedNodes g).Mem i j → (med i j).Single ∧ KeepsEnergy (med i j) := by
    intro i j h
    obtain ⟨-, -, k3, k4⟩ := hmed i j h
    rcases C09_total objs (g.toReal ⟨i, j⟩) with hv | ⟨o, ho⟩
    · rw [k4 hv]
      exact ⟨trivial, by simp [Medium.base, Qbox.vacuum], .inl rfl⟩
    · have mem : o ∈ objs := by
        obtain ⟨b, a, e, -⟩ := ho
        rw [e]; simp
      have lo := hk o mem
      have of := k3 o ho
      generalize med i j = m at of ⊢
      generalize o.mat.kind = k at of lo
      cases of with
      | simple m => exact ⟨trivial, lo, .inl rfl⟩
      | debye m k =>
        have lo' : m.poles = [] := lo
        exact ⟨by simp [Medium.Single, lo'], rfl, .inl (by simp [Medium.res, lo'])⟩
      | drude m k =>
        have lo' : m.poles.length ≤ 1 ∧ ∀ p ∈ m.poles, p.gamma = 0 := lo
        refine ⟨lo'.1, rfl, ?_⟩
        match hq : m.poles with
        | [] => exact .inl (by simp [Medium.res, hq])
        | [p] =>
          refine .inr ⟨p.omega, ?_⟩
          simp [Medium.res, hq, lo'.2 p (by rw [hq]; simp)]
        | p :: q :: l => rw [hq] at lo'; simp at lo'
  refine ⟨c0, c1, med, h1, h2, h4, fun i j h => (kind i j h).2, fun e x y hout => ?_⟩
  have eg : (withFields c1 e x y).g = g := h4
  have std : (withFields c1 e x y).Std :=
    h3.of_same { h3.wf with f := { h3.wf.f with Ez := h3.wf.f.Ez, Hx := h3.wf.f.Hx, Hy := h3.wf.f.Hy } } rfl rfl rfl rfl
  have fl : ∀ i j m, Filled c1 i j m → Filled (withFields c1 e x y) i j m := by
    intro i j m h
    cases m with
    | simple m =>
      have h' : InSimple c1 m i j := h
      exact ⟨h'.debye, h'.drude, h'.lorentz, ⟨h'.medium.Ca, h'.medium.Cb, h'.medium.Da, h'.medium.Db⟩⟩
    | debye k m =>
      obtain ⟨n, P, b, a, F, q⟩ := h
      exact ⟨n, P, b, a, ⟨F.entry, F.others, F.drude, F.lorentz, ⟨F.medium.Ca, F.medium.Cb, F.medium.Da, F.medium.Db⟩, F.strength⟩, q⟩
    | drude k m =>
      obtain ⟨n, P, b, a, F, q⟩ := h
      exact ⟨n, P, b, a, ⟨F.entry, F.others, F.debye, F.lorentz, ⟨F.medium.Ca, F.medium.Cb, F.medium.Da, F.medium.Db⟩, F.strength⟩, q⟩
  have disp : Dispersive (withFields c1 e x y) med (updatedNodes (withFields c1 e x y).g) := by
    rw [eg]
    refine ⟨fun i j h => ?_, fun i j h => fl i j _ (hmed i j h).2.1, fun i j h => (hmed i j h).1, h6⟩
    rw [eg]
    unfold Box.Mem updatedNodes at h
    simp only at h
    constructor <;> rw [hT] <;> omega
  exact ⟨std, by rw [eg, hT], h5.tfsf, disp, by rw [eg]; exact fun i j h => (kind i j h).1,
    ⟨fun q hq i j N _ _ _ _ _ _ _ => h5.debye q hq i j N, fun q hq i j N _ _ _ _ _ _ _ => h5.drude q hq i j N⟩,
    by rw [eg]; exact within_frame fun i j h => hout i j h⟩

/-- **C92** for programs: a new simulation of a closed domain with any lossless objects, any fields in it at the start. `n` updates, time reversed, `n` updates and time
reversed again give back the fields of the start. -/
theorem C92_program (n : ℕ) (g : Grid ℝ) (hw : g.Wide) (hl : Lawful g) (hT : g.T = 0) (objs : List (Object ℝ)) (hb : ∀ o ∈ objs, BoxSound o)
    (hc : ∀ o ∈ objs, ClearOfUnguardedEdges g o) (hp : ∀ o ∈ objs, PassiveKind o.mat.kind) (hnm : OneMeaning objs) (hu : Uncovered g objs)
    (hk : ∀ o ∈ objs, Reversible o.mat.kind) (e x y : ℤ → ℤ → ℝ)
    (hout : ∀ i j, ¬ (updatedNodes g).Mem i j → e i j = 0 ∧ x i j = 0 ∧ y i j = 0) :
    ∃ c0 c1 c2 c3, Core.make g = .ok c0 ∧ forList objs c0 (fun o c => c.insertObject o) = .ok c1 ∧ (withFields c1 e x y).run n [] = .ok (c2, []) ∧
      (turned c2).run n [] = .ok (c3, []) ∧ ∀ i j, (updatedNodes g).Mem i j →
        (turned c3).f.Ez.val i j = e i j ∧ (turned c3).f.Hx.val i j = x i j ∧ (turned c3).f.Hy.val i j = y i j := by
  obtain ⟨c0, c1, med, h1, h2, h3, h4, h5⟩ := lossless_setup g hw hl hT objs hb hc hp hnm hu hk
  have rem := h5 e x y hout
  have eg : (withFields c1 e x y).g = g := h3
  obtain ⟨c2, u, g2, r2⟩ := still_run n _ rem
  obtain ⟨c3, v, r3, g3, re⟩ := C92_back n _ (turned c2) c2 (by rw [eg]; exact hl) rem (remembers_turn r2) g2 (by rw [eg]; exact h4) u (reversed_turn med c2)
  refine ⟨c0, c1, c2, c3, h1, h2, u, v, fun i j h => ?_⟩
  have q3 := r3.frame
  rw [g3] at q3
  exact re.fields rem.frame q3 g3 (by rw [eg]; exact h)

/-- **C92**, nothing is forgotten: if two starts lead to the same fields and currents after some number of updates, the starts are the same. -/
theorem C92_distinct (n : ℕ) (g : Grid ℝ) (hw : g.Wide) (hl : Lawful g) (hT : g.T = 0) (objs : List (Object ℝ)) (hb : ∀ o ∈ objs, BoxSound o)
    (hc : ∀ o ∈ objs, ClearOfUnguardedEdges g o) (hp : ∀ o ∈ objs, PassiveKind o.mat.kind) (hnm : OneMeaning objs) (hu : Uncovered g objs)
    (hk : ∀ o ∈ objs, Reversible o.mat.kind) (e x y e' x' y' : ℤ → ℤ → ℝ)
    (hout : ∀ i j, ¬ (updatedNodes g).Mem i j → e i j = 0 ∧ x i j = 0 ∧ y i j = 0) (hout' : ∀ i j, ¬ (updatedNodes g).Mem i j → e' i j = 0 ∧ x' i j = 0 ∧ y' i j = 0) :
    ∃ c0 c1 c2 c2', Core.make g = .ok c0 ∧ forList objs c0 (fun o c => c.insertObject o) = .ok c1 ∧ (withFields c1 e x y).run n [] = .ok (c2, []) ∧
      (withFields c1 e' x' y').run n [] = .ok (c2', []) ∧
      ((∀ i j, (updatedNodes g).Mem i j → c2.f.Ez.val i j = c2'.f.Ez.val i j ∧ c2.f.Hx.val i j = c2'.f.Hx.val i j ∧ c2.f.Hy.val i j = c2'.f.Hy.val i j) →
        c2.debye = c2'.debye → c2.drude = c2'.drude → e = e' ∧ x = x' ∧ y = y') := by
  obtain ⟨c0, c1, med, h1, h2, h3, h4, h5⟩ := lossless_setup g hw hl hT objs hb hc hp hnm hu hk
  have rem := h5 e x y hout
  have rem' := h5 e' x' y' hout'
  have eg : (withFields c1 e x y).g = g := h3
  have eg' : (withFields c1 e' x' y').g = g := h3
  obtain ⟨c2, u, g2, r2⟩ := still_run n _ rem
  obtain ⟨c2', u', g2', r2'⟩ := still_run n _ rem'
  refine ⟨c0, c1, c2, c2', h1, h2, u, u', fun hf hde hdr => ?_⟩
  rw [eg] at g2
  rw [eg'] at g2'
  obtain ⟨c3, v, r3, g3, re⟩ := C92_back n _ (turned c2) c2 (by rw [eg]; exact hl) rem (remembers_turn r2) (by rw [eg]; exact g2) (by rw [eg]; exact h4) u (reversed_turn med c2)
  have q2 := r2.frame
  have q2' := r2'.frame
  rw [g2] at q2
  rw [g2'] at q2'
  have same : Reversed med c2' (turned c2) := by
    have r := reversed_turn med c2
    constructor
    · intro i j h
      rw [g2'] at h
      rw [r.Ez i j (by rw [g2]; exact h), (hf i j h).1]
    · intro i j h
      rw [g2'] at h
      rw [r.Hx i j (by rw [g2]; exact h), g2, g2']
      unfold hxBack
      rw [(hf i j h).1, (hf i j h).2.1]
      congr 5
      by_cases h' : (updatedNodes g).Mem i (j + 1)
      · rw [(hf _ _ h').1]
      · have : j + 1 = (updatedNodes g).t + 1 := by unfold Box.Mem at h h'; omega
        rw [this, q2.top, q2'.top]
    · intro i j h
      rw [g2'] at h
      rw [r.Hy i j (by rw [g2]; exact h), g2, g2']
      unfold hyBack
      rw [(hf i j h).1, (hf i j h).2.2]
      congr 5
      by_cases h' : (updatedNodes g).Mem (i + 1) j
      · rw [(hf _ _ h').1]
      · have : i + 1 = (updatedNodes g).r + 1 := by unfold Box.Mem at h h'; omega
        rw [this, q2.right, q2'.right]
    · intro i j h
      rw [g2'] at h
      rw [r.cur i j (by rw [g2]; exact h)]
      congr 2
      cases med i j <;> simp only [Medium.cur, hde, hdr]
  obtain ⟨c3', v', r3', g3', re'⟩ := C92_back n _ (turned c2) c2' (by rw [eg']; exact hl) rem' (remembers_turn r2) (by rw [eg']; exact g2) (by rw [eg']; exact h4) u' same
  obtain ⟨rfl, -⟩ := Prod.mk.inj (Except.ok.inj (v.symm.trans v'))
  have q3 := r3.frame
  rw [g3] at q3
  have node : ∀ i j, e i j = e' i j ∧ x i j = x' i j ∧ y i j = y' i j := by
    intro i j
    by_cases h : (updatedNodes g).Mem i j
    · obtain ⟨a1, a2, a3⟩ := re.fields rem.frame q3 g3 (by rw [eg]; exact h)
      obtain ⟨b1, b2, b3⟩ := re'.fields rem'.frame q3 g3' (by rw [eg']; exact h)
      exact ⟨a1.symm.trans b1, a2.symm.trans b2, a3.symm.trans b3⟩
    · obtain ⟨a1, a2, a3⟩ := hout i j h
      obtain ⟨b1, b2, b3⟩ := hout' i j h
      rw [a1, a2, a3, b1, b2, b3]
      exact ⟨rfl, rfl, rfl⟩
  exact ⟨funext fun i => funext fun j => (node i j).1, funext fun i => funext fun j => (node i j).2.1, funext fun i => funext fun j => (node i j).2.2⟩

open Classical in
/-- A non-trivial case of `C92_program`: a disc of a metal without collisions in the closed example domain and a constant field at the start. -/
example (n : ℕ) : ∃ c0 c1 c2 c3, Core.make gOpen = .ok c0 ∧ forList [plasmaDisc] c0 (fun o c => c.insertObject o) = .ok c1 ∧
    (withFields c1 (fun i j => if (updatedNodes gOpen).Mem i j then 1 else 0) (fun _ _ => 0) (fun _ _ => 0)).run n [] = .ok (c2, []) ∧
    (turned c2).run n [] = .ok (c3, []) ∧ ∀ i j, (updatedNodes gOpen).Mem i j → (turned c3).f.Ez.val i j = 1 := by
  obtain ⟨h1, h2, h3, h4, h5⟩ := plasma_objects
  obtain ⟨c0, c1, c2, c3, a, b, c, d, e⟩ := C92_program n gOpen ⟨by rw [gOpen_T, gOpen_Nx]; norm_num, by rw [gOpen_T, gOpen_Ny]; norm_num⟩ gOpen_lawful gOpen_T [plasmaDisc]
    h1 h2 h3 h4 h5 (by
      intro o ho
      rw [List.mem_singleton.mp ho]
      exact ⟨by simp, by simp⟩) (fun i j => if (updatedNodes gOpen).Mem i j then 1 else 0) (fun _ _ => 0) (fun _ _ => 0)
    (fun i j h => ⟨if_neg h, rfl, rfl⟩)
  refine ⟨c0, c1, c2, c3, a, b, c, d, fun i j h => ?_⟩
  rw [(e i j h).1, if_pos h]

end Qbox.Props
