import Verif.Lemmas.CurrentsMake

/-! # Objects in an incident wave: the wave alone and the objects with induced currents -/

namespace Qbox
open Scalar Spec Props

set_option linter.unusedSectionVars false
set_option linter.unusedSimpArgs false

theorem insertAll_bare : ∀ (objs : List (Object ℝ)) {c c' : Core ℝ}, (∀ o ∈ objs, ∃ m, o.mat.kind = .simple m) → c.Bare →
    forList objs c (fun o c => c.insertObject o) = .ok c' → c'.Bare
  | [], c, c', _, b, h => by cases h; exact b
  | o :: l, c, c', hp, b, h => by
    rw [forList_cons] at h
    obtain ⟨c1, h1, h2⟩ := (Except.bind_ok ..).mp h
    refine insertAll_bare l (fun o' h' => hp o' (by simp [h'])) ?_ h2
    unfold Core.insertObject at h1
    obtain ⟨f, -, h3⟩ := (Except.bind_ok ..).mp h1
    obtain ⟨m, hm⟩ := hp o (by simp)
    rw [hm] at h3
    cases h3
    exact ⟨b.debye, b.drude, b.lorentz⟩

theorem Built.silent1 {g : Grid ℝ} {objs : List (Object ℝ)} {c0 c1 : Core ℝ} (hl : Lawful g) (b : Built g objs c0 c1) (hs : ∀ o ∈ objs, ClearOfUnguardedEdges g o) :
    Silent c1 := by
  have safe : ∀ o ∈ objs, o.Safe c0.g := fun o ho => by rw [b.g0]; exact safe_of_clear hl (hs o ho)
  obtain ⟨c1', i1, -, -, z1⟩ := Core.Std.insertAll objs b.std0 b.silent0 safe
  rw [b.ins] at i1
  cases i1
  exact z1

/-- Sources minus currents. -/
theorem sources_minus {c : Core ℝ} (hc : c.Std) (hl : Lawful c.g) (hz : Silent c) (b : c.Bare) {srcs : List (Source ℝ)} (hs : ∀ s ∈ srcs, Spec.Fits c.g s) {nodes : List (V2 ℤ)}
    (hn : ∀ p ∈ nodes, InGrid c.g p) (K : ℤ → ℤ → ℝ → ℝ) (n : ℕ) :
    ∃ u v d, c.run n srcs = .ok u ∧ c.run n (nodes.map (current c.g K)) = .ok v ∧ c.run n (srcs ++ nodes.map (current c.g fun i j t => - K i j t)) = .ok d ∧
      ∀ i j, d.1.f.Ez.val i j = u.1.f.Ez.val i j - v.1.f.Ez.val i j ∧ d.1.f.Hx.val i j = u.1.f.Hx.val i j - v.1.f.Hx.val i j ∧
        d.1.f.Hy.val i j = u.1.f.Hy.val i j - v.1.f.Hy.val i j := by
  have fc : ∀ K : ℤ → ℤ → ℝ → ℝ, ∀ s ∈ nodes.map (current c.g K), Spec.Fits c.g s := by
    intro K s h
    obtain ⟨p, hp, rfl⟩ := List.mem_map.mp h
    exact currents_fit hl (hn p hp)
  have fm : ∀ l : List (Source ℝ), (∀ s ∈ l, Spec.Fits c.g s) → ∀ s ∈ l.map mute, Spec.Fits c.g s := by
    intro l hl s hs
    obtain ⟨s', h', rfl⟩ := List.mem_map.mp hs
    exact hl s' h'
  have z : ∀ {x : Tensor ℝ}, TZero x → TCombo 1 (-1) x x x := fun h i j => by rw [h]; ring
  have sh : ∀ x : Pml ℝ, SameLayer x x := fun x => ⟨rfl, rfl, rfl, rfl⟩
  have combo : Combo 1 (-1) c c c := by
    refine ⟨⟨rfl, rfl⟩, ⟨rfl, rfl⟩, ⟨rfl, rfl⟩, ⟨⟨rfl, rfl, rfl, rfl⟩, ⟨rfl, rfl, rfl, rfl⟩, z hz.Ez, z hz.Hx, z hz.Hy⟩,
      ⟨sh _, sh _, z hz.Ezx1, z hz.Ezx2, z hz.Hyx1, z hz.Hyx2, z hz.Ezy1, z hz.Ezy2, z hz.Hxy1, z hz.Hxy2⟩,
      Opt3_same fun x hx => z (hz.prevE x hx), Opt3_same fun x hx => z (hz.prev2E x hx), ?_, ?_, ?_, ?_⟩
    · rw [b.debye]; exact .nil
    · rw [b.drude]; exact .nil
    · rw [b.lorentz]; exact .nil
    · rw [hz.tfsf]; exact .none
  have app : ∀ {a1 a2 a3 b1 b2 b3 : List (Source ℝ)}, Forall3 (SrcCombo 1 (-1)) a1 a2 a3 → Forall3 (SrcCombo 1 (-1)) b1 b2 b3 →
      Forall3 (SrcCombo 1 (-1)) (a1 ++ b1) (a2 ++ b2) (a3 ++ b3) := by
    intro a1 a2 a3 b1 b2 b3 h h'
    induction h with
    | nil => exact h'
    | cons x _ ih => exact .cons x ih
  have src1 : ∀ l : List (Source ℝ), Forall3 (SrcCombo 1 (-1)) l (l.map mute) l := by
    intro l
    induction l with
    | nil => exact .nil
    | cons s l ih => exact .cons ⟨rfl, rfl, fun t => by show s.tp.resp t = 1 * s.tp.resp t + -1 * 0; ring⟩ ih
  have src2 : ∀ l : List (V2 ℤ), Forall3 (SrcCombo 1 (-1)) ((l.map (current c.g K)).map mute) (l.map (current c.g K)) (l.map (current c.g fun i j t => - K i j t)) := by
    intro l
    induction l with
    | nil => exact .nil
    | cons p l ih => exact .cons ⟨rfl, rfl, fun t => by show - K p.x p.y t = 1 * 0 + -1 * K p.x p.y t; ring⟩ ih
  have all : ∀ {l m : List (Source ℝ)}, (∀ s ∈ l, Spec.Fits c.g s) → (∀ s ∈ m, Spec.Fits c.g s) → ∀ s ∈ l ++ m, Spec.Fits c.g s := by
    intro l m h h' s hs
    rcases List.mem_append.mp hs with k | k
    · exact h s k
    · exact h' s k
  have f1 := all hs (fm _ (fc K))
  have f2 := all (fm _ hs) (fc K)
  have f3 := all hs (fc fun i j t => - K i j t)
  obtain ⟨d1, m1, d2, m2, d3, m3, u1, u2, u3, f⟩ := C15_fields 1 (-1) n c c c hc hc hc _ _ _ f1 f2 f3 combo (app (src1 srcs) (src2 nodes))
  obtain ⟨as, la, A2, A3, A4, fa, RA⟩ := Core.trace hc _ f1
  obtain ⟨us, lu, U2, U3, U4, fu, RU⟩ := Core.trace hc srcs hs
  obtain ⟨bs, lb, B2, B3, B4, fb, RB⟩ := Core.trace hc _ f2
  obtain ⟨vs, lv, V2, V3, V4, fv, RV⟩ := Core.trace hc _ (fc K)
  have none_ : ∀ {l : List (Source ℝ)} {vs : ℕ → Core ℝ} {lv V2 V3 V4 fv} (_ : Trace c l vs lv V2 V3 V4 fv) (n : ℕ), (vs n).tfsf = none :=
    fun R n => (R.frame hz.tfsf n).tfsf
  have T1 := twin_bare ⟨rfl, rfl, rfl, rfl, rfl, rfl, rfl⟩ b b ⟨rfl, rfl, rfl, rfl⟩ RA RU
    (fun t C p => by rw [totalContrib_append, mute_total, add_zero])
    (fun n x y => by rw [none_ RA n, none_ RU n]; exact ⟨rfl, rfl, rfl⟩) n
  have T2 := twin_bare ⟨rfl, rfl, rfl, rfl, rfl, rfl, rfl⟩ b b ⟨rfl, rfl, rfl, rfl⟩ RB RV
    (fun t C p => by rw [totalContrib_append, mute_total, zero_add])
    (fun n x y => by rw [none_ RB n, none_ RV n]; exact ⟨rfl, rfl, rfl⟩) n
  rw [RA.run n] at u1
  rw [RB.run n] at u2
  obtain ⟨rfl, rfl⟩ := Prod.mk.inj (Except.ok.inj u1)
  obtain ⟨rfl, rfl⟩ := Prod.mk.inj (Except.ok.inj u2)
  refine ⟨(us n, lu n), (vs n, lv n), (d3, m3), RU.run n, RV.run n, u3, fun i j => ?_⟩
  obtain ⟨e1, e2, e3⟩ := f i j
  simp only
  rw [T1.Ez, T1.Hx, T1.Hy, T2.Ez, T2.Hx, T2.Hy, e1, e2, e3]
  refine ⟨by ring, by ring, by ring⟩

end Qbox
