import Verif.Lemmas.Linear
import Verif.Props.MaterialGridProps

/-! # Superposition and silence (C15, C17) -/

namespace Qbox.Props
open Qbox Scalar Spec

/-- **C15** (one step). -/
theorem C15_step (a b : ℝ) (c1 c2 c3 : Core ℝ) (s1 : c1.Std) (s2 : c2.Std) (s3 : c3.Std) (l1 l2 l3 : List (Source ℝ))
    (h1 : ∀ s ∈ l1, Fits c1.g s) (h2 : ∀ s ∈ l2, Fits c2.g s) (h3 : ∀ s ∈ l3, Fits c3.g s)
    (h : Combo a b c1 c2 c3) (hs : Forall3 (SrcCombo a b) l1 l2 l3) :
    ∃ d1 m1 d2 m2 d3 m3, c1.update l1 = .ok (d1, m1) ∧ c2.update l2 = .ok (d2, m2) ∧ c3.update l3 = .ok (d3, m3) ∧
      (d1.Std ∧ d2.Std ∧ d3.Std) ∧ ((∀ s ∈ m1, Fits d1.g s) ∧ (∀ s ∈ m2, Fits d2.g s) ∧ ∀ s ∈ m3, Fits d3.g s) ∧
      Combo a b d1 d2 d3 ∧ Forall3 (SrcCombo a b) m1 m2 m3 := by
  obtain ⟨d1, m1, A1, B1, D1, f1, u1, t1⟩ := Core.update_step s1 l1 h1
  obtain ⟨d2, m2, A2, B2, D2, f2, u2, t2⟩ := Core.update_step s2 l2 h2
  obtain ⟨d3, m3, A3, B3, D3, f3, u3, t3⟩ := Core.update_step s3 l3 h3
  obtain ⟨k1, k2⟩ := Core.Step.combo s1 s2 s3 t1 t2 t3 h hs
  exact ⟨d1, m1, d2, m2, d3, m3, u1, u2, u3, ⟨t1.std, t2.std, t3.std⟩, ⟨t1.fits, t2.fits, t3.fits⟩, k1, k2⟩

/-- **C15** In exact arithmetic the simulation is linear: if the state of the third simulation is `a` times the first plus
`b` times the second, and so are the signals of its sources, then this is still so after any number of updates. -/
theorem C15_superposition (a b : ℝ) : ∀ (n : ℕ) (c1 c2 c3 : Core ℝ) (_ : c1.Std) (_ : c2.Std) (_ : c3.Std)
    (l1 l2 l3 : List (Source ℝ)) (_ : ∀ s ∈ l1, Fits c1.g s) (_ : ∀ s ∈ l2, Fits c2.g s) (_ : ∀ s ∈ l3, Fits c3.g s)
    (_ : Combo a b c1 c2 c3) (_ : Forall3 (SrcCombo a b) l1 l2 l3),
    ∃ d1 m1 d2 m2 d3 m3, c1.run n l1 = .ok (d1, m1) ∧ c2.run n l2 = .ok (d2, m2) ∧ c3.run n l3 = .ok (d3, m3) ∧
      (d1.Std ∧ d2.Std ∧ d3.Std) ∧ Combo a b d1 d2 d3 ∧ Forall3 (SrcCombo a b) m1 m2 m3
  | 0, c1, c2, c3, s1, s2, s3, l1, l2, l3, _, _, _, h, hs =>
    ⟨c1, l1, c2, l2, c3, l3, rfl, rfl, rfl, ⟨s1, s2, s3⟩, h, hs⟩
  | n + 1, c1, c2, c3, s1, s2, s3, l1, l2, l3, h1, h2, h3, h, hs => by
    obtain ⟨d1, m1, d2, m2, d3, m3, u1, u2, u3, ⟨w1, w2, w3⟩, ⟨f1, f2, f3⟩, k1, k2⟩ :=
      C15_step a b c1 c2 c3 s1 s2 s3 l1 l2 l3 h1 h2 h3 h hs
    obtain ⟨e1, n1, e2, n2, e3, n3, v1, v2, v3, w, q1, q2⟩ :=
      C15_superposition a b n d1 d2 d3 w1 w2 w3 m1 m2 m3 f1 f2 f3 k1 k2
    exact ⟨e1, n1, e2, n2, e3, n3, by unfold Core.run; rw [u1]; exact v1, by unfold Core.run; rw [u2]; exact v2,
      by unfold Core.run; rw [u3]; exact v3, w, q1, q2⟩

/-- **C15** for the observable field: the electric and magnetic fields after `n` updates. -/
theorem C15_fields (a b : ℝ) (n : ℕ) (c1 c2 c3 : Core ℝ) (s1 : c1.Std) (s2 : c2.Std) (s3 : c3.Std)
    (l1 l2 l3 : List (Source ℝ)) (h1 : ∀ s ∈ l1, Fits c1.g s) (h2 : ∀ s ∈ l2, Fits c2.g s) (h3 : ∀ s ∈ l3, Fits c3.g s)
    (h : Combo a b c1 c2 c3) (hs : Forall3 (SrcCombo a b) l1 l2 l3) :
    ∃ d1 m1 d2 m2 d3 m3, c1.run n l1 = .ok (d1, m1) ∧ c2.run n l2 = .ok (d2, m2) ∧ c3.run n l3 = .ok (d3, m3) ∧
      ∀ i j, d3.f.Ez.val i j = a * d1.f.Ez.val i j + b * d2.f.Ez.val i j ∧
        d3.f.Hx.val i j = a * d1.f.Hx.val i j + b * d2.f.Hx.val i j ∧
        d3.f.Hy.val i j = a * d1.f.Hy.val i j + b * d2.f.Hy.val i j := by
  obtain ⟨d1, m1, d2, m2, d3, m3, u1, u2, u3, -, k, -⟩ := C15_superposition a b n c1 c2 c3 s1 s2 s3 l1 l2 l3 h1 h2 h3 h hs
  exact ⟨d1, m1, d2, m2, d3, m3, u1, u2, u3, fun i j => ⟨k.f.Ez i j, k.f.Hx i j, k.f.Hy i j⟩⟩

/-- `c` with other values of `Ez`. -/
noncomputable def withEz (c : Core ℝ) (u : ℤ → ℤ → ℝ) : Core ℝ := { c with f := { c.f with Ez := c.f.Ez.setv u } }

theorem withEz_std {c : Core ℝ} (h : c.Std) (u : ℤ → ℤ → ℝ) : (withEz c u).Std :=
  h.of_same { h.wf with f := { h.wf.f with Ez := h.wf.f.Ez } } rfl rfl rfl rfl

theorem Forall3_same {α : Type} {R : α → α → α → Prop} {l : List α} (h : ∀ x ∈ l, R x x x) : Forall3 R l l l := by
  induction l with
  | nil => exact .nil
  | cons x l ih => exact .cons (h x (by simp)) (ih fun x hx => h x (by simp [hx]))

theorem Opt3_same {α : Type} {R : α → α → α → Prop} {o : Option α} (h : ∀ x, o = some x → R x x x) : Opt3 R o o o := by
  cases o with
  | none => exact .none
  | some x => exact .some (h x rfl)

/-- Silent simulations are those that are the zero combination of themselves. -/
theorem silent_iff (c : Core ℝ) : Silent c ↔ c.tfsf = none ∧ Combo 0 0 c c c := by
  have z : ∀ x : Tensor ℝ, TCombo 0 0 x x x ↔ TZero x := fun x => by simp [TCombo, TZero]
  have z3 : ∀ x : Tensor3 ℝ, T3Combo 0 0 x x x ↔ T3Zero x := fun x => by simp [T3Combo, T3Zero]
  constructor
  · intro h
    refine ⟨h.tfsf, ⟨rfl, rfl⟩, ⟨rfl, rfl⟩, ⟨rfl, rfl⟩, ⟨⟨rfl, rfl, rfl, rfl⟩, ⟨rfl, rfl, rfl, rfl⟩, (z _).mpr h.Ez, (z _).mpr h.Hx,
      (z _).mpr h.Hy⟩, ⟨⟨rfl, rfl, rfl, rfl⟩, ⟨rfl, rfl, rfl, rfl⟩, (z _).mpr h.Ezx1, (z _).mpr h.Ezx2, (z _).mpr h.Hyx1,
      (z _).mpr h.Hyx2, (z _).mpr h.Ezy1, (z _).mpr h.Ezy2, (z _).mpr h.Hxy1, (z _).mpr h.Hxy2⟩,
      Opt3_same fun x hx => (z _).mpr (h.prevE x hx), Opt3_same fun x hx => (z _).mpr (h.prev2E x hx), ?_, ?_, ?_, ?_⟩
    · exact Forall3_same fun q hq => ⟨⟨rfl, rfl, rfl⟩, ⟨rfl, rfl, rfl⟩, (z3 _).mpr (h.debye q hq)⟩
    · exact Forall3_same fun q hq => ⟨⟨rfl, rfl, rfl⟩, ⟨rfl, rfl, rfl⟩, (z3 _).mpr (h.drude q hq)⟩
    · exact Forall3_same fun q hq => ⟨⟨rfl, rfl, rfl⟩, ⟨rfl, rfl, rfl⟩, (z3 _).mpr (h.lorentz q hq).1, (z3 _).mpr (h.lorentz q hq).2⟩
    · rw [h.tfsf]; exact .none
  · rintro ⟨ht, h⟩
    have hl : ∀ {α : Type} {R : α → α → α → Prop} {l m n : List α}, Forall3 R l m n → l = m → m = n → ∀ q ∈ n, R q q q := by
      intro α R l m n hh
      induction hh with
      | nil => intro _ _ q hq; simp at hq
      | cons hx hl ih =>
        intro e1 e2 q hq
        cases e1; cases e2
        rcases List.mem_cons.mp hq with rfl | hq
        · exact hx
        · exact ih rfl rfl q hq
    have ho : ∀ {o1 o2 o3 : Option (Tensor ℝ)}, Opt3 (TCombo 0 0) o1 o2 o3 → ∀ x, o3 = some x → TZero x := by
      intro o1 o2 o3 hh x hx
      cases hh with
      | none => cases hx
      | some h => cases hx; simpa [TCombo, TZero] using h
    exact ⟨(z _).mp h.f.Ez, (z _).mp h.f.Hx, (z _).mp h.f.Hy, (z _).mp h.pml.Ezx1, (z _).mp h.pml.Ezx2, (z _).mp h.pml.Hyx1,
      (z _).mp h.pml.Hyx2, (z _).mp h.pml.Ezy1, (z _).mp h.pml.Ezy2, (z _).mp h.pml.Hxy1, (z _).mp h.pml.Hxy2,
      ho h.prevE, ho h.prev2E, fun q hq => (z3 _).mp (hl h.debye rfl rfl q hq).2.2,
      fun q hq => (z3 _).mp (hl h.drude rfl rfl q hq).2.2,
      fun q hq => ⟨(z3 _).mp (hl h.lorentz rfl rfl q hq).2.2.1, (z3 _).mp (hl h.lorentz rfl rfl q hq).2.2.2⟩, ht⟩

/-- **C17** A simulation without sources whose fields and memories are zero stays zero, whatever its materials. -/
theorem C17_silence (n : ℕ) (c : Core ℝ) (hc : c.Std) (h : Silent c) :
    ∃ c', c.run n [] = .ok (c', []) ∧ c'.Std ∧ Silent c' := by
  obtain ⟨ht, hcc⟩ := (silent_iff c).mp h
  obtain ⟨d1, m1, d2, m2, d3, m3, u1, u2, u3, w, k, -⟩ :=
    C15_superposition 0 0 n c c c hc hc hc [] [] [] (by simp) (by simp) (by simp) hcc .nil
  rw [u1] at u2 u3
  cases u2; cases u3
  obtain ⟨e, es, v, -, -, -, hf, -, hsame⟩ := Core.run_ok n hc.wf hc.wide [] (by simp)
  rw [u1] at v
  cases v
  cases hsame
  refine ⟨d1, u1, w.1, (silent_iff d1).mpr ⟨?_, k⟩⟩
  rw [ht] at hf
  simpa using hf

/-- The constructor builds a silent simulation. -/
theorem make_silent {g : Grid ℝ} (hg : g.Wide) (hl : Lawful g) (hT : g.T = 0 ∨ 2 ≤ g.T) :
    ∃ c, Core.make g = .ok c ∧ c.Std ∧ c.g = g ∧ Silent c := by
  obtain ⟨c, hm, hs, e1, -, -, e2⟩ := Core.make_std hg hl hT
  refine ⟨c, hm, hs, e1, ?_⟩
  have hm' := hm
  unfold Core.make Pml.make Pml.makeWith at hm'
  simp only [Except.bind_ok, Except.pure_eq] at hm'
  obtain ⟨f, hf, p, ⟨co, hco, hp⟩, sc, hsc, hcc⟩ := hm'
  rw [clearMaterials_closed (f := ⟨.const g.Nx g.Ny 0, .const g.Nx g.Ny 0, .const g.Nx g.Ny 0, .const g.Nx g.Ny 0,
    .const g.Nx g.Ny 0, .const g.Nx g.Ny 0, .const g.Nx g.Ny 0⟩) ⟨⟨rfl, rfl⟩, ⟨rfl, rfl⟩, ⟨rfl, rfl⟩, ⟨rfl, rfl⟩, ⟨rfl, rfl⟩,
    ⟨rfl, rfl⟩, ⟨rfl, rfl⟩⟩] at hf
  cases hf
  cases hp
  cases hcc
  exact ⟨fun _ _ => rfl, fun _ _ => rfl, fun _ _ => rfl, fun _ _ => rfl, fun _ _ => rfl, fun _ _ => rfl, fun _ _ => rfl,
    fun _ _ => rfl, fun _ _ => rfl, fun _ _ => rfl, fun _ _ => rfl, by simp, by simp, by simp, by simp, by simp, rfl⟩

/-- The example grid with its simulation. -/
theorem gEx_std : ∃ c : Core ℝ, Core.make gEx = .ok c ∧ c.Std ∧ c.g = gEx ∧ Silent c :=
  make_silent gEx_wide gEx_lawful (by rw [gEx_T]; norm_num)

/-- A non-trivial case of C15: two arbitrary initial fields on the example grid and their combination. -/
example (u v : ℤ → ℤ → ℝ) (a b : ℝ) : ∃ c : Core ℝ, c.g = gEx ∧ (withEz c u).Std ∧ (withEz c v).Std ∧
    (withEz c fun i j => a * u i j + b * v i j).Std ∧
    Combo a b (withEz c u) (withEz c v) (withEz c fun i j => a * u i j + b * v i j) := by
  obtain ⟨c, -, hs, hg, hz⟩ := gEx_std
  refine ⟨c, hg, withEz_std hs u, withEz_std hs v, withEz_std hs _, ?_⟩
  have z : ∀ x : Tensor ℝ, TZero x → TCombo a b x x x := fun x hx i j => by rw [hx]; ring
  exact ⟨⟨rfl, rfl⟩, ⟨rfl, rfl⟩, ⟨rfl, rfl⟩, ⟨⟨rfl, rfl, rfl, rfl⟩, ⟨rfl, rfl, rfl, rfl⟩, fun i j => rfl, z _ hz.Hx, z _ hz.Hy⟩,
    ⟨⟨rfl, rfl, rfl, rfl⟩, ⟨rfl, rfl, rfl, rfl⟩, z _ hz.Ezx1, z _ hz.Ezx2, z _ hz.Hyx1, z _ hz.Hyx2, z _ hz.Ezy1, z _ hz.Ezy2,
      z _ hz.Hxy1, z _ hz.Hxy2⟩, Opt3_same fun x hx => z _ (hz.prevE x hx), Opt3_same fun x hx => z _ (hz.prev2E x hx),
    Forall3_same fun q hq => ⟨⟨rfl, rfl, rfl⟩, ⟨rfl, rfl, rfl⟩, fun i j k => by rw [hz.debye q hq i j k]; ring⟩,
    Forall3_same fun q hq => ⟨⟨rfl, rfl, rfl⟩, ⟨rfl, rfl, rfl⟩, fun i j k => by rw [hz.drude q hq i j k]; ring⟩,
    Forall3_same fun q hq => ⟨⟨rfl, rfl, rfl⟩, ⟨rfl, rfl, rfl⟩, fun i j k => by rw [(hz.lorentz q hq).1 i j k]; ring,
      fun i j k => by rw [(hz.lorentz q hq).2 i j k]; ring⟩,
    by rw [show (withEz c u).tfsf = none from hz.tfsf]; simp only [withEz]; rw [hz.tfsf]; exact .none⟩

end Qbox.Props
