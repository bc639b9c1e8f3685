import Verif.Props.RoundedProps
import Verif.Props.DrivenProps
import Verif.Spec.RoundSourceSpec

/-! # Sources: one step without layer in any arithmetic, and rounding of the signals -/

namespace Qbox
open Scalar Spec Props

section
variable {K : Type} [Scalar K]

/-- The fields after a step, when the sources have left the fields `fp`. -/
def stepP (c : Core K) (fp : Flds K) : Flds K :=
  { fp with
    Hx := fp.Hx.upd (rect 1 (c.g.Nx - 1) 1 (c.g.Ny - 1)) (hxVal fp c.sc)
    Hy := fp.Hy.upd (rect 1 (c.g.Nx - 1) 1 (c.g.Ny - 1)) (hyVal fp c.sc) }

theorem Bare.update_driven {c : Core K} (hc : Bare c) {srcs srcs' : List (Source K)} {fp : Flds K}
    (hp : pulseAll c.g (c.t + c.g.dt) srcs (stepE c) = .ok (srcs', fp)) (hd : fp.Dims c.g.Nx c.g.Ny) :
    ∃ c', c.update srcs = .ok (c', srcs') ∧ Bare c' ∧ c'.f = stepP c fp ∧ c'.g = c.g ∧ c'.t = c.t + c.g.dt := by
  have hT : c.pml.par.T = 0 := hc.wf.pml.thk.trans hc.thick
  refine ⟨advance c (stepP c fp), ?_, ?_, rfl, rfl, rfl⟩
  · have e : c.stageE = .ok (advance c (stepE c)) := by
      unfold Core.stageE
      simp only
      rw [ezLoop_closed _ _ _ _ hc.wf.f hc.wf.sc]; simp only [Except.ok_bind]
      rw [Pml.updateE_bare hT]; simp only [Except.ok_bind]
      rw [hc.debye, hc.drude, hc.lorentz, hc.tfsf]
      cases c
      simp only at *
      have d := hc.debye; have r := hc.drude; have l := hc.lorentz; have w := hc.tfsf
      simp only at d r l w
      subst d; subst r; subst l; subst w
      rfl
    have h : (advance c fp).stageH = .ok (advance c (stepP c fp)) := by
      have w : (advance c fp).tfsf = none := hc.tfsf
      unfold Core.stageH
      simp only
      rw [w]
      show ((hLoop c.g.Nx c.g.Ny fp c.sc) >>= _ : M (Core K)) = _
      rw [hLoop_closed _ _ _ _ hd hc.wf.sc]; simp only [Except.ok_bind]
      have q := Pml.updateH_bare hT fp.Ez fp.Db (fp.Hx.upd (rect 1 (c.g.Nx - 1) 1 (c.g.Ny - 1)) (hxVal fp c.sc))
        (fp.Hy.upd (rect 1 (c.g.Nx - 1) 1 (c.g.Ny - 1)) (hyVal fp c.sc))
      have q' : (advance c fp).pml.updateH (advance c fp).f.Ez (advance c fp).f.Db
        (fp.Hx.upd (rect 1 (c.g.Nx - 1) 1 (c.g.Ny - 1)) (hxVal fp c.sc))
        (fp.Hy.upd (rect 1 (c.g.Nx - 1) 1 (c.g.Ny - 1)) (hyVal fp c.sc)) = _ := q
      rw [q']; simp only [Except.ok_bind]
      have w' := hc.tfsf
      unfold advance
      rw [w']
      rfl
    unfold Core.update
    rw [e]; simp only [Except.ok_bind]
    have hp' : pulseAll (advance c (stepE c)).g (advance c (stepE c)).t srcs (advance c (stepE c)).f = .ok (srcs', fp) := hp
    rw [hp']; simp only [Except.ok_bind]
    have h' : ({ advance c (stepE c) with f := fp } : Core K).stageH = .ok (advance c (stepP c fp)) := h
    rw [h']
    rfl
  · have p1 : OptDim (assignIf c.prevE (some c.f.Ez)) c.g.Nx c.g.Ny := by
      intro a h
      unfold assignIf at h
      cases hp : c.prevE with
      | none => rw [hp] at h; cases h
      | some b => rw [hp] at h; cases h; exact hc.wf.f.Ez
    have p2 : OptDim (assignIf c.prev2E c.prevE) c.g.Nx c.g.Ny := by
      intro a h
      unfold assignIf at h
      cases hp : c.prev2E with
      | none => rw [hp] at h; cases h
      | some b => rw [hp] at h; exact hc.wf.prevE a h
    exact
      { wf := { f := { hd with Hx := hd.Hx, Hy := hd.Hy }, sc := hc.wf.sc, pml := hc.wf.pml, prevE := p1, prev2E := p2,
                hasE := by show c.debye ≠ [] ∨ c.drude ≠ [] ∨ c.lorentz ≠ [] → _; simp [hc.debye, hc.drude, hc.lorentz]
                has2E := by show c.lorentz ≠ [] → _; simp [hc.lorentz]
                debye := hc.wf.debye, drude := hc.wf.drude, lorentz := hc.wf.lorentz, tfsf := hc.wf.tfsf }
        thick := hc.thick, scx := hc.scx, scy := hc.scy, debye := hc.debye, drude := hc.drude, lorentz := hc.lorentz, tfsf := hc.tfsf }

end

section
variable {A : Arith}

open Classical in
/-- What the sources add with rounding, apart from the rounding of the sums. -/
noncomputable def roundContrib (g : Grid (Rnd A)) (t : Rnd A) (srcs : List (Source (Rnd A))) (C : Fields) (p : V2 ℤ) : ℝ :=
  (srcs.map fun s => if Drives g s C p then (s.tp.resp t).val else 0).sum

/-- The sum of the sizes of the signals. -/
noncomputable def roundLoud (t : Rnd A) (srcs : List (Source (Rnd A))) : ℝ := (srcs.map fun s => |(s.tp.resp t).val|).sum

theorem roundLoud_nonneg (t : Rnd A) : ∀ srcs : List (Source (Rnd A)), 0 ≤ roundLoud t srcs
  | [] => by simp [roundLoud]
  | s :: l => by
    have ih := roundLoud_nonneg t l
    unfold roundLoud at *
    rw [List.map_cons, List.sum_cons]
    positivity

/-- The sources of a list, one after the other. -/
theorem pulseAll_rnd (g : Grid (Rnd A)) (t : Rnd A) : ∀ (srcs : List (Source (Rnd A))) (f : Flds (Rnd A)), (∀ s ∈ srcs, Fits g s) → f.Dims g.Nx g.Ny →
    ∃ srcs' f', pulseAll g t srcs f = .ok (srcs', f') ∧ f'.Dims g.Nx g.Ny ∧ f.SameCoef f' ∧ List.Forall₂ SameSrc srcs srcs' ∧
      ∀ C : Fields, C.IsComp → ∀ x y,
        ((∀ s ∈ srcs, ¬ Drives g s C ⟨x, y⟩) → (f'.comp C).val x y = (f.comp C).val x y) ∧
        |((f'.comp C).val x y).val - (((f.comp C).val x y).val + roundContrib g t srcs C ⟨x, y⟩)| ≤
          ((1 + A.u) ^ srcs.length - 1) * (|((f.comp C).val x y).val| + roundLoud t srcs) + srcs.length * (1 + A.u) ^ srcs.length * A.tiny
  | [], f, _, hf => ⟨[], f, rfl, hf, ⟨rfl, rfl, rfl, rfl⟩, .nil, fun C _ x y => ⟨fun _ => rfl, by simp [roundContrib]⟩⟩
  | s :: l, f, hs, hf => by
    obtain ⟨f1, tp', h1, h2, h3, h4, h4'⟩ := Source.pulse_spec g t s f (hs s (by simp)) hf
    obtain ⟨l', f2, h5, h6, h7, h8, h9⟩ := pulseAll_rnd g t l f1 (fun s hs' => hs s (by simp [hs'])) h3
    refine ⟨{ s with tp := tp' } :: l', f2, ?_, h6, ?_, .cons ⟨rfl, rfl, response_resp h2⟩ h8, ?_⟩
    · unfold pulseAll
      rw [h1]; simp only [Except.ok_bind]
      rw [h5]; rfl
    · obtain ⟨a1, a2, a3, a4⟩ := h4
      obtain ⟨b1, b2, b3, b4⟩ := h7
      exact ⟨b1.trans a1, b2.trans a2, b3.trans a3, b4.trans a4⟩
    · intro C hC x y
      obtain ⟨i1, i2⟩ := h9 C hC x y
      have v1 := h4' C hC x y
      refine ⟨fun hn => ?_, ?_⟩
      · rw [i1 fun s' hs' => hn s' (by simp [hs']), v1, if_neg (hn s (by simp))]
      · have u0 := A.u_nonneg
        have t0 := A.tiny_nonneg
        have L0 := roundLoud_nonneg t l
        have q1 : 1 ≤ (1 + A.u) ^ l.length := one_le_pow₀ (by linarith)
        obtain ⟨q, hq⟩ : ∃ q, q = (1 + A.u) ^ l.length := ⟨_, rfl⟩
        obtain ⟨L, hL⟩ : ∃ L, L = roundLoud t l := ⟨_, rfl⟩
        have eL : roundLoud t (s :: l) = |(s.tp.resp t).val| + L := by rw [hL]; unfold roundLoud; rw [List.map_cons, List.sum_cons]
        have eC : roundContrib g t (s :: l) C ⟨x, y⟩ = (open Classical in if Drives g s C ⟨x, y⟩ then (s.tp.resp t).val else 0) + roundContrib g t l C ⟨x, y⟩ := by
          unfold roundContrib; rw [List.map_cons, List.sum_cons]
        rw [eL, eC, List.length_cons, pow_succ]
        rw [← hq, ← hL] at i2
        rw [← hq]
        rw [← hq] at q1
        rw [← hL] at L0
        obtain ⟨a, ha⟩ : ∃ a, a = ((f.comp C).val x y).val := ⟨_, rfl⟩
        obtain ⟨b, hb⟩ : ∃ b, b = ((f1.comp C).val x y).val := ⟨_, rfl⟩
        obtain ⟨v, hv⟩ : ∃ v, v = (s.tp.resp t).val := ⟨_, rfl⟩
        have eb : |b - (a + (open Classical in if Drives g s C ⟨x, y⟩ then v else 0))| ≤ A.u * (|a| + |v|) + A.tiny := by
          rw [hb, v1]
          split_ifs with hd
          · rw [add_rnd, ← ha, ← hv]
            have := A.near (a + v)
            have := mul_le_mul_of_nonneg_left (abs_add_le a v) u0
            linarith
          · rw [← ha, add_zero, sub_self, abs_zero]
            positivity
        rw [← hb] at i2
        rw [← ha, ← hv]
        obtain ⟨w, hw⟩ : ∃ w, w = (open Classical in if Drives g s C ⟨x, y⟩ then v else 0) := ⟨_, rfl⟩
        have w1 : |w| ≤ |v| := by
          rw [hw]
          split_ifs
          · exact le_rfl
          · simp
        rw [← hw] at eb ⊢
        obtain ⟨r, hr⟩ : ∃ r, r = roundContrib g t l C ⟨x, y⟩ := ⟨_, rfl⟩
        obtain ⟨z, hz⟩ : ∃ z, z = ((f2.comp C).val x y).val := ⟨_, rfl⟩
        rw [← hr, ← hz] at i2 ⊢
        obtain ⟨k, hk⟩ : ∃ k : ℝ, k = l.length := ⟨_, rfl⟩
        have k0 : 0 ≤ k := by rw [hk]; exact Nat.cast_nonneg _
        push_cast
        rw [← hk] at i2 ⊢
        have tri : |z - (a + (w + r))| ≤ |z - (b + r)| + |b - (a + w)| := by
          have := abs_add_le (z - (b + r)) (b - (a + w))
          rwa [show z - (b + r) + (b - (a + w)) = z - (a + (w + r)) by ring] at this
        have bb : |b| ≤ (1 + A.u) * (|a| + |v|) + A.tiny := by
          have := abs_add_le (b - (a + w)) (a + w)
          rw [sub_add_cancel] at this
          have := abs_add_le a w
          linarith
        have m1 := mul_le_mul_of_nonneg_left bb (by linarith : 0 ≤ q - 1)
        have m2 : 0 ≤ A.u * L * q := by positivity
        have m3 : 0 ≤ A.u * q * A.tiny * (k + 1) := by positivity
        have m4 : 0 ≤ A.u * |v| := by positivity
        nlinarith [abs_nonneg a, abs_nonneg v]

end

end Qbox
