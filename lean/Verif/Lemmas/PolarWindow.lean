import Verif.Spec.ResponseSpec
import Verif.Lemmas.PolarStep
import Verif.Lemmas.GridWindow

/-! # Solutions of the difference equations in media with memory, in a shrinking window -/

namespace Qbox
open Scalar Spec Props

/-- Field and current after a step follow from those before. -/
theorem matter_unique {eps sig dt : ℝ} (hd : 0 < dt) (he : 0 < eps) (hs : 0 ≤ sig) {r : Response} (hr : r.Passive) {E K cu E1 K1 E2 K2 : ℝ}
    (a1 : eps * ((E1 - E) / dt) + sig * ((E1 + E) / 2) + (r.flow K1 + r.flow K) / 2 = cu)
    (s1 : r.step dt E E1 K K1 0)
    (a2 : eps * ((E2 - E) / dt) + sig * ((E2 + E) / 2) + (r.flow K2 + r.flow K) / 2 = cu)
    (s2 : r.step dt E E2 K K2 0) : E1 = E2 ∧ r.flow K1 = r.flow K2 := by
  cases r with
  | plain =>
    simp only [Response.flow] at a1 a2 ⊢
    have : (eps / dt + sig / 2) * (E1 - E2) = 0 := by linear_combination a1 - a2
    have p : 0 < eps / dt + sig / 2 := by positivity
    exact ⟨by linarith [(mul_eq_zero.mp this).resolve_left p.ne'], trivial⟩
  | debye d t =>
    obtain ⟨hd', ht⟩ := hr
    simp only [Response.flow, Response.step, add_zero] at *
    have e1 : (eps / dt + sig / 2) * (E1 - E2) + (K1 - K2) / 2 = 0 := by linear_combination a1 - a2
    have e2 : (t / dt + 1 / 2) * (K1 - K2) = d / dt * (E1 - E2) := by linear_combination s1 - s2
    have p : 0 < (t / dt + 1 / 2) * (eps / dt + sig / 2) + d / dt / 2 := by positivity
    have : ((t / dt + 1 / 2) * (eps / dt + sig / 2) + d / dt / 2) * (E1 - E2) = 0 := by linear_combination (t / dt + 1 / 2) * e1 - e2 / 2
    have z := (mul_eq_zero.mp this).resolve_left p.ne'
    rw [z] at e1
    exact ⟨by linarith, by linarith⟩
  | drude c o =>
    obtain ⟨hc, ho⟩ := hr
    simp only [Response.flow, Response.step, add_zero] at *
    have e1 : (eps / dt + sig / 2) * (E1 - E2) + (K1 - K2) / 2 = 0 := by linear_combination a1 - a2
    have e2 : (1 / dt + c / 2) * (K1 - K2) = o ^ 2 / 2 * (E1 - E2) := by linear_combination s1 - s2
    have p : 0 < (1 / dt + c / 2) * (eps / dt + sig / 2) + o ^ 2 / 2 / 2 := by positivity
    have : ((1 / dt + c / 2) * (eps / dt + sig / 2) + o ^ 2 / 2 / 2) * (E1 - E2) = 0 := by linear_combination (1 / dt + c / 2) * e1 - e2 / 2
    have z := (mul_eq_zero.mp this).resolve_left p.ne'
    rw [z] at e1
    exact ⟨by linarith, by linarith⟩

/-- The law for means and differences is the law of a step. -/
theorem law_step (r : Response) (dt E E' K K' : ℝ) (h : r.Law ((E' + E) / 2) ((E' - E) / dt) ((K' + K) / 2) ((K' - K) / dt)) : r.step dt E E' K K' 0 := by
  cases r with
  | plain => trivial
  | debye d t => simp only [Response.Law, Response.step] at *; linear_combination h
  | drude c o => simp only [Response.Law, Response.step] at *; linear_combination h

namespace Props

/-- The rectangle `R` is filled with media of at most one pole. -/
structure Matter (c : Core ℝ) (med : ℤ → ℤ → Medium) (R : Box) : Prop where
  media : Dispersive c med R
  single : ∀ i j, R.Mem i j → (med i j).Single

/-- The fields and currents at the nodes of the rectangle. -/
structure HasAll (E X Y K : ℤ → ℤ → ℝ) (c : Core ℝ) (med : ℤ → ℤ → Medium) (R : Box) : Prop where
  fields : Has E X Y c.f R
  current : ∀ i j, R.Mem i j → (med i j).res.flow ((med i j).cur c i j) = K i j

theorem matter_mono {c : Core ℝ} {med : ℤ → ℤ → Medium} {R R' : Box} (h : Matter c med R) (s : ∀ i j, R'.Mem i j → R.Mem i j) : Matter c med R' :=
  ⟨⟨fun i j m => h.media.beyond i j (s i j m), fun i j m => h.media.filled i j (s i j m), fun i j m => h.media.passive i j (s i j m), h.media.lorentz⟩,
    fun i j m => h.single i j (s i j m)⟩

theorem matter_run (n : ℕ) {c : Core ℝ} (hc : c.Std) {med : ℤ → ℤ → Medium} {R : Box} (hp : Matter c med R) (ht : c.tfsf = none) {E X Y K : ℕ → ℤ → ℤ → ℝ}
    (sol : SolvesMatter c.g (fun i j => (med i j).base.eps) (fun i j => (med i j).base.conduc) (fun i j => (med i j).res) R E X Y K)
    (flat : ∀ n i j, R.Mem i j → (med i j).res.flow (K n i j) = K n i j)
    (st : HasAll (E 0) (X 0) (Y 0) (K 0) c med R) : ∃ c', c.run n [] = .ok (c', []) ∧ HasAll (E n) (X n) (Y n) (K n) c' med (R.shrink n) := by
  induction n generalizing c R E X Y K with
  | zero =>
    exact ⟨c, rfl, ⟨fun i j h => st.fields.Ez i j (shrink_mem h), fun i j h => st.fields.Hx i j (shrink_mem h), fun i j h => st.fields.Hy i j (shrink_mem h)⟩,
      fun i j h => st.current i j (shrink_mem h)⟩
  | succ n ih =>
    obtain ⟨c1, l1, E2, E3, E4, f, u, S⟩ := Core.update_step hc [] (by simp)
    obtain rfl : l1 = [] := by have := S.same; cases this; rfl
    have node : ∀ i j, R.Mem i j → R.Mem (i - 1) j → R.Mem i (j - 1) →
        c1.f.Ez.val i j = E 1 i j ∧ (med i j).res.flow ((med i j).cur c1 i j) = K 1 i j := by
      intro i j h hl hb
      obtain ⟨-, am, po⟩ := memory_blind hc S ht hp.media.lorentz (hp.media.beyond i j h) (hp.media.passive i j h) (hp.single i j h) (hp.media.filled i j h)
      rw [show totalContrib c.g (c.t + c.g.dt) [] .Ez ⟨i, j⟩ = 0 from totalContrib_zero (by simp), sub_zero] at am po
      unfold ConductiveLaw curlH at am
      have am' := sol.ampere 0 i j h
      have po' := law_step _ _ _ _ _ _ (sol.pole 0 i j h)
      rw [st.fields.Hy i j h, st.fields.Hy _ _ hl, st.fields.Hx i j h, st.fields.Hx _ _ hb, st.fields.Ez i j h] at am
      rw [st.fields.Ez i j h] at po
      obtain ⟨b1, b2⟩ := Medium.Passive.base_eps (hp.media.passive i j h)
      rw [zero_add] at am' po'
      have fl := st.current i j h
      have k := matter_unique (eps := (med i j).base.eps) (E := E 0 i j) (K := (med i j).cur c i j) (E1 := c1.f.Ez.val i j) (K1 := (med i j).cur c1 i j) hc.dt_pos (by linarith) b2 (Medium.res_passive (hp.media.passive i j h))
        (cu := (Y 0 i j - Y 0 (i - 1) j) / c.g.dx - (X 0 i j - X 0 i (j - 1)) / c.g.dx) (by linear_combination am) po
        (E2 := E 1 i j) (K2 := K 1 i j) (by rw [fl, flat 1 i j h]; exact am') (by
          have f0 := flat 0 i j h
          revert po' fl f0
          cases (med i j).res with
          | plain => intro _ _ _; trivial
          | debye d t => intro po' fl f0; simp only [Response.flow] at fl; rw [fl]; exact po'
          | drude d t => intro po' fl f0; simp only [Response.flow] at fl; rw [fl]; exact po')
      exact ⟨k.1, k.2.trans (flat 1 i j h)⟩
    have mag : ∀ i j, R.Mem i j →
        c1.f.Hx.val i j = c.f.Hx.val i j - c.g.dt * ((c1.f.Ez.val i (j + 1) - c1.f.Ez.val i j) / c.g.dx) ∧
        c1.f.Hy.val i j = c.f.Hy.val i j + c.g.dt * ((c1.f.Ez.val (i + 1) j - c1.f.Ez.val i j) / c.g.dx) := by
      intro i j h
      obtain ⟨k, hk⟩ := (hp.media.filled i j h).medium
      have := magnetic_full hc S (hp.media.beyond i j h) ht hk
      rw [show totalContrib c.g (c.t + c.g.dt) [] .Hx ⟨i, j⟩ = 0 from totalContrib_zero (by simp),
        show totalContrib c.g (c.t + c.g.dt) [] .Hy ⟨i, j⟩ = 0 from totalContrib_zero (by simp), add_zero, add_zero] at this
      exact this
    have s1 : ∀ i j, (R.shrink 1).Mem i j → R.Mem i j := fun i j h => (shrink_one h).1
    have st1 : HasAll (E 1) (X 1) (Y 1) (K 1) c1 med (R.shrink 1) := by
      refine ⟨⟨fun i j h => ?_, fun i j h => ?_, fun i j h => ?_⟩, fun i j h => ?_⟩
      · obtain ⟨m0, ml, mb, -, -⟩ := shrink_one h
        exact (node i j m0 ml mb).1
      · obtain ⟨m0, ml, mb, -, mt⟩ := shrink_one h
        rw [(mag i j m0).1, st.fields.Hx i j m0, (node i j m0 ml mb).1, (node i (j + 1) mt (by
          have := h; unfold Box.Mem Box.shrink at *; simp only at *; push_cast at *; omega) (by rw [add_sub_cancel_right]; exact m0)).1]
        exact (sol.faradayX 0 i j m0).symm
      · obtain ⟨m0, ml, mb, mr, -⟩ := shrink_one h
        rw [(mag i j m0).2, st.fields.Hy i j m0, (node i j m0 ml mb).1, (node (i + 1) j mr (by rw [add_sub_cancel_right]; exact m0) (by
          have := h; unfold Box.Mem Box.shrink at *; simp only at *; push_cast at *; omega)).1]
        exact (sol.faradayY 0 i j m0).symm
      · obtain ⟨m0, ml, mb, -, -⟩ := shrink_one h
        exact (node i j m0 ml mb).2
    have t1 : c1.tfsf = none := by
      have := S.tf
      rw [ht] at this
      exact (Except.ok.inj this).symm
    have lo : c1.lorentz = [] := by
      have := S.hl
      rw [hp.media.lorentz] at this
      exact (Prod.mk.inj (Except.ok.inj this)).1.symm
    have p1 : Matter c1 med (R.shrink 1) := ⟨⟨fun i j h => by rw [S.g]; exact hp.media.beyond i j (s1 i j h),
      fun i j h => (memory_blind hc S ht hp.media.lorentz (hp.media.beyond i j (s1 i j h)) (hp.media.passive i j (s1 i j h)) (hp.single i j (s1 i j h))
        (hp.media.filled i j (s1 i j h))).1, fun i j h => hp.media.passive i j (s1 i j h), lo⟩, fun i j h => hp.single i j (s1 i j h)⟩
    obtain ⟨c2, v, w⟩ := ih S.std p1 t1 (E := fun n => E (n + 1)) (X := fun n => X (n + 1)) (Y := fun n => Y (n + 1)) (K := fun n => K (n + 1)) (by
        rw [S.g]
        exact ⟨fun n i j m => sol.ampere (n + 1) i j (s1 i j m), fun n i j m => sol.pole (n + 1) i j (s1 i j m),
          fun n i j m => sol.faradayX (n + 1) i j (s1 i j m), fun n i j m => sol.faradayY (n + 1) i j (s1 i j m)⟩) (fun n i j m => flat (n + 1) i j (s1 i j m)) st1
    refine ⟨c2, ?_, ?_⟩
    · unfold Core.run
      rw [u]
      exact v
    · rw [shrink_shrink] at w
      exact w

end Props
end Qbox
