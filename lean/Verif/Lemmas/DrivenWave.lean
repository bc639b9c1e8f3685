import Verif.Props.ConvergeProps
import Verif.Props.CurrentProps
import Verif.Spec.DrivenWaveSpec

/-! # One step with a current -/

namespace Qbox
open Scalar Spec Props

theorem Spec.Carries.inner {g : Grid ℝ} {srcs : List (Source ℝ)} {eps sig J} {τ δ : ℝ} (h : Carries g srcs eps sig J τ δ) :
    ∀ s ∈ srcs, DrivesIn g (updatedNodes g) s := fun s hs C i j hd => by
  obtain ⟨-, a, b, c, d⟩ := h.electric s hs C i j hd
  exact ⟨⟨a, b⟩, c, d⟩

theorem Spec.Carries.silentH {g : Grid ℝ} {srcs : List (Source ℝ)} {eps sig J} {τ δ : ℝ} (h : Carries g srcs eps sig J τ δ) (t : ℝ) {C : Fields}
    (hC : C ≠ .Ez) (i j : ℤ) : totalContrib g t srcs C ⟨i, j⟩ = 0 :=
  totalContrib_zero fun s hs hd => hC (h.electric s hs C i j hd).1

theorem Spec.Carries.same {g : Grid ℝ} {srcs srcs' : List (Source ℝ)} {eps sig J} {τ δ : ℝ} (h : Carries g srcs eps sig J τ δ)
    (hs : List.Forall₂ SameSrc srcs srcs') : Carries g srcs' eps sig J τ δ := by
  have e : ∀ t i j, addedE g srcs' t i j = addedE g srcs t i j := fun t i j => totalContrib_same hs
  refine ⟨fun s' hs' C i j hd => ?_, fun n i j a b c d k => by rw [e]; exact h.node n i j a b c d k⟩
  obtain ⟨s, m, e, -⟩ := forall2_mem hs s' hs'
  refine h.electric s m C i j ?_
  unfold Drives at hd ⊢
  rw [e] at hd
  exact hd

/-- A step of a program with electric sources obeys the laws with a current. -/
theorem current_step {c c' : Core ℝ} {srcs srcs' E2 E3 E4 f} {med : ℤ → ℤ → Simple ℝ} (h : Closed c med) (S : c.Step srcs c' srcs' E2 E3 E4 f)
    {eps sig J} {τ δ : ℝ} (hk : Carries c.g srcs eps sig J τ δ) :
    Laws c.g med (updatedNodes c.g) c.f c'.f
      (fun i j => ((med i j).eps / c.g.dt + (med i j).conduc / 2) * addedE c.g srcs (c.t + c.g.dt) i j) (fun _ _ => 0) (fun _ _ => 0) := by
  have dt0 := h.std.dt_pos
  refine ⟨fun i j hm => ?_, fun i j hm => ?_, fun i j hm => ?_⟩
  · have e := (driven_plain h.std S h.wave (h.media.beyond i j hm) h.media.lorentz (h.media.medium i j hm)).2.2.2
    have e1 := h.media.eps i j hm
    have e2 := h.media.conduc i j hm
    have u := ((C24_unique (med i j) c.g.dt dt0 (by linarith) e2).1 (c.f.Ez.val i j) _ (curlH c.f c.g.dx i j)).mpr rfl
    have k : totalContrib c.g (c.t + c.g.dt) srcs .Ez ⟨i, j⟩ = addedE c.g srcs (c.t + c.g.dt) i j := rfl
    rw [k] at e
    unfold ConductiveLaw at u ⊢
    rw [e]
    linear_combination u
  · rw [(S.magnetic_driven h.std (h.media.beyond i j hm) h.wave (h.media.medium i j hm).medium).1, hk.silentH _ (by simp)]
    ring
  · rw [(S.magnetic_driven h.std (h.media.beyond i j hm) h.wave (h.media.medium i j hm).medium).2, hk.silentH _ (by simp)]
    ring

end Qbox
