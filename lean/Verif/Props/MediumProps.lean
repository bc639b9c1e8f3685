import Verif.Lemmas.NodeStep
import Verif.Lemmas.MediumAlg
import Verif.Lemmas.Reach
import Verif.Props.LinearProps

/-! # Media (C24 – C30) -/

namespace Qbox.Props
open Qbox Scalar Spec

/-! ## C24 -/

/-- **C24** The coefficients of a conducting dielectric solve the semi-implicit Ampère law, which has no other solution,
and do not amplify the field. -/
theorem C24_unique (m : Simple ℝ) (dt : ℝ) (hdt : 0 < dt) (he : 0 < m.eps) (hs : 0 ≤ m.conduc) :
    (∀ E E' curl, ConductiveLaw m dt E E' curl ↔ E' = m.Ca dt * E + m.Cb dt * curl) ∧ |m.Ca dt| ≤ 1 := by
  have hD : 0 < 2 * m.eps + m.conduc * dt := by positivity
  have hne := hD.ne'
  have h1 : (1 : ℝ) + m.conduc * dt / (2 * m.eps) ≠ 0 := by positivity
  have ha : m.Ca dt = (2 * m.eps - m.conduc * dt) / (2 * m.eps + m.conduc * dt) := by
    simp only [Simple.Ca, ofInt_real]; push_cast; field_simp
  have hb : m.Cb dt = 2 * dt / (2 * m.eps + m.conduc * dt) := by
    simp only [Simple.Cb, ofInt_real]; push_cast; field_simp
  constructor
  · intro E E' curl
    rw [ha, hb, ConductiveLaw]
    obtain ⟨D, e⟩ : ∃ D, D = 2 * m.eps + m.conduc * dt := ⟨_, rfl⟩
    rw [← e] at hne ⊢
    obtain e' : m.conduc = (D - 2 * m.eps) / dt := by rw [e]; field_simp; ring
    rw [e']
    field_simp
    constructor <;> intro h <;> linarith
  · rw [ha, abs_le, div_le_one hD, le_div_iff₀ hD]
    have : 0 ≤ m.conduc * dt := by positivity
    constructor <;> linarith

/-- **C24** in the simulation: at every undriven node of a conducting dielectric beyond the absorbing layer the update
performs the semi-implicit Ampère law, at every step of a run of any length. -/
theorem C24_step (c : Core ℝ) (hc : c.Std) (srcs : List (Source ℝ)) (hs : ∀ s ∈ srcs, Fits c.g s) (i j : ℤ)
    (hb : Beyond c.g i j) (hu : Undriven c srcs i j) (hl : c.lorentz = []) (m : Simple ℝ) (he : 0 < m.eps) (hm : 0 ≤ m.conduc)
    (hin : InSimple c m i j) (n : ℕ) : ∃ c1 srcs1 c2 srcs2, c.run n srcs = .ok (c1, srcs1) ∧ c1.update srcs1 = .ok (c2, srcs2) ∧
      ConductiveLaw m c.g.dt (c1.f.Ez.val i j) (c2.f.Ez.val i j) (curlH c1.f c.g.dx i j) := by
  induction n generalizing c srcs with
  | zero =>
    obtain ⟨c2, srcs2, E2, E3, E4, f, h1, h2⟩ := Core.update_step hc srcs hs
    refine ⟨c, srcs, c2, srcs2, rfl, h1, ?_⟩
    rw [(C24_unique m c.g.dt hc.dt_pos he hm).1]
    exact (h2.inSimple hc hb hu hl hin).2.2
  | succ n ih =>
    obtain ⟨c2, srcs2, E2, E3, E4, f, h1, h2⟩ := Core.update_step hc srcs hs
    obtain ⟨k1, k2, -⟩ := h2.inSimple hc hb hu hl hin
    obtain ⟨d1, l1, d2, l2, r1, r2, r3⟩ := ih c2 h2.std srcs2 h2.fits (by rw [h2.g]; exact hb) (h2.undriven hc hu) k2 k1
    rw [h2.g] at r3
    refine ⟨d1, l1, d2, l2, ?_, r2, r3⟩
    unfold Core.run
    rw [h1]; exact r1

/-- The example grid with a disc of any material at its centre. -/
theorem disc_sim (m : Material ℝ) : ∃ c0 c : Core ℝ, Core.make gEx = .ok c0 ∧ c0.insertObject (disc m 10 10) = .ok c ∧ c.Std ∧
    c.g = gEx ∧ Silent c ∧ c0.f.Dims c0.g.Nx c0.g.Ny ∧ c0.g = gEx ∧ (disc m 10 10).Safe c0.g ∧ (disc m 10 10).Covered c0.g := by
  obtain ⟨c0, h1, h2, h3, h4⟩ := gEx_std
  have hs : (disc m 10 10).Safe c0.g := by
    rw [h3]; exact safe_of_clear gEx_lawful (disc_clear m (by norm_num) (by norm_num))
  obtain ⟨c, k1, k2, k3⟩ := h2.insertObject hs
  exact ⟨c0, c, h1, k1, k2, k3.trans h3, h4.insertObject h2.wf.f hs k1, h2.wf.f, h3, hs,
    by rw [h3]; exact covered_of_sound gEx_lawful (disc_sound _ _ _)⟩

theorem disc_center (m : Material ℝ) : (disc m 10 10).inside (gEx.toReal ⟨10, 10⟩) = true := by
  rw [disc_inside]; simp only [Grid.toReal, gEx_dx, ofInt_real]; norm_num

theorem disc_outside (m : Material ℝ) : (disc m 10 10).inside (gEx.toReal ⟨5, 5⟩) = false := by
  rw [← Bool.not_eq_true, disc_inside]; simp only [Grid.toReal, gEx_dx, ofInt_real]; norm_num

theorem gEx_beyond {i j : ℤ} (h1 : 3 < i) (h2 : i < 16) (h3 : 3 < j) (h4 : j < 16) : Beyond gEx i j :=
  ⟨by rw [gEx_T]; exact h1, by rw [gEx_T, gEx_Nx]; omega, by rw [gEx_T]; exact h3, by rw [gEx_T, gEx_Ny]; omega⟩

theorem silent_undriven {c : Core ℝ} (h : Silent c) (i j : ℤ) : Undriven c [] i j :=
  ⟨by simp, by rw [h.tfsf]; simp⟩

/-- The hypotheses of `C24_step` hold at the centre of a conducting disc. -/
example : ∃ c : Core ℝ, c.Std ∧ Beyond c.g 10 10 ∧ Undriven c [] 10 10 ∧ c.lorentz = [] ∧ InSimple c ⟨2, 1, 3⟩ 10 10 := by
  obtain ⟨c0, c, h1, h2, h3, h4, h5, h6, h7, h8, h9⟩ := disc_sim ⟨"m", .simple ⟨2, 1, 3⟩⟩
  obtain ⟨n1, n2, n3⟩ := Core.make_no_pol h1
  obtain ⟨e, -⟩ := insertObject_f h6 h8 h2
  unfold Core.insertObject at h2
  rw [paintObject_closed h6 h8] at h2
  cases h2
  refine ⟨_, h3, by rw [h4]; exact gEx_beyond (by norm_num) (by norm_num) (by norm_num) (by norm_num), silent_undriven h5 _ _,
    n3, ⟨by rw [n1]; simp, by rw [n2]; simp, by rw [n3]; simp, ?_⟩⟩
  have hi : (disc ⟨"m", .simple ⟨2, 1, 3⟩⟩ 10 10).inside (c0.g.toReal ⟨10, 10⟩) = true := by rw [h7]; exact disc_center _
  exact Flds.paint_hit (q := fun x y => (disc ⟨"m", .simple ⟨2, 1, 3⟩⟩ 10 10).inside (c0.g.toReal ⟨x, y⟩))
    (h9 10 10 (by norm_num) (by rw [h7, gEx_Nx]; norm_num) (by norm_num) (by rw [h7, gEx_Ny]; norm_num) hi) hi

/-! ## C25 -/

/-- Parameters of a physical Debye medium. -/
def DebyePhysical (m : Debye ℝ) : Prop := 0 < m.epsInf ∧ ∀ p ∈ m.poles, 0 < p.tau ∧ 0 ≤ p.dEps

/-- **C25** in full: every update satisfies the discretised Debye equations. False, see `C25_false`. -/
def C25_statement : Prop :=
  ∀ (c : Core ℝ) (_ : c.Std) (srcs : List (Source ℝ)) (_ : ∀ s ∈ srcs, Fits c.g s) (i j : ℤ) (_ : Beyond c.g i j)
    (_ : Undriven c srcs i j) (n : String) (P : DebyePol ℝ) (b a : List (String × DebyePol ℝ)) (_ : InDebye c n P b a i j)
    (_ : DebyePhysical P.mat), ∃ c' srcs' P' b' a', c.update srcs = .ok (c', srcs') ∧ InDebye c' n P' b' a' i j ∧
      b'.length = b.length ∧ P'.mat = P.mat ∧
      DebyeLaw P.mat c.g.dt (c.f.Ez.val i j) (c'.f.Ez.val i j) (curlH c.f c.g.dx i j) (fun N => P.J.val i j N)
        (fun N => P'.J.val i j N)

/-- **C25**, what holds for any number of poles. The discretised equations have exactly one solution `(E', J')`. The update
computes `E'`; it also computes the current of the last pole, but the current of pole `N` misses the correction of the
field by the poles after it, by the stated amount. -/
theorem C25_partial (c : Core ℝ) (hc : c.Std) (srcs : List (Source ℝ)) (hs : ∀ s ∈ srcs, Fits c.g s) (i j : ℤ)
    (hb : Beyond c.g i j) (hu : Undriven c srcs i j) (n : String) (P : DebyePol ℝ) (b a : List (String × DebyePol ℝ))
    (hin : InDebye c n P b a i j) (hp : DebyePhysical P.mat) :
    ∃ c' srcs' P' b' a', c.update srcs = .ok (c', srcs') ∧ InDebye c' n P' b' a' i j ∧ b'.length = b.length ∧ P'.mat = P.mat ∧
      ∃ Jx : ℕ → ℝ,
        DebyeLaw P.mat c.g.dt (c.f.Ez.val i j) (c'.f.Ez.val i j) (curlH c.f c.g.dx i j) (fun N => P.J.val i j N) Jx ∧
        (∀ E2 J2, DebyeLaw P.mat c.g.dt (c.f.Ez.val i j) E2 (curlH c.f c.g.dx i j) (fun N => P.J.val i j N) J2 →
          E2 = c'.f.Ez.val i j ∧ ∀ N : ℕ, N < P.mat.poles.length → J2 N = Jx N) ∧
        (∀ N : ℕ, N + 1 = P.mat.poles.length → P'.J.val i j N = Jx N) ∧
        ∀ (N : ℕ) (h : N < P.mat.poles.length), P'.J.val i j N - Jx N = P.mat.poles[N].beta c.g.dt / c.g.dt * (P.mat.Cb c.g.dt / 2 *
          ∑ M ∈ Finset.Ico (N + 1) P.mat.poles.length,
            (1 + (Arr.ofList (P.mat.poles.map (·.kappa c.g.dt))).val M) * P.J.val i j M) := by
  obtain ⟨c', srcs', E2, E3, E4, f, h1, h2⟩ := Core.update_step hc srcs hs
  obtain ⟨P', b', a', k1, k2, k3, k4, k5⟩ := h2.inDebye hc hb hu hin
  have law := debyeLaw_iff hc.dt_pos hp.1 hp.2
  have dev : ∀ (N : ℕ) (h : N < P.mat.poles.length), P'.J.val i j N -
      ((Arr.ofList (P.mat.poles.map (·.kappa c.g.dt))).val N * P.J.val i j N
        + (Arr.ofList (P.mat.poles.map (·.beta c.g.dt))).val N / c.g.dt * (c'.f.Ez.val i j - c.f.Ez.val i j))
      = P.mat.poles[N].beta c.g.dt / c.g.dt * (P.mat.Cb c.g.dt / 2 *
          ∑ M ∈ Finset.Ico (N + 1) P.mat.poles.length,
            (1 + (Arr.ofList (P.mat.poles.map (·.kappa c.g.dt))).val M) * P.J.val i j M) := by
    intro N h
    rw [k5 N h, k4, hin.strength N h, arr_val _ _ _ h, ← Finset.sum_range_add_sum_Ico _ (Nat.succ_le_of_lt h)]
    rw [arr_val _ _ _ h]
    ring
  refine ⟨c', srcs', P', b', a', h1, k1, k2, k3, fun N => (Arr.ofList (P.mat.poles.map (·.kappa c.g.dt))).val N * P.J.val i j N
        + (Arr.ofList (P.mat.poles.map (·.beta c.g.dt))).val N / c.g.dt * (c'.f.Ez.val i j - c.f.Ez.val i j), ?_, ?_, ?_, dev⟩
  · rw [law]; exact ⟨k4, fun N _ => rfl⟩
  · intro E2 J2 h
    rw [law] at h
    obtain ⟨e1, e2⟩ := h
    have e : E2 = c'.f.Ez.val i j := e1.trans k4.symm
    exact ⟨e, fun N hN => by rw [e2 N hN, e]⟩
  · intro N hN
    have := dev N (by omega)
    rw [hN, Finset.Ico_self, Finset.sum_empty] at this
    linarith

/-- **C25** for media of at most one pole: the discretised Debye equations hold exactly. -/
theorem C25_single_partial (c : Core ℝ) (hc : c.Std) (srcs : List (Source ℝ)) (hs : ∀ s ∈ srcs, Fits c.g s) (i j : ℤ)
    (hb : Beyond c.g i j) (hu : Undriven c srcs i j) (n : String) (P : DebyePol ℝ) (b a : List (String × DebyePol ℝ))
    (hin : InDebye c n P b a i j) (hp : DebyePhysical P.mat) (h1 : P.mat.poles.length ≤ 1) :
    ∃ c' srcs' P' b' a', c.update srcs = .ok (c', srcs') ∧ InDebye c' n P' b' a' i j ∧ b'.length = b.length ∧ P'.mat = P.mat ∧
      DebyeLaw P.mat c.g.dt (c.f.Ez.val i j) (c'.f.Ez.val i j) (curlH c.f c.g.dx i j) (fun N => P.J.val i j N)
        (fun N => P'.J.val i j N) := by
  obtain ⟨c', srcs', P', b', a', k1, k2, k3, k4, Jx, k5, -, k6, -⟩ := C25_partial c hc srcs hs i j hb hu n P b a hin hp
  refine ⟨c', srcs', P', b', a', k1, k2, k3, k4, ?_⟩
  rw [debyeLaw_iff hc.dt_pos hp.1 hp.2] at k5 ⊢
  exact ⟨k5.1, fun N hN => by rw [k6 N (by omega)]; exact k5.2 N hN⟩

/-- The state after any number of updates is again one to which the theorems on Debye media apply. -/
theorem C25_run (c : Core ℝ) (hc : c.Std) (srcs : List (Source ℝ)) (hs : ∀ s ∈ srcs, Fits c.g s) (i j : ℤ)
    (hb : Beyond c.g i j) (hu : Undriven c srcs i j) (n : String) (P : DebyePol ℝ) (b a : List (String × DebyePol ℝ))
    (hin : InDebye c n P b a i j) (k : ℕ) : ∃ c' srcs' P' b' a', c.run k srcs = .ok (c', srcs') ∧ c'.Std ∧
      (∀ s ∈ srcs', Fits c'.g s) ∧ Beyond c'.g i j ∧ Undriven c' srcs' i j ∧ InDebye c' n P' b' a' i j ∧ P'.mat = P.mat := by
  induction k generalizing c srcs P b a with
  | zero => exact ⟨c, srcs, P, b, a, rfl, hc, hs, hb, hu, hin, rfl⟩
  | succ k ih =>
    obtain ⟨c1, srcs1, E2, E3, E4, f, h1, h2⟩ := Core.update_step hc srcs hs
    obtain ⟨P1, b1, a1, k1, -, k3, -⟩ := h2.inDebye hc hb hu hin
    obtain ⟨c', srcs', P', b', a', r1, r2, r3, r4, r5, r6, r7⟩ := ih c1 h2.std srcs1 h2.fits (by rw [h2.g]; exact hb)
      (h2.undriven hc hu) P1 b1 a1 k1
    refine ⟨c', srcs', P', b', a', ?_, r2, r3, r4, r5, r6, r7.trans k3⟩
    unfold Core.run
    rw [h1]; exact r1

/-- `c` with other values of `Hy` (the field tensors are public members). -/
noncomputable def withHy (c : Core ℝ) (u : ℤ → ℤ → ℝ) : Core ℝ := { c with f := { c.f with Hy := c.f.Hy.setv u } }

theorem withHy_std {c : Core ℝ} (h : c.Std) (u : ℤ → ℤ → ℝ) : (withHy c u).Std :=
  h.of_same { h.wf with f := { h.wf.f with Hy := h.wf.f.Hy } } rfl rfl rfl rfl

/-- A magnetic field whose curl is 1 at the centre of the example grid. -/
noncomputable def kick : ℤ → ℤ → ℝ := fun x y => if x = 10 ∧ y = 10 then 1 else 0

theorem kick_curl {c : Core ℝ} (h : Silent c) : curlH (withHy c kick).f gEx.dx 10 10 = 1 := by
  have hx := h.Hx
  simp only [curlH, withHy, Tensor.setv_val, kick, gEx_dx]
  rw [hx, hx]; norm_num

/-- A disc of a Debye medium with a magnetic field at its centre: the hypotheses of C25 hold. -/
theorem debye_kicked (m : Debye ℝ) : ∃ (c : Core ℝ) (P : DebyePol ℝ), c.Std ∧ c.g = gEx ∧ Undriven c [] 10 10 ∧ P.mat = m ∧
    InDebye c "m" P [] [] 10 10 ∧ (∀ N, P.J.val 10 10 N = 0) ∧ c.f.Ez.val 10 10 = 0 ∧ curlH c.f c.g.dx 10 10 = 1 := by
  obtain ⟨c0, c, h1, h2, h3, h4, h5, h6, h7, h8, h9⟩ := disc_sim ⟨"m", .debye m⟩
  obtain ⟨n1, n2, n3⟩ := Core.make_no_pol h1
  obtain ⟨P, p1, p2, -, p4⟩ := firstDebye h6 h8 h9 rfl n1 n2 n3 h2
  have hin := p4 10 10 (by norm_num) (by rw [h7, gEx_Nx]; norm_num) (by norm_num) (by rw [h7, gEx_Ny]; norm_num)
    (by rw [h7]; exact disc_center _)
  refine ⟨withHy c kick, P, withHy_std h3 _, h4, ⟨by simp, ?_⟩, p1, ⟨hin.entry, hin.others, hin.drude, hin.lorentz,
    ⟨hin.medium.Ca, hin.medium.Cb, hin.medium.Da, hin.medium.Db⟩, hin.strength⟩, p2 10 10, h5.Ez 10 10, ?_⟩
  · intro w hw
    have : c.tfsf = some w := hw
    rw [h5.tfsf] at this; cases this
  · show curlH (withHy c kick).f c.g.dx 10 10 = 1
    rw [h4]; exact kick_curl h5

example : DebyePhysical ⟨2, [⟨1, 1⟩]⟩ := ⟨by norm_num, by simp⟩

/-- A Debye medium with two equal poles. -/
noncomputable def twoDebye : Debye ℝ := ⟨1, [⟨1, 1⟩, ⟨1, 1⟩]⟩

theorem twoDebye_phys : DebyePhysical twoDebye := ⟨by norm_num [twoDebye], by simp [twoDebye]⟩

theorem twoDebye_vals {m : Debye ℝ} (h : m = twoDebye) : m.poles.length = 2 ∧ m.Cb (1 / 2) = 5 / 14 ∧
    ∀ (N : ℕ) (hN : N < m.poles.length), m.poles[N].beta (1 / 2) = 2 / 5 ∧ m.poles[N].kappa (1 / 2) = 3 / 5 := by
  subst h
  have key : ∀ (N : ℕ) (hN : N < twoDebye.poles.length), twoDebye.poles[N].beta (1 / 2) = 2 / 5 ∧
      twoDebye.poles[N].kappa (1 / 2) = 3 / 5 := by
    intro N hN
    have : twoDebye.poles[N] = ⟨1, 1⟩ := by
      have hN' : N < 2 := hN
      match N, hN' with
      | 0, _ => rfl
      | 1, _ => rfl
    rw [this]
    constructor
    · simp only [DebyePole.beta, ofInt_real]; norm_num
    · simp only [DebyePole.kappa, ofInt_real]; norm_num
  refine ⟨rfl, ?_, key⟩
  rw [Debye.Cb, arr_sum]
  have : twoDebye.poles.length = 2 := rfl
  rw [this, Finset.sum_range_succ, Finset.sum_range_one, arr_val twoDebye.poles _ 0 (by simp [this]),
    arr_val twoDebye.poles _ 1 (by simp [this]), (key 0 _).1, (key 1 _).1]
  simp only [ofInt_real]
  norm_num [twoDebye]

/-- C25 is false: with two poles the current of the first one is not the solution of its equation. -/
theorem C25_false : ¬ C25_statement := by
  intro h
  obtain ⟨c, P, s1, g1, u1, m1, i1, z1, z2, cu⟩ := debye_kicked twoDebye
  obtain ⟨v1, v2, v3⟩ := twoDebye_vals m1
  have b1 : Beyond c.g 10 10 := by rw [g1]; exact gEx_beyond (by norm_num) (by norm_num) (by norm_num) (by norm_num)
  obtain ⟨c', srcs', E2, E3, E4, f, q1, q2⟩ := Core.update_step s1 [] (by simp)
  obtain ⟨P', b', a', k1, k2, k3, k4, k5⟩ := q2.inDebye s1 b1 u1 i1
  have hd : c.g.dt = 1 / 2 := by rw [g1, gEx_dt]
  have j1 := k5 1 (by omega)
  rw [i1.strength 1 (by omega), hd, (v3 1 _).1, v2] at j1
  simp only [z1, mul_zero, Finset.sum_const_zero, z2, cu] at j1
  have b2 : Beyond c'.g 10 10 := by rw [q2.g]; exact b1
  have u2 : Undriven c' srcs' 10 10 := q2.undriven s1 u1
  have ph : DebyePhysical P'.mat := by rw [k3, m1]; exact twoDebye_phys
  obtain ⟨w1, w2, w3⟩ := twoDebye_vals (k3.trans m1)
  obtain ⟨c2, s2, P2, b2', a2, r1, r2, r3, r4, r5⟩ := h c' q2.std srcs' q2.fits 10 10 b2 u2 "m" P' b' a' k1 ph
  obtain ⟨c3, s3, P3, b3, a3, t1, t2, t3, t4, Jx, -, t5, -, t6⟩ :=
    C25_partial c' q2.std srcs' q2.fits 10 10 b2 u2 "m" P' b' a' k1 ph
  rw [r1] at t1
  obtain ⟨rfl, rfl⟩ := Prod.mk.inj (Except.ok.inj t1)
  have he := r2.entry
  rw [t2.entry] at he
  obtain ⟨-, he⟩ := List.append_inj he (by rw [t3, r3])
  obtain rfl : P3 = P2 := by simpa using (List.cons.inj he).1
  obtain ⟨-, w⟩ := t5 _ _ r5
  have w0 := w 0 (by omega)
  have d0 := t6 0 (by omega)
  have hsum : ∑ M ∈ Finset.Ico (0 + 1) P'.mat.poles.length,
      (1 + (Arr.ofList (P'.mat.poles.map (·.kappa c'.g.dt))).val M) * P'.J.val 10 10 M
      = (1 + (Arr.ofList (P'.mat.poles.map (·.kappa c'.g.dt))).val ((1 : ℕ) : ℤ)) * P'.J.val 10 10 ((1 : ℕ) : ℤ) := by
    rw [w1, show Finset.Ico (0 + 1) 2 = {1} from rfl, Finset.sum_singleton]
  rw [w0, sub_self, hsum, j1, arr_val _ _ _ (by omega), q2.g, hd, w2, (w3 0 _).1, (w3 1 _).2] at d0
  norm_num at d0

/-! ## C26 -/

/-- Parameters of a physical Drude medium. -/
def DrudePhysical (m : Drude ℝ) : Prop := 0 < m.epsInf ∧ ∀ p ∈ m.poles, 0 ≤ p.gamma

/-- **C26** in full: every update satisfies the discretised Drude equations. False, see `C26_false`. -/
def C26_statement : Prop :=
  ∀ (c : Core ℝ) (_ : c.Std) (srcs : List (Source ℝ)) (_ : ∀ s ∈ srcs, Fits c.g s) (i j : ℤ) (_ : Beyond c.g i j)
    (_ : Undriven c srcs i j) (n : String) (P : DrudePol ℝ) (b a : List (String × DrudePol ℝ)) (_ : InDrude c n P b a i j)
    (_ : DrudePhysical P.mat), ∃ c' srcs' P' b' a', c.update srcs = .ok (c', srcs') ∧ InDrude c' n P' b' a' i j ∧
      b'.length = b.length ∧ P'.mat = P.mat ∧
      DrudeLaw P.mat c.g.dt (c.f.Ez.val i j) (c'.f.Ez.val i j) (curlH c.f c.g.dx i j) (fun N => P.J.val i j N)
        (fun N => P'.J.val i j N)

/-- **C26**, what holds for any number of poles. The discretised equations have exactly one solution `(E', J')`. The update
computes `E'`; it also computes the current of the last pole, but the current of pole `N` misses the correction of the
field by the poles after it, by the stated amount. -/
theorem C26_partial (c : Core ℝ) (hc : c.Std) (srcs : List (Source ℝ)) (hs : ∀ s ∈ srcs, Fits c.g s) (i j : ℤ)
    (hb : Beyond c.g i j) (hu : Undriven c srcs i j) (n : String) (P : DrudePol ℝ) (b a : List (String × DrudePol ℝ))
    (hin : InDrude c n P b a i j) (hp : DrudePhysical P.mat) :
    ∃ c' srcs' P' b' a', c.update srcs = .ok (c', srcs') ∧ InDrude c' n P' b' a' i j ∧ b'.length = b.length ∧ P'.mat = P.mat ∧
      ∃ Jx : ℕ → ℝ,
        DrudeLaw P.mat c.g.dt (c.f.Ez.val i j) (c'.f.Ez.val i j) (curlH c.f c.g.dx i j) (fun N => P.J.val i j N) Jx ∧
        (∀ E2 J2, DrudeLaw P.mat c.g.dt (c.f.Ez.val i j) E2 (curlH c.f c.g.dx i j) (fun N => P.J.val i j N) J2 →
          E2 = c'.f.Ez.val i j ∧ ∀ N : ℕ, N < P.mat.poles.length → J2 N = Jx N) ∧
        (∀ N : ℕ, N + 1 = P.mat.poles.length → P'.J.val i j N = Jx N) ∧
        ∀ (N : ℕ) (h : N < P.mat.poles.length), P'.J.val i j N - Jx N = P.mat.poles[N].beta c.g.dt * (P.mat.Cb c.g.dt / 2 *
          ∑ M ∈ Finset.Ico (N + 1) P.mat.poles.length,
            (1 + (Arr.ofList (P.mat.poles.map (·.kappa c.g.dt))).val M) * P.J.val i j M) := by
  obtain ⟨c', srcs', E2, E3, E4, f, h1, h2⟩ := Core.update_step hc srcs hs
  obtain ⟨P', b', a', k1, k2, k3, k4, k5⟩ := h2.inDrude hc hb hu hin
  have law := drudeLaw_iff hc.dt_pos hp.1 hp.2
  have dev : ∀ (N : ℕ) (h : N < P.mat.poles.length), P'.J.val i j N -
      ((Arr.ofList (P.mat.poles.map (·.kappa c.g.dt))).val N * P.J.val i j N
        + (Arr.ofList (P.mat.poles.map (·.beta c.g.dt))).val N * (c'.f.Ez.val i j + c.f.Ez.val i j))
      = P.mat.poles[N].beta c.g.dt * (P.mat.Cb c.g.dt / 2 *
          ∑ M ∈ Finset.Ico (N + 1) P.mat.poles.length,
            (1 + (Arr.ofList (P.mat.poles.map (·.kappa c.g.dt))).val M) * P.J.val i j M) := by
    intro N h
    rw [k5 N h, k4, hin.strength N h, arr_val _ _ _ h, ← Finset.sum_range_add_sum_Ico _ (Nat.succ_le_of_lt h)]
    rw [arr_val _ _ _ h]
    ring
  refine ⟨c', srcs', P', b', a', h1, k1, k2, k3, fun N => (Arr.ofList (P.mat.poles.map (·.kappa c.g.dt))).val N * P.J.val i j N
        + (Arr.ofList (P.mat.poles.map (·.beta c.g.dt))).val N * (c'.f.Ez.val i j + c.f.Ez.val i j), ?_, ?_, ?_, dev⟩
  · rw [law]; exact ⟨k4, fun N _ => rfl⟩
  · intro E2 J2 h
    rw [law] at h
    obtain ⟨e1, e2⟩ := h
    have e : E2 = c'.f.Ez.val i j := e1.trans k4.symm
    exact ⟨e, fun N hN => by rw [e2 N hN, e]⟩
  · intro N hN
    have := dev N (by omega)
    rw [hN, Finset.Ico_self, Finset.sum_empty] at this
    linarith

/-- **C26** for media of at most one pole: the discretised Drude equations hold exactly. -/
theorem C26_single_partial (c : Core ℝ) (hc : c.Std) (srcs : List (Source ℝ)) (hs : ∀ s ∈ srcs, Fits c.g s) (i j : ℤ)
    (hb : Beyond c.g i j) (hu : Undriven c srcs i j) (n : String) (P : DrudePol ℝ) (b a : List (String × DrudePol ℝ))
    (hin : InDrude c n P b a i j) (hp : DrudePhysical P.mat) (h1 : P.mat.poles.length ≤ 1) :
    ∃ c' srcs' P' b' a', c.update srcs = .ok (c', srcs') ∧ InDrude c' n P' b' a' i j ∧ b'.length = b.length ∧ P'.mat = P.mat ∧
      DrudeLaw P.mat c.g.dt (c.f.Ez.val i j) (c'.f.Ez.val i j) (curlH c.f c.g.dx i j) (fun N => P.J.val i j N)
        (fun N => P'.J.val i j N) := by
  obtain ⟨c', srcs', P', b', a', k1, k2, k3, k4, Jx, k5, -, k6, -⟩ := C26_partial c hc srcs hs i j hb hu n P b a hin hp
  refine ⟨c', srcs', P', b', a', k1, k2, k3, k4, ?_⟩
  rw [drudeLaw_iff hc.dt_pos hp.1 hp.2] at k5 ⊢
  exact ⟨k5.1, fun N hN => by rw [k6 N (by omega)]; exact k5.2 N hN⟩

/-- The state after any number of updates is again one to which the theorems on Drude media apply. -/
theorem C26_run (c : Core ℝ) (hc : c.Std) (srcs : List (Source ℝ)) (hs : ∀ s ∈ srcs, Fits c.g s) (i j : ℤ)
    (hb : Beyond c.g i j) (hu : Undriven c srcs i j) (n : String) (P : DrudePol ℝ) (b a : List (String × DrudePol ℝ))
    (hin : InDrude c n P b a i j) (k : ℕ) : ∃ c' srcs' P' b' a', c.run k srcs = .ok (c', srcs') ∧ c'.Std ∧
      (∀ s ∈ srcs', Fits c'.g s) ∧ Beyond c'.g i j ∧ Undriven c' srcs' i j ∧ InDrude c' n P' b' a' i j ∧ P'.mat = P.mat := by
  induction k generalizing c srcs P b a with
  | zero => exact ⟨c, srcs, P, b, a, rfl, hc, hs, hb, hu, hin, rfl⟩
  | succ k ih =>
    obtain ⟨c1, srcs1, E2, E3, E4, f, h1, h2⟩ := Core.update_step hc srcs hs
    obtain ⟨P1, b1, a1, k1, -, k3, -⟩ := h2.inDrude hc hb hu hin
    obtain ⟨c', srcs', P', b', a', r1, r2, r3, r4, r5, r6, r7⟩ := ih c1 h2.std srcs1 h2.fits (by rw [h2.g]; exact hb)
      (h2.undriven hc hu) P1 b1 a1 k1
    refine ⟨c', srcs', P', b', a', ?_, r2, r3, r4, r5, r6, r7.trans k3⟩
    unfold Core.run
    rw [h1]; exact r1

/-- A disc of a Drude medium with a magnetic field at its centre: the hypotheses of C26 hold. -/
theorem drude_kicked (m : Drude ℝ) : ∃ (c : Core ℝ) (P : DrudePol ℝ), c.Std ∧ c.g = gEx ∧ Undriven c [] 10 10 ∧ P.mat = m ∧
    InDrude c "m" P [] [] 10 10 ∧ (∀ N, P.J.val 10 10 N = 0) ∧ c.f.Ez.val 10 10 = 0 ∧ curlH c.f c.g.dx 10 10 = 1 := by
  obtain ⟨c0, c, h1, h2, h3, h4, h5, h6, h7, h8, h9⟩ := disc_sim ⟨"m", .drude m⟩
  obtain ⟨n1, n2, n3⟩ := Core.make_no_pol h1
  obtain ⟨P, p1, p2, -, p4⟩ := firstDrude h6 h8 h9 rfl n1 n2 n3 h2
  have hin := p4 10 10 (by norm_num) (by rw [h7, gEx_Nx]; norm_num) (by norm_num) (by rw [h7, gEx_Ny]; norm_num)
    (by rw [h7]; exact disc_center _)
  refine ⟨withHy c kick, P, withHy_std h3 _, h4, ⟨by simp, ?_⟩, p1, ⟨hin.entry, hin.others, hin.debye, hin.lorentz,
    ⟨hin.medium.Ca, hin.medium.Cb, hin.medium.Da, hin.medium.Db⟩, hin.strength⟩, p2 10 10, h5.Ez 10 10, ?_⟩
  · intro w hw
    have : c.tfsf = some w := hw
    rw [h5.tfsf] at this; cases this
  · show curlH (withHy c kick).f c.g.dx 10 10 = 1
    rw [h4]; exact kick_curl h5

example : DrudePhysical ⟨2, [⟨1, 1⟩]⟩ := ⟨by norm_num, by simp⟩

/-- A Drude medium with two equal poles. -/
noncomputable def twoDrude : Drude ℝ := ⟨1, [⟨1, 0⟩, ⟨1, 0⟩]⟩

theorem twoDrude_phys : DrudePhysical twoDrude := ⟨by norm_num [twoDrude], by simp [twoDrude]⟩

theorem twoDrude_vals {m : Drude ℝ} (h : m = twoDrude) : m.poles.length = 2 ∧ m.Cb (1 / 2) = 4 / 9 ∧
    ∀ (N : ℕ) (hN : N < m.poles.length), m.poles[N].beta (1 / 2) = 1 / 4 ∧ m.poles[N].kappa (1 / 2) = 1 := by
  subst h
  have key : ∀ (N : ℕ) (hN : N < twoDrude.poles.length), twoDrude.poles[N].beta (1 / 2) = 1 / 4 ∧
      twoDrude.poles[N].kappa (1 / 2) = 1 := by
    intro N hN
    have : twoDrude.poles[N] = ⟨1, 0⟩ := by
      have hN' : N < 2 := hN
      match N, hN' with
      | 0, _ => rfl
      | 1, _ => rfl
    rw [this]
    constructor
    · simp only [DrudePole.beta, ofInt_real, npow_real]; norm_num
    · simp only [DrudePole.kappa, ofInt_real]; norm_num
  refine ⟨rfl, ?_, key⟩
  rw [Drude.Cb, arr_sum]
  have : twoDrude.poles.length = 2 := rfl
  rw [this, Finset.sum_range_succ, Finset.sum_range_one, arr_val twoDrude.poles _ 0 (by simp [this]),
    arr_val twoDrude.poles _ 1 (by simp [this]), (key 0 _).1, (key 1 _).1]
  simp only [ofInt_real]
  norm_num [twoDrude]

/-- C26 is false: with two poles the current of the first one is not the solution of its equation. -/
theorem C26_false : ¬ C26_statement := by
  intro h
  obtain ⟨c, P, s1, g1, u1, m1, i1, z1, z2, cu⟩ := drude_kicked twoDrude
  obtain ⟨v1, v2, v3⟩ := twoDrude_vals m1
  have b1 : Beyond c.g 10 10 := by rw [g1]; exact gEx_beyond (by norm_num) (by norm_num) (by norm_num) (by norm_num)
  obtain ⟨c', srcs', E2, E3, E4, f, q1, q2⟩ := Core.update_step s1 [] (by simp)
  obtain ⟨P', b', a', k1, k2, k3, k4, k5⟩ := q2.inDrude s1 b1 u1 i1
  have hd : c.g.dt = 1 / 2 := by rw [g1, gEx_dt]
  have j1 := k5 1 (by omega)
  rw [i1.strength 1 (by omega), hd, (v3 1 _).1, v2] at j1
  simp only [z1, mul_zero, Finset.sum_const_zero, z2, cu] at j1
  have b2 : Beyond c'.g 10 10 := by rw [q2.g]; exact b1
  have u2 : Undriven c' srcs' 10 10 := q2.undriven s1 u1
  have ph : DrudePhysical P'.mat := by rw [k3, m1]; exact twoDrude_phys
  obtain ⟨w1, w2, w3⟩ := twoDrude_vals (k3.trans m1)
  obtain ⟨c2, s2, P2, b2', a2, r1, r2, r3, r4, r5⟩ := h c' q2.std srcs' q2.fits 10 10 b2 u2 "m" P' b' a' k1 ph
  obtain ⟨c3, s3, P3, b3, a3, t1, t2, t3, t4, Jx, -, t5, -, t6⟩ :=
    C26_partial c' q2.std srcs' q2.fits 10 10 b2 u2 "m" P' b' a' k1 ph
  rw [r1] at t1
  obtain ⟨rfl, rfl⟩ := Prod.mk.inj (Except.ok.inj t1)
  have he := r2.entry
  rw [t2.entry] at he
  obtain ⟨-, he⟩ := List.append_inj he (by rw [t3, r3])
  obtain rfl : P3 = P2 := by simpa using (List.cons.inj he).1
  obtain ⟨-, w⟩ := t5 _ _ r5
  have w0 := w 0 (by omega)
  have d0 := t6 0 (by omega)
  have hsum : ∑ M ∈ Finset.Ico (0 + 1) P'.mat.poles.length,
      (1 + (Arr.ofList (P'.mat.poles.map (·.kappa c'.g.dt))).val M) * P'.J.val 10 10 M
      = (1 + (Arr.ofList (P'.mat.poles.map (·.kappa c'.g.dt))).val ((1 : ℕ) : ℤ)) * P'.J.val 10 10 ((1 : ℕ) : ℤ) := by
    rw [w1, show Finset.Ico (0 + 1) 2 = {1} from rfl, Finset.sum_singleton]
  rw [w0, sub_self, hsum, j1, arr_val _ _ _ (by omega), q2.g, hd, w2, (w3 0 _).1, (w3 1 _).2] at d0
  norm_num at d0

/-! ## C27 -/

/-- Parameters of a physical Lorentz medium. -/
def LorentzPhysical (m : Lorentz ℝ) : Prop := 0 < m.epsInf ∧ ∀ p ∈ m.poles, 0 ≤ p.gamma ∧ 0 ≤ p.dEps

/-- **C27** in full: any two consecutive updates satisfy the discretised Lorentz equations. False, see `C27_false`. -/
def C27_statement : Prop :=
  ∀ (c : Core ℝ) (_ : c.Std) (srcs : List (Source ℝ)) (_ : ∀ s ∈ srcs, Fits c.g s) (i j : ℤ) (_ : Beyond c.g i j)
    (_ : Undriven c srcs i j) (n : String) (P : LorentzPol ℝ) (_ : InLorentz c n P i j) (_ : LorentzPhysical P.mat),
    ∃ c1 srcs1 P1 c2 srcs2 P2, c.update srcs = .ok (c1, srcs1) ∧ c1.update srcs1 = .ok (c2, srcs2) ∧
      InLorentz c1 n P1 i j ∧ InLorentz c2 n P2 i j ∧ P1.mat = P.mat ∧ P2.mat = P.mat ∧
      LorentzLaw P.mat c.g.dt (c.f.Ez.val i j) (c1.f.Ez.val i j) (c2.f.Ez.val i j) (curlH c1.f c.g.dx i j)
        (fun N => P.J.val i j N) (fun N => P1.J.val i j N) (fun N => P2.J.val i j N)

/-- **C27**, what holds for any number of poles: the discretised equations have exactly one solution `(Ex, Jx)`, and the
update deviates from it by the stated amounts, which come from `Ca_prev` having the wrong denominator and being added once
per pole, and from the poles being processed one after the other. -/
theorem C27_partial (c : Core ℝ) (hc : c.Std) (srcs : List (Source ℝ)) (hs : ∀ s ∈ srcs, Fits c.g s) (i j : ℤ)
    (hb : Beyond c.g i j) (hu : Undriven c srcs i j) (n : String) (P : LorentzPol ℝ) (hin : InLorentz c n P i j)
    (hp : LorentzPhysical P.mat) :
    ∃ c1 srcs1 P1 c2 srcs2 P2, c.update srcs = .ok (c1, srcs1) ∧ c1.update srcs1 = .ok (c2, srcs2) ∧
      InLorentz c1 n P1 i j ∧ InLorentz c2 n P2 i j ∧ P1.mat = P.mat ∧ P2.mat = P.mat ∧
      ∃ (Ex : ℝ) (Jx : ℕ → ℝ),
        LorentzLaw P.mat c.g.dt (c.f.Ez.val i j) (c1.f.Ez.val i j) Ex (curlH c1.f c.g.dx i j)
          (fun N => P.J.val i j N) (fun N => P1.J.val i j N) Jx ∧
        (∀ E2 J2, LorentzLaw P.mat c.g.dt (c.f.Ez.val i j) (c1.f.Ez.val i j) E2 (curlH c1.f c.g.dx i j)
          (fun N => P.J.val i j N) (fun N => P1.J.val i j N) J2 → E2 = Ex ∧ ∀ N : ℕ, N < P.mat.poles.length → J2 N = Jx N) ∧
        c2.f.Ez.val i j - Ex = (P.mat.poles.length * P.mat.CaPrev c.g.dt - P.mat.CaPrevExact c.g.dt) * c.f.Ez.val i j ∧
        ∀ (N : ℕ) (h : N < P.mat.poles.length), P2.J.val i j N - Jx N = P.mat.poles[N].delta c.g.dt / (2 * c.g.dt) *
          ((((N + 1 : ℕ) : ℝ) * P.mat.CaPrev c.g.dt - P.mat.CaPrevExact c.g.dt) * c.f.Ez.val i j
            + P.mat.Cb c.g.dt / 2 * ∑ M ∈ Finset.Ico (N + 1) P.mat.poles.length,
              ((1 + (Arr.ofList (P.mat.poles.map (·.alpha c.g.dt))).val M) * P1.J.val i j M
                + (Arr.ofList (P.mat.poles.map (·.beta c.g.dt))).val M * P.J.val i j M)) := by
  obtain ⟨pE, hpE⟩ := Option.isSome_iff_exists.mp (hc.wf.hasE (Or.inr (Or.inr (by rw [hin.entry]; simp))))
  obtain ⟨c1, srcs1, E2, E3, E4, f, h1, h2⟩ := Core.update_step hc srcs hs
  obtain ⟨P1, k1, k2, k3, -, k5⟩ := h2.inLorentz hc hb hu hpE hin
  obtain ⟨c2, srcs2, F2, F3, F4, f', q1, q2⟩ := Core.update_step h2.std srcs1 h2.fits
  obtain ⟨P2, r1, r2, -, r4, r5⟩ := q2.inLorentz h2.std (by rw [h2.g]; exact hb) (h2.undriven hc hu) k3 k1
  rw [k2, h2.g] at r4 r5
  have law := lorentzLaw_iff hc.dt_pos hp.1 hp.2 (c.f.Ez.val i j) (c1.f.Ez.val i j)
  have hJp : ∀ M : ℕ, M < P.mat.poles.length → P1.prevJ.val i j M = P.J.val i j M := fun M hM => (k5 M hM).1
  have hS : ∀ n : ℕ, n ≤ P.mat.poles.length → ∑ M ∈ Finset.range n,
      ((1 + (Arr.ofList (P.mat.poles.map (·.alpha c.g.dt))).val M) * P1.J.val i j M
        + (Arr.ofList (P.mat.poles.map (·.beta c.g.dt))).val M * P1.prevJ.val i j M) = ∑ M ∈ Finset.range n,
      ((1 + (Arr.ofList (P.mat.poles.map (·.alpha c.g.dt))).val M) * P1.J.val i j M
        + (Arr.ofList (P.mat.poles.map (·.beta c.g.dt))).val M * P.J.val i j M) := by
    intro n hn
    refine Finset.sum_congr rfl fun M hM => ?_
    rw [hJp M (lt_of_lt_of_le (Finset.mem_range.mp hM) hn)]
  rw [hS _ le_rfl] at r4
  refine ⟨c1, srcs1, P1, c2, srcs2, P2, h1, q1, k1, r1, k2, r2.trans k2, _, _, (law _ _ _ _ _).mpr ⟨rfl, fun N _ => rfl⟩, ?_, ?_, ?_⟩
  · intro E2 J2 h
    rw [law] at h
    obtain ⟨e1, e2⟩ := h
    exact ⟨e1, fun N hN => by rw [e2 N hN, e1]⟩
  · rw [r4]; ring
  · intro N h
    rw [(r5 N h).2, hS (N + 1) h, hJp N h, k1.strength N (by rw [k2]; exact h), h2.g, arr_val _ (·.delta c.g.dt) _ h,
      ← Finset.sum_range_add_sum_Ico _ (Nat.succ_le_of_lt h)]
    simp only [k2]
    ring

/-- **C27** for media of one pole: the oscillator equation holds exactly; Ampère's law holds exactly when the field two
steps back or the oscillator strength vanishes. -/
theorem C27_single_partial (c : Core ℝ) (hc : c.Std) (srcs : List (Source ℝ)) (hs : ∀ s ∈ srcs, Fits c.g s) (i j : ℤ)
    (hb : Beyond c.g i j) (hu : Undriven c srcs i j) (n : String) (P : LorentzPol ℝ) (hin : InLorentz c n P i j)
    (hp : LorentzPhysical P.mat) (p : LorentzPole ℝ) (h1 : P.mat.poles = [p]) :
    ∃ c1 srcs1 P1 c2 srcs2 P2, c.update srcs = .ok (c1, srcs1) ∧ c1.update srcs1 = .ok (c2, srcs2) ∧
      InLorentz c1 n P1 i j ∧ InLorentz c2 n P2 i j ∧ P1.mat = P.mat ∧ P2.mat = P.mat ∧
      ((P2.J.val i j 0 - 2 * P1.J.val i j 0 + P.J.val i j 0) / c.g.dt ^ 2
        + 2 * p.gamma * (P2.J.val i j 0 - P.J.val i j 0) / (2 * c.g.dt) + p.omega ^ 2 * P1.J.val i j 0
        = p.dEps * p.omega ^ 2 * (c2.f.Ez.val i j - c.f.Ez.val i j) / (2 * c.g.dt)) ∧
      (LorentzLaw P.mat c.g.dt (c.f.Ez.val i j) (c1.f.Ez.val i j) (c2.f.Ez.val i j) (curlH c1.f c.g.dx i j)
        (fun N => P.J.val i j N) (fun N => P1.J.val i j N) (fun N => P2.J.val i j N) ↔
        p.dEps * p.omega ^ 2 * c.f.Ez.val i j = 0) := by
  obtain ⟨c1, srcs1, P1, c2, srcs2, P2, a1, a2, a3, a4, a5, a6, Ex, Jx, b1, b2, b3, b4⟩ :=
    C27_partial c hc srcs hs i j hb hu n P hin hp
  have hl : P.mat.poles.length = 1 := by rw [h1]; rfl
  have hp0 : P.mat.poles[0] = p := by simp [h1]
  have d0 := b4 0 (by omega)
  rw [hp0, hl, show Finset.Ico (0 + 1) 1 = ∅ from rfl, Finset.sum_empty] at d0
  rw [hl] at b3
  have law := (lorentzLaw_iff hc.dt_pos hp.1 hp.2 _ _ _ _ _ _ _).mp b1
  have j0 := law.2 0 (by omega)
  rw [arr_val _ _ _ (by omega), arr_val _ _ _ (by omega), arr_val _ _ _ (by omega), hp0] at j0
  have hg := (hp.2 p (by rw [h1]; simp)).1
  have hpole : P2.J.val i j 0 = p.alpha c.g.dt * P1.J.val i j 0 + p.beta c.g.dt * P.J.val i j 0
      + p.delta c.g.dt / (2 * c.g.dt) * (c2.f.Ez.val i j - c.f.Ez.val i j) := by
    have e : P2.J.val i j ((0 : ℕ) : ℤ) = Jx 0 + p.delta c.g.dt / (2 * c.g.dt) * (c2.f.Ez.val i j - Ex) := by
      rw [b3]; push_cast at d0 ⊢; linarith
    have e' : P2.J.val i j 0 = P2.J.val i j ((0 : ℕ) : ℤ) := rfl
    rw [e', e, j0]
    push_cast; ring
  refine ⟨c1, srcs1, P1, c2, srcs2, P2, a1, a2, a3, a4, a5, a6, (lorentz_pole_iff hc.dt_pos hg _ _ _ _).mpr hpole, ?_⟩
  have hE : (LorentzLaw P.mat c.g.dt (c.f.Ez.val i j) (c1.f.Ez.val i j) (c2.f.Ez.val i j) (curlH c1.f c.g.dx i j)
        (fun N => P.J.val i j N) (fun N => P1.J.val i j N) (fun N => P2.J.val i j N)) ↔ c2.f.Ez.val i j = Ex := by
    constructor
    · intro h; exact (b2 _ _ h).1
    · intro h
      rw [lorentzLaw_iff hc.dt_pos hp.1 hp.2]
      refine ⟨h.trans law.1, ?_⟩
      intro N hN
      obtain rfl : N = 0 := by omega
      rw [arr_val _ _ _ (by omega), arr_val _ _ _ (by omega), arr_val _ _ _ (by omega), hp0]
      exact_mod_cast hpole
  rw [hE, ← sub_eq_zero, b3]
  have hsum : sumL (P.mat.poles.map (·.delta c.g.dt)) = p.delta c.g.dt := by rw [h1, sumL_real]; simp
  have hde := lorentz_delta_nonneg hc.dt_pos hg (hp.2 p (by rw [h1]; simp)).2
  have hep := hp.1
  have hdt := hc.dt_pos
  have hdel : p.delta c.g.dt = 0 ↔ p.dEps * p.omega ^ 2 = 0 := by
    have : (1 : ℝ) + p.gamma * c.g.dt ≠ 0 := by positivity
    simp only [LorentzPole.delta, npow_real, div_eq_zero_iff, mul_eq_zero, this, or_false, pow_eq_zero_iff, ne_eq, OfNat.ofNat_ne_zero,
      not_false_eq_true, hdt.ne']
  have hfac : ((1 : ℕ) : ℝ) * P.mat.CaPrev c.g.dt - P.mat.CaPrevExact c.g.dt = 0 ↔ p.delta c.g.dt = 0 := by
    simp only [Lorentz.CaPrev, Lorentz.CaPrevExact, hsum, ofInt_real]
    generalize p.delta c.g.dt = d at hde
    push_cast
    rw [one_mul, sub_eq_zero, div_eq_div_iff (by positivity) (by positivity)]
    constructor
    · intro h
      have : d * d = 0 := by linarith
      simpa using this
    · rintro rfl; ring
  rw [mul_eq_zero, hfac, hdel]
  exact mul_eq_zero.symm

/-- A disc of a Lorentz medium in a uniform field: the hypotheses of C27 hold. -/
theorem lorentz_lit (m : Lorentz ℝ) : ∃ (c : Core ℝ) (P : LorentzPol ℝ), c.Std ∧ c.g = gEx ∧ Undriven c [] 10 10 ∧ P.mat = m ∧
    InLorentz c "m" P 10 10 ∧ c.f.Ez.val 10 10 = 1 := by
  obtain ⟨c0, c, h1, h2, h3, h4, h5, h6, h7, h8, h9⟩ := disc_sim ⟨"m", .lorentz m⟩
  obtain ⟨n1, n2, n3⟩ := Core.make_no_pol h1
  obtain ⟨P, p1, p2, -, -, -, -, -, -, p4⟩ := firstLorentz h6 h8 h9 rfl n1 n2 n3 h2
  have hin := p4 10 10 (by norm_num) (by rw [h7, gEx_Nx]; norm_num) (by norm_num) (by rw [h7, gEx_Ny]; norm_num)
    (by rw [h7]; exact disc_center _)
  refine ⟨withEz c fun _ _ => 1, P, withEz_std h3 _, h4, ⟨by simp, ?_⟩, p1, ⟨hin.entry, hin.debye, hin.drude,
    ⟨hin.medium.Ca, hin.medium.Cb, hin.medium.Da, hin.medium.Db⟩, hin.strength⟩, rfl⟩
  intro w hw
  have : c.tfsf = some w := hw
  rw [h5.tfsf] at this; cases this

/-- C27 is false, already for a single pole. -/
theorem C27_false : ¬ C27_statement := by
  intro h
  have hp : LorentzPhysical (⟨1, [⟨1, 1, 0⟩]⟩ : Lorentz ℝ) := ⟨by norm_num, by simp⟩
  obtain ⟨c, P, s1, g1, u1, m1, i1, z1⟩ := lorentz_lit ⟨1, [⟨1, 1, 0⟩]⟩
  have b1 : Beyond c.g 10 10 := by rw [g1]; exact gEx_beyond (by norm_num) (by norm_num) (by norm_num) (by norm_num)
  rw [← m1] at hp
  obtain ⟨c1, l1, P1, c2, l2, P2, a1, a2, a3, a4, a5, a6, a7⟩ := h c s1 [] (by simp) 10 10 b1 u1 "m" P i1 hp
  obtain ⟨d1, k1, Q1, d2, k2, Q2, e1, e2, e3, e4, e5, e6, -, e7⟩ :=
    C27_single_partial c s1 [] (by simp) 10 10 b1 u1 "m" P i1 hp ⟨1, 1, 0⟩ (by rw [m1])
  rw [a1] at e1
  obtain ⟨rfl, rfl⟩ := Prod.mk.inj (Except.ok.inj e1)
  rw [a2] at e2
  obtain ⟨rfl, rfl⟩ := Prod.mk.inj (Except.ok.inj e2)
  have f1 := e3.entry
  rw [a3.entry] at f1
  have f2 := e4.entry
  rw [a4.entry] at f2
  simp only [List.cons.injEq, Prod.mk.injEq, true_and, and_true] at f1 f2
  subst f1 f2
  have := e7.mp a7
  rw [z1] at this
  norm_num at this

/-! ## C28 -/

/-- **C28** in full: after a dispersive object has been added, the nodes outside it still evolve by the equation of their
own medium. False for Lorentz objects, see `C28_false`. -/
def C28_statement : Prop :=
  ∀ (c0 c : Core ℝ) (_ : c0.Std) (o : Object ℝ) (_ : o.Safe c0.g) (_ : c0.insertObject o = .ok c) (_ : c0.lorentz = [])
    (m : Simple ℝ) (_ : 0 < m.eps) (_ : 0 ≤ m.conduc) (i j : ℤ) (_ : InSimple c0 m i j)
    (_ : o.inside (c0.g.toReal ⟨i, j⟩) = false) (_ : Beyond c.g i j) (srcs : List (Source ℝ)) (_ : ∀ s ∈ srcs, Fits c.g s)
    (_ : Undriven c srcs i j) (n : ℕ), ∃ c1 srcs1 c2 srcs2, c.run n srcs = .ok (c1, srcs1) ∧ c1.update srcs1 = .ok (c2, srcs2) ∧
      ConductiveLaw m c.g.dt (c1.f.Ez.val i j) (c2.f.Ez.val i j) (curlH c1.f c.g.dx i j)

/-- **C28** for Debye and Drude objects. -/
theorem C28_debye_drude_partial (c0 c : Core ℝ) (h0 : c0.Std) (o : Object ℝ) (ho : o.Safe c0.g) (hi : c0.insertObject o = .ok c)
    (hl : c0.lorentz = []) (hk : ∀ l, o.mat.kind ≠ .lorentz l) (m : Simple ℝ) (he : 0 < m.eps) (hm : 0 ≤ m.conduc) (i j : ℤ)
    (hin : InSimple c0 m i j) (hout : o.inside (c0.g.toReal ⟨i, j⟩) = false) (hb : Beyond c.g i j) (srcs : List (Source ℝ))
    (hs : ∀ s ∈ srcs, Fits c.g s) (hu : Undriven c srcs i j) (n : ℕ) :
    ∃ c1 srcs1 c2 srcs2, c.run n srcs = .ok (c1, srcs1) ∧ c1.update srcs1 = .ok (c2, srcs2) ∧
      ConductiveLaw m c.g.dt (c1.f.Ez.val i j) (c2.f.Ez.val i j) (curlH c1.f c.g.dx i j) := by
  obtain ⟨c', k1, k2, -⟩ := h0.insertObject ho
  rw [hi] at k1; cases k1
  have hll : c.lorentz = [] := by
    unfold Core.insertObject at hi
    simp only [Except.bind_ok] at hi
    obtain ⟨f, -, hi⟩ := hi
    cases hk' : o.mat.kind with
    | simple m => rw [hk'] at hi; cases hi; exact hl
    | debye m =>
      rw [hk'] at hi; simp only [Except.bind_ok] at hi
      obtain ⟨l, -, hi⟩ := hi; cases hi; exact hl
    | drude m =>
      rw [hk'] at hi; simp only [Except.bind_ok] at hi
      obtain ⟨l, -, hi⟩ := hi; cases hi; exact hl
    | lorentz m => exact absurd hk' (hk m)
  exact C24_step c k2 srcs hs i j hb hu hll m he hm (hin.insertObject h0.wf ho hout hi) n

/-- **C28** for Lorentz objects: what the update does outside the object. Every pole of the material adds `Ca_prev` times the
field two steps back, at every node of the grid. -/
theorem C28_lorentz_leak (c0 c : Core ℝ) (h0 : c0.Std) (o : Object ℝ) (ho : o.Safe c0.g) (hi : c0.insertObject o = .ok c)
    (hl : c0.lorentz = []) (l : Lorentz ℝ) (hk : o.mat.kind = .lorentz l) (m : Simple ℝ) (i j : ℤ)
    (hin : InSimple c0 m i j) (hout : o.inside (c0.g.toReal ⟨i, j⟩) = false) (hb : Beyond c.g i j) (srcs : List (Source ℝ))
    (hs : ∀ s ∈ srcs, Fits c.g s) (hu : Undriven c srcs i j) :
    ∃ c1 srcs1 c2 srcs2, c.update srcs = .ok (c1, srcs1) ∧ c1.update srcs1 = .ok (c2, srcs2) ∧
      c2.f.Ez.val i j = m.Ca c.g.dt * c1.f.Ez.val i j + m.Cb c.g.dt * curlH c1.f c.g.dx i j
        + l.poles.length * (l.CaPrev c.g.dt * c.f.Ez.val i j) := by
  obtain ⟨c', k1, k2, -⟩ := h0.insertObject ho
  rw [hi] at k1; cases k1
  have hin' := hin.insertObject h0.wf ho hout hi
  have hll : ∃ P pE, c.lorentz = [(o.mat.name, P)] ∧ P.mat = l ∧ c.prevE = some pE := by
    unfold Core.insertObject at hi
    rw [paintObject_closed h0.wf.f ho, hk, hl] at hi
    simp only [Except.ok_bind, Except.bind_ok, addPol, mapFind, mapInsert] at hi
    obtain ⟨_, ⟨P, hP, hl⟩, h⟩ := hi
    rw [LorentzPol.insert_closed (LorentzPol.make_wf c0.g l)] at hP
    cases hP
    cases hl
    cases h
    exact ⟨_, c0.prevE.getD c0.f.Ez, rfl, rfl, by cases h : c0.prevE <;> rfl⟩
  obtain ⟨P, pE, e1, e2, e3⟩ := hll
  obtain ⟨c1, srcs1, E2, E3, E4, f, h1, h2⟩ := Core.update_step k2 srcs hs
  obtain ⟨P1, a1, a2, a3, a4, -⟩ := h2.outLorentz k2 hb hu e3 e1 hin'
  obtain ⟨c2, srcs2, F2, F3, F4, f', q1, q2⟩ := Core.update_step h2.std srcs1 h2.fits
  obtain ⟨P2, -, -, -, -, a5⟩ := q2.outLorentz h2.std (by rw [h2.g]; exact hb) (h2.undriven k2 hu) a4 a1 a3
  rw [h2.g, a2, e2] at a5
  exact ⟨c1, srcs1, c2, srcs2, h1, q1, a5⟩

/-- The background node `(5, 5)` of the example grid. -/
theorem gEx_background {c : Core ℝ} (h : Core.make gEx = .ok c) : InSimple c vacuum 5 5 := by
  obtain ⟨n1, n2, n3⟩ := Core.make_no_pol h
  refine ⟨by rw [n1]; simp, by rw [n2]; simp, by rw [n3]; simp, ?_⟩
  unfold Core.make at h
  simp only [Except.bind_ok] at h
  obtain ⟨f, h1, _, -, _, -, h⟩ := h
  cases h
  rw [clearMaterials_closed (f := ⟨.const gEx.Nx gEx.Ny 0, .const gEx.Nx gEx.Ny 0, .const gEx.Nx gEx.Ny 0, .const gEx.Nx gEx.Ny 0,
    .const gEx.Nx gEx.Ny 0, .const gEx.Nx gEx.Ny 0, .const gEx.Nx gEx.Ny 0⟩) ⟨⟨rfl, rfl⟩, ⟨rfl, rfl⟩, ⟨rfl, rfl⟩, ⟨rfl, rfl⟩, ⟨rfl, rfl⟩,
    ⟨rfl, rfl⟩, ⟨rfl, rfl⟩⟩] at h1
  cases h1
  exact Flds.paint_hit (q := fun _ _ => true)
    (mem_rect.mpr ⟨⟨by norm_num, by rw [gEx_Nx]; norm_num⟩, by norm_num, by rw [gEx_Ny]; norm_num⟩) rfl

/-- The hypotheses of C28 hold for a disc of any dispersive medium on the example grid, with any electric field. -/
theorem C28_case (k : MatKind ℝ) (u : ℤ → ℤ → ℝ) : ∃ c0 c : Core ℝ, c0.Std ∧ (disc ⟨"m", k⟩ 10 10).Safe c0.g ∧
    c0.insertObject (disc ⟨"m", k⟩ 10 10) = .ok c ∧ c0.lorentz = [] ∧ InSimple c0 vacuum 5 5 ∧
    (disc ⟨"m", k⟩ 10 10).inside (c0.g.toReal ⟨5, 5⟩) = false ∧ Beyond c.g 5 5 ∧ Undriven c [] 5 5 ∧
    c.g = gEx ∧ c.f.Ez.val 5 5 = u 5 5 := by
  obtain ⟨c0, h1, h2, h3, h4⟩ := gEx_std
  have hin := gEx_background h1
  have hs : (disc ⟨"m", k⟩ 10 10).Safe c0.g := by
    rw [h3]; exact safe_of_clear gEx_lawful (disc_clear _ (by norm_num) (by norm_num))
  have hw : (withEz c0 u).Std := withEz_std h2 u
  obtain ⟨c, k1, k2, k3⟩ := hw.insertObject (o := disc ⟨"m", k⟩ 10 10) hs
  obtain ⟨e1, -⟩ := insertObject_f hw.wf.f hs k1
  obtain ⟨-, -, e2, -⟩ := insertObject_parts k1
  have hg : c.g = gEx := k3.trans h3
  refine ⟨withEz c0 u, c, hw, hs, k1, (Core.make_no_pol h1).2.2, ⟨hin.debye, hin.drude, hin.lorentz,
    ⟨hin.medium.Ca, hin.medium.Cb, hin.medium.Da, hin.medium.Db⟩⟩, ?_, ?_, ⟨by simp, ?_⟩, hg, ?_⟩
  · show (disc ⟨"m", k⟩ 10 10).inside (c0.g.toReal ⟨5, 5⟩) = false
    rw [h3]; exact disc_outside _
  · rw [hg]; exact gEx_beyond (by norm_num) (by norm_num) (by norm_num) (by norm_num)
  · intro w hw'
    rw [e2] at hw'
    have : c0.tfsf = some w := hw'
    rw [h4.tfsf] at this; cases this
  · rw [e1]; rfl

/-- C28 is false: a Lorentz disc changes the evolution outside it. -/
theorem C28_false : ¬ C28_statement := by
  intro h
  obtain ⟨c0, c, a1, a2, a3, a4, a5, a6, a7, a8, a9, a10⟩ := C28_case (.lorentz ⟨1, [⟨1, 1, 0⟩]⟩) fun _ _ => 1
  obtain ⟨c1, l1, c2, l2, b1, b2, b3⟩ := h c0 c a1 _ a2 a3 a4 vacuum (by norm_num [vacuum]) (by norm_num [vacuum]) 5 5 a5 a6 a7 []
    (by simp) a8 1
  obtain ⟨d1, m1, d2, m2, e1, e2, e3⟩ := C28_lorentz_leak c0 c a1 _ a2 a3 a4 _ rfl vacuum 5 5 a5 a6 a7 [] (by simp) a8
  unfold Core.run Core.run at b1
  rw [e1] at b1
  obtain ⟨rfl, rfl⟩ := Prod.mk.inj (Except.ok.inj b1)
  rw [e2] at b2
  obtain ⟨rfl, rfl⟩ := Prod.mk.inj (Except.ok.inj b2)
  rw [(C24_unique vacuum c.g.dt (by rw [a9, gEx_dt]; norm_num) (by norm_num [vacuum]) (by norm_num [vacuum])).1, e3, a10, a9, gEx_dt] at b3
  simp only [Lorentz.CaPrev, LorentzPole.delta, sumL_real, ofInt_real, npow_real, List.map_cons, List.map_nil, List.sum_cons,
    List.sum_nil, List.length_cons, List.length_nil] at b3
  norm_num at b3

/-! ## C29 -/

/-- **C29** `drude_lorentz` has the poles of both materials. Its Drude poles have the oscillator strength and damping of
Drude poles, and differ from them only in a restoring force `omega^2 = 1e-40`. -/
theorem C29_drude_lorentz (d : Drude ℝ) (l : Lorentz ℝ) (dt : ℝ) (hdt : 0 < dt) (hg : ∀ p ∈ d.poles, 0 ≤ p.gamma) :
    (drudeLorentz d l).poles.length = d.poles.length + l.poles.length ∧
    (drudeLorentz d l).poles.drop d.poles.length = l.poles ∧
    ∀ (N : ℕ) (h : N < d.poles.length) (h' : N < (drudeLorentz d l).poles.length),
      (drudeLorentz d l).poles[N].delta dt = d.poles[N].omega ^ 2 * dt ^ 2 / (1 + d.poles[N].gamma * dt / 2) ∧
      (drudeLorentz d l).poles[N].delta dt = 2 * dt * d.poles[N].beta dt ∧
      (drudeLorentz d l).poles[N].beta dt = - d.poles[N].kappa dt ∧
      (drudeLorentz d l).poles[N].alpha dt = (1 + d.poles[N].kappa dt) - (1 / 10 ^ 40) * dt ^ 2 / (1 + d.poles[N].gamma * dt / 2) := by
  refine ⟨by simp [drudeLorentz], by simp [drudeLorentz], ?_⟩
  intro N h h'
  have hp : (drudeLorentz d l).poles[N] = ⟨lit1e20, npow d.poles[N].omega 2 / npow lit1e20 2, d.poles[N].gamma / ofInt 2⟩ := by
    simp only [drudeLorentz]
    rw [List.getElem_append_left (by simpa using h)]
    simp
  have hgN := hg _ (List.getElem_mem h)
  rw [hp]
  generalize d.poles[N] = p at hgN ⊢
  have h1 : (1 : ℝ) + p.gamma * dt / 2 ≠ 0 := by positivity
  have h2 : (2 : ℝ) + p.gamma * dt ≠ 0 := by positivity
  have h3 : (1 : ℝ) + p.gamma / 2 * dt ≠ 0 := by positivity
  have h4 : p.gamma / 2 * dt + 1 ≠ 0 := by positivity
  simp only [LorentzPole.delta, LorentzPole.beta, LorentzPole.alpha, DrudePole.beta, DrudePole.kappa, ofInt_real, npow_real, lit1e20_real]
  push_cast
  refine ⟨?_, ?_, ?_, ?_⟩
  · field_simp
  · field_simp
  · have e : p.gamma / 2 * dt + 1 = (2 + p.gamma * dt) / 2 := by ring
    have e' : 1 + p.gamma * dt / 2 = (2 + p.gamma * dt) / 2 := by ring
    rw [e, e']; field_simp; ring
  · field_simp; ring

example : ∀ p ∈ (⟨1, [⟨3, 2⟩, ⟨1, 0⟩]⟩ : Drude ℝ).poles, 0 ≤ p.gamma := by simp

/-! ## C30 -/

/-- **C30** in full: the magnetic coefficient of a simple material is `dt / mu`. False, see `C30_false`. -/
def C30_statement : Prop := ∀ (m : Simple ℝ) (dt : ℝ), 0 < m.mu → 0 < dt → m.Db dt = dt / m.mu

/-- C30 is false. -/
theorem C30_false : ¬ C30_statement := by
  intro h
  have := h ⟨1, 2, 0⟩ 1 (by norm_num) (by norm_num)
  simp only [Simple.Db] at this
  norm_num at this

/-- The coefficient is right exactly for `mu = 1`. -/
theorem C30_partial (m : Simple ℝ) (dt : ℝ) (hm : 0 < m.mu) (hdt : 0 < dt) : m.Db dt = dt / m.mu ↔ m.mu = 1 := by
  simp only [Simple.Db]
  rw [eq_div_iff hm.ne']
  constructor
  · intro h; exact mul_left_cancel₀ hdt.ne' (by rw [h, mul_one])
  · intro h; rw [h, mul_one]

/-- The permeability of an object's material has no effect at all on the simulation it is added to, for any scalars. -/
theorem C30_mu_ignored {K : Type} [Scalar K] (c : Core K) (name : String) (sh : Geometry K) (nm : String) (pos : V2 K) (th : K)
    (eps mu mu' conduc : K) :
    c.insertObject ⟨name, sh, ⟨nm, .simple ⟨eps, mu, conduc⟩⟩, pos, th⟩ =
      c.insertObject ⟨name, sh, ⟨nm, .simple ⟨eps, mu', conduc⟩⟩, pos, th⟩ := rfl

end Qbox.Props
