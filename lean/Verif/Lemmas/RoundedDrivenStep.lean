import Verif.Lemmas.RoundedDriven

/-! # One driven step with rounding, and one without -/

namespace Qbox
open Scalar Spec Props

theorem stepP_values {K : Type} [Scalar K] {c : Core K} {fp : Flds K} {i j : ℤ} (h : (i, j) ∈ rect 1 (c.g.Nx - 1) 1 (c.g.Ny - 1)) :
    (stepP c fp).Hx.val i j = fp.Da.val i j * fp.Hx.val i j - fp.Db.val i j * (fp.Ez.val i (j + 1) - fp.Ez.val i j) / c.sc.khdy.val j ∧
    (stepP c fp).Hy.val i j = fp.Da.val i j * fp.Hy.val i j + fp.Db.val i j * (fp.Ez.val (i + 1) j - fp.Ez.val i j) / c.sc.khdx.val i :=
  ⟨if_pos h, if_pos h⟩

theorem stepP_out {K : Type} [Scalar K] {c : Core K} {fp : Flds K} {i j : ℤ} (h : (i, j) ∉ rect 1 (c.g.Nx - 1) 1 (c.g.Ny - 1)) :
    (stepP c fp).Hx.val i j = fp.Hx.val i j ∧ (stepP c fp).Hy.val i j = fp.Hy.val i j :=
  ⟨if_neg h, if_neg h⟩

theorem stepP_Ez {K : Type} [Scalar K] {c : Core K} {fp : Flds K} : (stepP c fp).Ez = fp.Ez := rfl

theorem stepE_values {K : Type} [Scalar K] {c : Core K} {i j : ℤ} (h : (i, j) ∈ rect 1 (c.g.Nx - 1) 1 (c.g.Ny - 1)) :
    (stepE c).Ez.val i j = ezVal c.f c.sc i j := if_pos h

theorem stepE_out {K : Type} [Scalar K] {c : Core K} {i j : ℤ} (h : (i, j) ∉ rect 1 (c.g.Nx - 1) 1 (c.g.Ny - 1)) :
    (stepE c).Ez.val i j = c.f.Ez.val i j := if_neg h

/-- The simulation without rounding. -/
theorem ExactTwin.driven {A : Arith} {g : Grid (Rnd A)} {med : ℤ → ℤ → Simple (Rnd A)} {e : Core ℝ} (h : ExactTwin g med e) (hx : 0 < g.dx.val)
    (h1 : ∀ i j, (updatedNodes (exactGrid g)).Mem i j → 1 ≤ (med i j).eps.val) (h2 : ∀ i j, (updatedNodes (exactGrid g)).Mem i j → 0 ≤ (med i j).conduc.val)
    {srcs : List (Source ℝ)} (hf : ∀ s ∈ srcs, Fits (exactGrid g) s) (hd : ∀ s ∈ srcs, DrivesIn (exactGrid g) (updatedNodes (exactGrid g)) s) :
    ∃ e' l, e.update srcs = .ok (e', l) ∧ ExactTwin g med e' ∧ e'.t = e.t + g.dx.val / 2 ∧ List.Forall₂ SameSrc srcs l ∧
      RoundOff (exactGrid g) (fun i j => exactMed (med i j)) (updatedNodes (exactGrid g)) e.f e'.f
        (fun i j => totalContrib (exactGrid g) (e.t + g.dx.val / 2) srcs .Ez ⟨i, j⟩) (fun i j => totalContrib (exactGrid g) (e.t + g.dx.val / 2) srcs .Hx ⟨i, j⟩)
        (fun i j => totalContrib (exactGrid g) (e.t + g.dx.val / 2) srcs .Hy ⟨i, j⟩) := by
  have dt : e.g.dt = g.dx.val / 2 := by rw [h.grid]; rfl
  have dx : e.g.dx = g.dx.val := by rw [h.grid]; rfl
  obtain ⟨l, fp, p1, p2, p3, p4⟩ := C31_sources_add_up (exactGrid g) (e.t + g.dx.val / 2) srcs (stepE e) hf (by rw [← h.grid]; exact stepE_dims h.bare)
  obtain ⟨l0, f0, o1, -, -, -, o2⟩ := pulseAll_ok (g := exactGrid g) (e.t + g.dx.val / 2) srcs (stepE e) hf (by rw [← h.grid]; exact stepE_dims h.bare)
  have same : List.Forall₂ SameSrc srcs l := by
    rw [p1] at o1
    have := (Prod.mk.inj (Except.ok.inj o1)).1
    rw [this]
    refine o2.imp ?_
    rintro s s' ⟨tp', h, rfl⟩
    exact ⟨rfl, rfl, response_resp h⟩
  obtain ⟨e', u, b, ef, eg, et⟩ := h.bare.update_driven (srcs := srcs) (srcs' := l) (fp := fp) (by rw [dt, h.grid]; exact p1) (by rw [h.grid]; exact p2)
  have mem : ∀ i j, (i, j) ∈ rect 1 (e.g.Nx - 1) 1 (e.g.Ny - 1) ↔ (updatedNodes (exactGrid g)).Mem i j := by
    intro i j; rw [h.grid]; exact mem_nodes (g := g)
  have gx : (exactGrid g).dx = g.dx.val := rfl
  have gt : (exactGrid g).dt = g.dx.val / 2 := rfl
  have aE : ∀ i j, fp.Ez.val i j = (stepE e).Ez.val i j + totalContrib (exactGrid g) (e.t + g.dx.val / 2) srcs .Ez ⟨i, j⟩ := p4 .Ez (by simp [Fields.IsComp])
  have aX : ∀ i j, fp.Hx.val i j = e.f.Hx.val i j + totalContrib (exactGrid g) (e.t + g.dx.val / 2) srcs .Hx ⟨i, j⟩ := p4 .Hx (by simp [Fields.IsComp])
  have aY : ∀ i j, fp.Hy.val i j = e.f.Hy.val i j + totalContrib (exactGrid g) (e.t + g.dx.val / 2) srcs .Hy ⟨i, j⟩ := p4 .Hy (by simp [Fields.IsComp])
  obtain ⟨k1, k2, k3, k4⟩ := p3
  have k1' : fp.Ca = e.f.Ca := k1
  have k2' : fp.Cb = e.f.Cb := k2
  have k3' : fp.Da = e.f.Da := k3
  have k4' : fp.Db = e.f.Db := k4
  refine ⟨e', l, u, ⟨b, by rw [eg, h.grid], fun i j hm => ?_, fun i j hm => ?_⟩, by rw [et, dt], same, ⟨fun i j hm => ?_, fun i j hm => ?_, fun i j hm => ?_, fun i j hm => ?_⟩⟩
  · rw [ef, eg]
    have := h.media i j hm
    exact ⟨by rw [← this.Ca]; exact congrArg (fun t => t.val i j) k1', by rw [← this.Cb]; exact congrArg (fun t => t.val i j) k2',
      by rw [← this.Da]; exact congrArg (fun t => t.val i j) k3', by rw [← this.Db]; exact congrArg (fun t => t.val i j) k4'⟩
  · rw [ef, stepP_Ez]
    have n : (i, j) ∉ rect 1 (e.g.Nx - 1) 1 (e.g.Ny - 1) := fun k => hm ((mem i j).mp k)
    obtain ⟨a2, a3⟩ := stepP_out (c := e) (fp := fp) n
    rw [a2, a3, aE, aX, aY, stepE_out n, totalContrib_out hd .Ez hm, totalContrib_out hd .Hx hm, totalContrib_out hd .Hy hm, add_zero, add_zero, add_zero]
    exact h.within i j hm
  · have md := h.media i j hm
    rw [ef, stepP_Ez, aE, stepE_values ((mem i j).mpr hm), add_sub_cancel_right, gt, gx, (C24_unique (exactMed (med i j)) (g.dx.val / 2) (by positivity)
      (lt_of_lt_of_le one_pos (h1 i j hm)) (h2 i j hm)).1]
    unfold ezVal curlH
    rw [md.Ca, md.Cb, (h.bare.scx i).1, (h.bare.scy j).1, dt, dx, mul_one]
    show (exactMed (med i j)).Ca _ * _ + (exactMed (med i j)).Cb _ * _ = _
    ring
  · have md := h.media i j hm
    rw [ef, stepP_Ez, (stepP_values ((mem i j).mpr hm)).1, k3', k4', md.Da, md.Db, (h.bare.scy j).2, dt, dx, mul_one, gt, gx, aX]
    show 1 * _ - g.dx.val / 2 * _ / _ = _
    ring
  · have md := h.media i j hm
    rw [ef, stepP_Ez, (stepP_values ((mem i j).mpr hm)).2, k3', k4', md.Da, md.Db, (h.bare.scx i).2, dt, dx, mul_one, gt, gx, aY]
    show 1 * _ + g.dx.val / 2 * _ / _ = _
    ring
  · exact totalContrib_out hd .Ez hm

/-- The absolute part of the error of a driven step: the smallest numbers, the rounding of the signals, and the difference of the signals. -/
noncomputable def noise (A : Arith) (dx K ℓ δ : ℝ) : ℝ := (1 + K) * dust A dx + 13 * ((1 + K) * A.u) * ℓ + 2 * δ

/-- The estimate for the electric field. -/
theorem noise_E {A : Arith} {x K ℓ δ M E1 P E2 j : ℝ} (x0 : 0 < x) (K0 : 0 ≤ K) (few : K * A.u ≤ 1 / 1000) (l0 : 0 ≤ ℓ) (d0 : 0 ≤ δ) (M0 : 0 ≤ M)
    (a : |E1 - P| ≤ 24 * A.u * M + (8 + 5 * x) * A.tiny) (b : |E1| ≤ 2 * M + (8 + 5 * x) * A.tiny)
    (k : |E2 - (E1 + j)| ≤ 2 * (K * A.u) * (|E1| + (ℓ + δ)) + 3 * K * A.tiny + δ) :
    |E2 - P - j| ≤ 24 * ((1 + K) * A.u) * M + noise A x K ℓ δ := by
  have u0 := A.u_nonneg
  have u1 := A.u_le
  have t0 := A.tiny_nonneg
  have tri := abs_add_le (E2 - (E1 + j)) (E1 - P)
  rw [show E2 - (E1 + j) + (E1 - P) = E2 - P - j by ring] at tri
  have m1 := mul_le_mul_of_nonneg_left b (by positivity : 0 ≤ 2 * (K * A.u))
  have xt : 0 ≤ x * A.tiny := by positivity
  have Kx : 0 ≤ K * (x * A.tiny) := by positivity
  have it : 0 ≤ 3 / x * A.tiny := by positivity
  have Ki : 0 ≤ K * (3 / x * A.tiny) := by positivity
  have Kt : 0 ≤ K * A.tiny := by positivity
  have KM : 0 ≤ K * A.u * M := by positivity
  have m2 : K * A.u * ((8 + 5 * x) * A.tiny) ≤ 1 / 1000 * (K * ((8 + 5 * x) * A.tiny)) := by
    have := mul_le_mul_of_nonneg_right u1 (by positivity : 0 ≤ K * ((8 + 5 * x) * A.tiny))
    linarith
  have m3 : K * A.u * δ ≤ 1 / 1000 * δ := mul_le_mul_of_nonneg_right few d0
  have m4 : 0 ≤ K * A.u * ℓ := by positivity
  have m5 : 0 ≤ A.u * ℓ := by positivity
  unfold noise dust
  nlinarith

/-- The estimate for the magnetic field. -/
theorem noise_H {A : Arith} {x K ℓ δ M M' X E1 E1' E2 E2' jE jE' jX X1 X2 : ℝ} (x0 : 0 < x) (K0 : 0 ≤ K) (few : K * A.u ≤ 1 / 1000) (l0 : 0 ≤ ℓ) (d0 : 0 ≤ δ)
    (M0 : 0 ≤ M) (M0' : 0 ≤ M') (b : |E1| ≤ 2 * M + (8 + 5 * x) * A.tiny) (b' : |E1'| ≤ 2 * M' + (8 + 5 * x) * A.tiny)
    (j1 : |jE| ≤ ℓ) (j2 : |jE'| ≤ ℓ) (j3 : |jX| ≤ ℓ)
    (k : |E2 - (E1 + jE)| ≤ 2 * (K * A.u) * (|E1| + (ℓ + δ)) + 3 * K * A.tiny + δ)
    (k' : |E2' - (E1' + jE')| ≤ 2 * (K * A.u) * (|E1'| + (ℓ + δ)) + 3 * K * A.tiny + δ)
    (kx : |X1 - (X + jX)| ≤ 2 * (K * A.u) * (|X| + (ℓ + δ)) + 3 * K * A.tiny + δ)
    (h : |X2| ≤ 4 * A.u * (|X1| + (|E2'| + |E2|)) + (5 + 3 / x) * A.tiny) :
    |X2 + (X1 - X - jX)| ≤ 8 * ((1 + K) * A.u) * (|X| + M + M') + noise A x K ℓ δ := by
  have u0 := A.u_nonneg
  have u1 := A.u_le
  have t0 := A.tiny_nonneg
  have q0 := abs_nonneg X
  have size : ∀ {y z w : ℝ}, |w| ≤ ℓ → |z - (y + w)| ≤ 2 * (K * A.u) * (|y| + (ℓ + δ)) + 3 * K * A.tiny + δ →
      |z| ≤ (1 + 2 * (K * A.u)) * (|y| + (ℓ + δ)) + 3 * K * A.tiny := by
    intro y z w hw hz
    have t1 := abs_add_le (z - (y + w)) (y + w)
    rw [sub_add_cancel] at t1
    have t2 := abs_add_le y w
    linarith
  have s1 := size j1 k
  have s2 := size j2 k'
  have s3 := size j3 kx
  have tri := abs_add_le X2 (X1 - X - jX)
  have kx' : |X1 - X - jX| ≤ 2 * (K * A.u) * (|X| + (ℓ + δ)) + 3 * K * A.tiny + δ := by rwa [show X1 - X - jX = X1 - (X + jX) by ring]
  obtain ⟨T, hT⟩ : ∃ T, T = (8 + 5 * x) * A.tiny := ⟨_, rfl⟩
  have T0 : 0 ≤ T := by rw [hT]; positivity
  rw [← hT] at b b'
  obtain ⟨S, hS⟩ : ∃ S, S = |X| + 2 * M + 2 * M' + 2 * T + 3 * (ℓ + δ) := ⟨_, rfl⟩
  have S0 : 0 ≤ S := by rw [hS]; positivity
  have kap : 0 ≤ K * A.u := by positivity
  have tot : |X1| + (|E2'| + |E2|) ≤ (1 + 2 * (K * A.u)) * S + 9 * K * A.tiny := by
    have := mul_le_mul_of_nonneg_left (add_le_add b b') (by positivity : 0 ≤ 1 + 2 * (K * A.u))
    rw [hS]
    linarith
  have m1 := mul_le_mul_of_nonneg_left tot (by positivity : 0 ≤ 4 * A.u)
  have m2 : A.u * (K * A.u * S) ≤ 1 / 1000 * (K * A.u * S) := mul_le_mul_of_nonneg_right u1 (by positivity)
  have Kt : 0 ≤ K * A.tiny := by positivity
  have e1 : A.u * (K * A.tiny) ≤ 1 / 1000 * (K * A.tiny) := mul_le_mul_of_nonneg_right u1 Kt
  have e2 : A.u * T ≤ 1 / 1000 * T := mul_le_mul_of_nonneg_right u1 T0
  have e3 : A.u * δ ≤ 1 / 1000 * δ := mul_le_mul_of_nonneg_right u1 d0
  have e4 : K * A.u * δ ≤ 1 / 1000 * δ := mul_le_mul_of_nonneg_right few d0
  have f1 : 0 ≤ A.u * |X| := by positivity
  have f2 : 0 ≤ K * A.u * |X| := by positivity
  have f3 : 0 ≤ A.u * M := by positivity
  have f5 : 0 ≤ A.u * M' := by positivity
  have f7 : 0 ≤ A.u * ℓ := by positivity
  have f8 : 0 ≤ K * A.u * ℓ := by positivity
  have Tn : 8 * A.tiny + 5 * (x * A.tiny) = T := by rw [hT]; ring
  have xt : 0 ≤ x * A.tiny := by positivity
  have Kx : 0 ≤ K * (x * A.tiny) := by positivity
  have it : 0 ≤ 3 / x * A.tiny := by positivity
  have Ki : 0 ≤ K * (3 / x * A.tiny) := by positivity
  have du : noise A x K ℓ δ = (8 * A.tiny + 5 * (x * A.tiny) + 3 / x * A.tiny) + (8 * (K * A.tiny) + 5 * (K * (x * A.tiny)) + K * (3 / x * A.tiny)) +
      13 * (A.u * ℓ) + 13 * (K * A.u * ℓ) + 2 * δ := by unfold noise dust; ring
  rw [du]
  have e5 : K * A.u * T ≤ 1 / 1000 * T := mul_le_mul_of_nonneg_right few T0
  have f9 : 0 ≤ K * A.u * M := by positivity
  have f10 : 0 ≤ K * A.u * M' := by positivity
  have r1 : A.u * S = A.u * |X| + 2 * (A.u * M) + 2 * (A.u * M') + 2 * (A.u * T) + 3 * (A.u * ℓ) + 3 * (A.u * δ) := by rw [hS]; ring
  have r2 : K * A.u * S = K * A.u * |X| + 2 * (K * A.u * M) + 2 * (K * A.u * M') + 2 * (K * A.u * T) + 3 * (K * A.u * ℓ) + 3 * (K * A.u * δ) := by rw [hS]; ring
  linarith

end Qbox
