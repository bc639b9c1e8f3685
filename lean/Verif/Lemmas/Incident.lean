import Verif.Lemmas.StepReal
import Verif.Spec.IncidentSpec
import Verif.Spec.LinearSpec

/-!
# Lemmas for the total-field region in empty space
-/

namespace Qbox
open Scalar Spec Props

set_option linter.unusedSectionVars false
set_option linter.unusedSimpArgs false

/-! ## The auxiliary line -/

/-- State of the auxiliary line after `n` steps. -/
structure Tfsf.OnWave (w : Tfsf ℝ) (s : ℝ → ℝ) (e h : ℕ → ℤ → ℝ) (n : ℕ) : Prop where
  shape : w.Shape
  sig : w.tp.resp = s
  t : w.t = n * w.dt
  ca : ∀ k, w.ca.val k = 1
  cb : ∀ k, w.cb.val k = 0
  Iz : ∀ k, w.Iz.val k = 0
  Dz : ∀ k, 2 ≤ k → k ≤ w.Nx - 2 → w.Dz.val k = e n k
  Ez : ∀ k, 1 ≤ k → k ≤ w.Nx - 1 → w.Ez.val k = e n k
  Hx : ∀ k, 1 ≤ k → k ≤ w.Nx - 2 → w.Hx.val k = h n k
  right0 : w.right0 = e n (w.Nx - 2)
  right1 : w.right1 = if n = 0 then 0 else e (n - 1) (w.Nx - 2)

/-- Same region, same sampling. -/
structure Tfsf.SameBox (w w' : Tfsf ℝ) : Prop where
  ia : w'.ia = w.ia
  ib : w'.ib = w.ib
  ja : w'.ja = w.ja
  jb : w'.jb = w.jb
  Nx : w'.Nx = w.Nx
  dt : w'.dt = w.dt

theorem Tfsf.pulse_wave {w : Tfsf ℝ} {s : ℝ → ℝ} {e h : ℕ → ℤ → ℝ} {n : ℕ} (W : LineWave s w.dt w.Nx e h) (I : w.OnWave s e h n) :
    ∃ w', w.pulse = .ok w' ∧ w'.OnWave s e h (n + 1) ∧ w.SameBox w' := by
  obtain ⟨tp', fo, htp, hp, hf⟩ := Tfsf.pulse_closed I.shape
  have sh : ∃ w', w.pulse = .ok w' ∧ w'.Shape := by
    obtain ⟨w', h1, h2⟩ := Tfsf.pulse_ok I.shape
    exact ⟨w', h1, by first | exact h2.1 | exact h2⟩
  obtain ⟨w1, q1, q2⟩ := sh
  rw [hp] at q1
  have q1 := Except.ok.inj q1
  obtain ⟨tp2, ht2, hr2⟩ := TimeProfile.response_ok w.tp (w.t + w.dt)
  rw [htp] at ht2
  have e2 : tp2 = tp' := (Prod.mk.inj (Except.ok.inj ht2)).2.symm
  have nx := I.shape.nx
  have hD : ∀ k, 2 ≤ k → k ≤ w.Nx - 2 → w.newD k = e (n + 1) k := by
    intro k k1 k2
    simp only [Tfsf.newD, half_real]
    rw [if_pos ⟨by omega, by omega⟩, I.Dz k k1 k2, I.Hx (k - 1) (by omega) (by omega), I.Hx k (by omega) k2, W.ampere n k k1 k2]
    ring
  have hE : ∀ k, 1 ≤ k → k ≤ w.Nx - 1 → w.newE k = e (n + 1) k := by
    intro k k1 k2
    unfold Tfsf.newE
    by_cases c1 : k = w.Nx - 1
    · rw [if_pos c1, I.right1, c1]
      cases n with
      | zero => simpa using W.end1.symm
      | succ m => rw [if_neg (by omega)]; simpa using (W.open_ m).symm
    · rw [if_neg c1, if_neg (by omega)]
      by_cases c2 : k = 1
      · rw [if_pos c2, c2, W.drive, I.sig, I.t]
        congr 1; ring
      · rw [if_neg c2]
        unfold Tfsf.loopE
        rw [if_pos ⟨by omega, by omega⟩, I.ca, I.Iz, hD k (by omega) (by omega)]
        ring
  have hI : ∀ k, w.newI k = 0 := by
    intro k
    simp only [Tfsf.newI, I.cb, I.Iz]
    simp
  have hH : ∀ k, 1 ≤ k → k ≤ w.Nx - 2 → w.newH k = h (n + 1) k := by
    intro k k1 k2
    simp only [Tfsf.newH, half_real]
    rw [if_pos ⟨by omega, by omega⟩, I.Hx k k1 k2, hE k (by omega) (by omega), hE (k + 1) (by omega) (by omega), W.faraday n k k1 k2]
    ring
  refine ⟨_, hp, ?_, ⟨rfl, rfl, rfl, rfl, rfl, rfl⟩⟩
  exact {
    shape := by rw [q1]; exact q2
    sig := by show tp'.resp = s; rw [← e2, hr2, I.sig]
    t := by show w.t + w.dt = ((n + 1 : ℕ) : ℝ) * w.dt; rw [I.t]; push_cast; ring
    ca := I.ca, cb := I.cb, Iz := hI, Dz := hD, Ez := hE, Hx := hH
    right0 := hE _ (by omega) (by omega)
    right1 := by show w.right0 = _; rw [I.right0]; simp }

/-! ## The absorbing layer next to silence -/

/-- The memory of the layer is zero. -/
structure Pml.Quiet (p : Pml ℝ) : Prop where
  Ezx1 : TZero p.psi.Ezx1
  Ezx2 : TZero p.psi.Ezx2
  Hyx1 : TZero p.psi.Hyx1
  Hyx2 : TZero p.psi.Hyx2
  Ezy1 : TZero p.psi.Ezy1
  Ezy2 : TZero p.psi.Ezy2
  Hxy1 : TZero p.psi.Hxy1
  Hxy2 : TZero p.psi.Hxy2

theorem Tensor.upd_zero {A : Tensor ℝ} (hA : TZero A) {D : Finset (ℤ × ℤ)} {v : ℤ → ℤ → ℝ} (hv : ∀ x y, (x, y) ∈ D → v x y = 0) :
    TZero (A.upd D v) := by
  intro x y
  rw [Tensor.upd_val]
  split_ifs with h
  · exact hv x y h
  · exact hA x y

theorem Pml.quiet_E {p : Pml ℝ} (q : p.Quiet) {Hx Hy : Tensor ℝ}
    (hX : ∀ x y, y ≤ p.par.T ∨ p.Ny - 2 - p.par.T ≤ y → Hx.val x y = 0)
    (hY : ∀ x y, x ≤ p.par.T ∨ p.Nx - 2 - p.par.T ≤ x → Hy.val x y = 0) :
    (p.afterE Hx Hy).Quiet ∧ ∀ Cb x y, p.corrE Hx Hy Cb x y = 0 := by
  have v1 : ∀ x y, (x, y) ∈ rect 1 (p.Nx - 1) 1 (p.par.T + 1) → pEy1 p.co.be_y p.co.ce_y p.par.dx Hx p.psi.Ezy1 x y = 0 := by
    intro x y h
    rw [mem_rect] at h
    simp only at h
    unfold pEy1
    rw [q.Ezy1 x y, hX x y (by omega), hX x (y - 1) (by omega)]; simp
  have v2 : ∀ x y, (x, y) ∈ rect 1 (p.Nx - 1) 1 (p.par.T + 1) → pEy2 p.co.be_y p.co.ce_y p.par.dx (p.Ny - 1) Hx p.psi.Ezy2 x y = 0 := by
    intro x y h
    rw [mem_rect] at h
    simp only at h
    unfold pEy2
    rw [q.Ezy2 x y, hX x _ (by omega), hX x _ (by omega)]; simp
  have v3 : ∀ x y, (x, y) ∈ rect 1 (p.par.T + 1) 1 (p.Ny - 1) → pEx1 p.co.be_x p.co.ce_x p.par.dx Hy p.psi.Ezx1 x y = 0 := by
    intro x y h
    rw [mem_rect] at h
    simp only at h
    unfold pEx1
    rw [q.Ezx1 x y, hY x y (by omega), hY _ y (by omega)]; simp
  have v4 : ∀ x y, (x, y) ∈ rect 1 (p.par.T + 1) 1 (p.Ny - 1) → pEx2 p.co.be_x p.co.ce_x p.par.dx (p.Nx - 1) Hy p.psi.Ezx2 x y = 0 := by
    intro x y h
    rw [mem_rect] at h
    simp only at h
    unfold pEx2
    rw [q.Ezx2 x y, hY _ y (by omega), hY _ y (by omega)]; simp
  refine ⟨⟨Tensor.upd_zero q.Ezx1 v3, Tensor.upd_zero q.Ezx2 v4, q.Hyx1, q.Hyx2, Tensor.upd_zero q.Ezy1 v1, Tensor.upd_zero q.Ezy2 v2,
    q.Hxy1, q.Hxy2⟩, fun Cb x y => ?_⟩
  have z : ∀ {P : Prop} [Decidable P] {a b : ℝ}, (P → b = 0) → (if P then a * b else 0) = 0 := by
    intro P _ a b h
    split_ifs with hp
    · rw [h hp, mul_zero]
    · rfl
  unfold Pml.corrE
  rw [z (v1 x y), z (v2 x _), z (v3 x y), z (v4 _ y)]
  simp

theorem Pml.quiet_H {p : Pml ℝ} (q : p.Quiet) {Ez : Tensor ℝ}
    (hE : ∀ x y, (y ≤ p.par.T ∨ p.Ny - 1 - p.par.T ≤ y) ∨ (x ≤ p.par.T ∨ p.Nx - 1 - p.par.T ≤ x) → Ez.val x y = 0) :
    (p.afterH Ez).Quiet ∧ ∀ Db x y, p.corrHx Ez Db x y = 0 ∧ p.corrHy Ez Db x y = 0 := by
  have v1 : ∀ x y, (x, y) ∈ rect 1 (p.Nx - 1) 1 (p.par.T - 1 + 1) → pHy1 p.co.bh_y p.co.ch_y p.par.dx Ez p.psi.Hxy1 x y = 0 := by
    intro x y h
    rw [mem_rect] at h
    simp only at h
    unfold pHy1
    rw [q.Hxy1 x y, hE x y (by omega), hE x _ (by omega)]; simp
  have v2 : ∀ x y, (x, y) ∈ rect 1 (p.Nx - 1) 1 (p.par.T - 1 + 1) → pHy2 p.co.bh_y p.co.ch_y p.par.dx (p.Ny - 1) Ez p.psi.Hxy2 x y = 0 := by
    intro x y h
    rw [mem_rect] at h
    simp only at h
    unfold pHy2
    rw [q.Hxy2 x y, hE x _ (by omega), hE x _ (by omega)]; simp
  have v3 : ∀ x y, (x, y) ∈ rect 1 (p.par.T - 1 + 1) 1 (p.Ny - 1) → pHx1 p.co.bh_x p.co.ch_x p.par.dx Ez p.psi.Hyx1 x y = 0 := by
    intro x y h
    rw [mem_rect] at h
    simp only at h
    unfold pHx1
    rw [q.Hyx1 x y, hE x y (by omega), hE _ y (by omega)]; simp
  have v4 : ∀ x y, (x, y) ∈ rect 1 (p.par.T - 1 + 1) 1 (p.Ny - 1) → pHx2 p.co.bh_x p.co.ch_x p.par.dx (p.Nx - 1) Ez p.psi.Hyx2 x y = 0 := by
    intro x y h
    rw [mem_rect] at h
    simp only at h
    unfold pHx2
    rw [q.Hyx2 x y, hE _ y (by omega), hE _ y (by omega)]; simp
  refine ⟨⟨q.Ezx1, q.Ezx2, Tensor.upd_zero q.Hyx1 v3, Tensor.upd_zero q.Hyx2 v4, q.Ezy1, q.Ezy2, Tensor.upd_zero q.Hxy1 v1,
    Tensor.upd_zero q.Hxy2 v2⟩, fun Db x y => ?_⟩
  have z : ∀ {P : Prop} [Decidable P] {a b : ℝ}, (P → b = 0) → (if P then a * b else 0) = 0 := by
    intro P _ a b h
    split_ifs with hp
    · rw [h hp, mul_zero]
    · rfl
  unfold Pml.corrHx Pml.corrHy
  rw [z (v1 x y), z (v2 x _), z (v3 x y), z (v4 _ y)]
  simp

theorem vac_Ca (dt : ℝ) : (MatKind.simple (vacuum : Simple ℝ)).Ca dt = 1 := by
  simp [MatKind.Ca, Simple.Ca, vacuum]
theorem vac_Cb (dt : ℝ) : (MatKind.simple (vacuum : Simple ℝ)).Cb dt = dt := by
  simp [MatKind.Cb, Simple.Cb, vacuum]
theorem vac_Da (dt : ℝ) : (MatKind.simple (vacuum : Simple ℝ)).Da dt = 1 := rfl
theorem vac_Db (dt : ℝ) : (MatKind.simple (vacuum : Simple ℝ)).Db dt = dt := rfl

/-! ## One step -/

/-- State of a simulation of empty space with a total-field region after `n` steps. -/
structure Core.Incident (c : Core ℝ) (s : ℝ → ℝ) (a b : V2 ℤ) (e h : ℕ → ℤ → ℝ) (n : ℕ) : Prop where
  std : c.Std
  empty : Empty c
  clear : ClearRegion c.g a b
  quiet : c.pml.Quiet
  fills : FillsOnly c.f a b (e n) (h n)
  line : ∃ w, c.tfsf = some w ∧ w.OnWave s e h n ∧ w.ia = a.x ∧ w.ib = b.x ∧ w.ja = a.y ∧ w.jb = b.y ∧ w.Nx = b.y - a.y + 5 ∧ w.dt = c.g.dt

theorem Core.incident_step {c : Core ℝ} {s : ℝ → ℝ} {a b : V2 ℤ} {e h : ℕ → ℤ → ℝ} {n : ℕ}
    (W : LineWave s c.g.dt (b.y - a.y + 5) e h) (I : c.Incident s a b e h n) :
    ∃ c', c.update [] = .ok (c', []) ∧ c'.Incident s a b e h (n + 1) ∧ c'.g = c.g := by
  obtain ⟨c', srcs', E2, E3, E4, f, hu, S⟩ := Core.update_step I.std [] (by simp)
  have e0 : srcs' = [] := by cases S.same; rfl
  subst e0
  obtain ⟨w, hw, O, ia, ib, ja, jb, wN, wd⟩ := I.line
  obtain ⟨w', hp, O', B⟩ := Tfsf.pulse_wave (w := w) (by rw [wd, wN]; exact W) O
  have htf : c'.tfsf = some w' := by
    have := S.tf
    rw [hw] at this
    simp only [optPulse, hp, Except.ok_bind] at this
    exact (Except.ok.inj this).symm
  have eT : c.pml.par.T = c.g.T := I.std.wf.pml.thk
  have pNx : c.pml.Nx = c.g.Nx := I.std.wf.pml.nx
  have pNy : c.pml.Ny = c.g.Ny := I.std.wf.pml.ny
  obtain ⟨l1, l2, l3, l4⟩ := I.clear.lo
  obtain ⟨r1, r2, r3, r4⟩ := I.clear.hi
  have hx := I.clear.x
  have hy := I.clear.y
  have hT := I.std.thick
  have hE := I.clear.edge
  have hdx := I.std.law.dx
  have hdt : c.g.dt = c.g.dx / 2 := I.std.law.dt
  obtain ⟨qE, cE⟩ := Pml.quiet_E I.quiet (Hx := c.f.Hx) (Hy := c.f.Hy)
    (fun x y hh => I.fills.Hx_out x y (by rw [eT, pNy] at hh; omega))
    (fun x y _ => I.fills.Hy x y)
  -- no dispersive material
  have eE2 : E2 = c.E1 := by
    have := S.hd; rw [I.empty.debye] at this; exact (Prod.mk.inj (Except.ok.inj this)).2.symm
  have eE3 : E3 = E2 := by
    have := S.hr; rw [I.empty.drude] at this; exact (Prod.mk.inj (Except.ok.inj this)).2.symm
  have eE4 : E4 = E3 := by
    have := S.hl; rw [I.empty.lorentz] at this; exact (Prod.mk.inj (Except.ok.inj this)).2.symm
  have n1 : c'.debye = [] := by
    have := S.hd; rw [I.empty.debye] at this; exact (Prod.mk.inj (Except.ok.inj this)).1.symm
  have n2 : c'.drude = [] := by
    have := S.hr; rw [I.empty.drude] at this; exact (Prod.mk.inj (Except.ok.inj this)).1.symm
  have n3 : c'.lorentz = [] := by
    have := S.hl; rw [I.empty.lorentz] at this; exact (Prod.mk.inj (Except.ok.inj this)).1.symm
  have tc : ∀ C p, totalContrib c.g (c.t + c.g.dt) [] C p = 0 := by intro C p; simp [totalContrib]
  -- the electric field
  have vE : ∀ x y, f.Ez.val x y = (if (x, y) ∈ rect 1 (c.g.Nx - 1) 1 (c.g.Ny - 1) then
      c.f.Ez.val x y + (c.f.Hy.val x y - c.f.Hy.val (x - 1) y + (c.f.Hx.val x (y - 1) - c.f.Hx.val x y)) / 2 else c.f.Ez.val x y)
      + w.addEz x y := by
    intro x y
    rw [S.fE, eE4, eE3, eE2, tc, add_zero, hw]
    show (c.f.Ez.upd _ _).val x y + _ + w.addEz x y = _
    rw [cE, add_zero, Tensor.upd_val]
    congr 1
    by_cases hin : (x, y) ∈ rect 1 (c.g.Nx - 1) 1 (c.g.Ny - 1)
    · rw [if_pos hin, if_pos hin]
      rw [mem_rect] at hin
      simp only at hin
      have m := I.empty.medium x y (by omega) (by omega) (by omega) (by omega)
      unfold ezVal
      rw [m.Ca, m.Cb, vac_Ca, vac_Cb, I.std.sc.kedx, I.std.sc.kedy, hdt]
      field_simp
    · rw [if_neg hin, if_neg hin]
  have N5 := O.shape.nx
  have fE : ∀ x y, (a.x ≤ x ∧ x ≤ b.x ∧ a.y ≤ y ∧ y ≤ b.y → f.Ez.val x y = e (n + 1) (y - a.y + 3)) ∧
      (¬ (a.x ≤ x ∧ x ≤ b.x ∧ a.y ≤ y ∧ y ≤ b.y) → f.Ez.val x y = 0) := by
    intro x y
    constructor
    · intro hh
      have hin : (x, y) ∈ rect 1 (c.g.Nx - 1) 1 (c.g.Ny - 1) := by rw [mem_rect]; simp only; omega
      rw [vE, if_pos hin, I.fills.Ez_in x y hh.1 hh.2.1 hh.2.2.1 hh.2.2.2, I.fills.Hy, I.fills.Hy,
        W.ampere n (y - a.y + 3) (by omega) (by omega)]
      unfold Tfsf.addEz
      rw [if_pos (by omega), ja, jb, wN]
      have xa : c.f.Hx.val x (y - 1) = if y = a.y then 0 else h n (y - a.y + 3 - 1) := by
        split_ifs with k
        · exact I.fills.Hx_out _ _ (by omega)
        · rw [I.fills.Hx_in x (y - 1) hh.1 hh.2.1 (by omega) (by omega)]; congr 1; ring
      have xb : c.f.Hx.val x y = if y = b.y then 0 else h n (y - a.y + 3) := by
        split_ifs with k
        · exact I.fills.Hx_out _ _ (by omega)
        · exact I.fills.Hx_in x y hh.1 hh.2.1 (by omega) (by omega)
      rw [xa, xb, O.Hx 2 (by omega) (by omega), O.Hx (b.y - a.y + 5 - 2) (by omega) (by omega)]
      have t1 : y = a.y → h n (y - a.y + 3 - 1) = h n 2 := by intro k; congr 1; omega
      have t2 : y = b.y → h n (y - a.y + 3) = h n (b.y - a.y + 5 - 2) := by intro k; congr 1; omega
      by_cases k1 : y = a.y
      · by_cases k2 : y = b.y
        · rw [if_pos k1, if_pos k2, if_pos k1, if_pos k2, t1 k1, t2 k2]; ring
        · rw [if_pos k1, if_neg k2, if_pos k1, if_neg k2, t1 k1]; ring
      · by_cases k2 : y = b.y
        · rw [if_neg k1, if_pos k2, if_neg k1, if_pos k2, t2 k2]; ring
        · rw [if_neg k1, if_neg k2, if_neg k1, if_neg k2]; ring
    · intro hh
      have z : w.addEz x y = 0 := by
        unfold Tfsf.addEz
        rw [ia, ib, ja, jb]
        split_ifs <;> first | rfl | (exfalso; omega) | simp
      rw [vE, z, I.fills.Ez_out x y hh, I.fills.Hy, I.fills.Hy, I.fills.Hx_out x y (by omega), I.fills.Hx_out x (y - 1) (by omega)]
      simp
  -- the magnetic field
  obtain ⟨qH, cH⟩ := Pml.quiet_H qE (Ez := f.Ez) (by
    intro x y hh
    refine (fE x y).2 ?_
    have e1 : (c.pml.afterE c.f.Hx c.f.Hy).par.T = c.g.T := eT
    have e2 : (c.pml.afterE c.f.Hx c.f.Hy).Nx = c.g.Nx := pNx
    have e3 : (c.pml.afterE c.f.Hx c.f.Hy).Ny = c.g.Ny := pNy
    rw [e1, e2, e3] at hh
    omega)
  have fX : ∀ x y, f.Hx.val x y = c.f.Hx.val x y := by intro x y; rw [S.fX, tc, add_zero]
  have fY : ∀ x y, f.Hy.val x y = 0 := by intro x y; rw [S.fY, tc, add_zero, I.fills.Hy]
  have vX : ∀ x y, c'.f.Hx.val x y = (if (x, y) ∈ rect 1 (c.g.Nx - 1) 1 (c.g.Ny - 1) then
      c.f.Hx.val x y - (f.Ez.val x (y + 1) - f.Ez.val x y) / 2 else c.f.Hx.val x y) + w'.addHx x y := by
    intro x y
    rw [S.eX, (cH _ x y).1, add_zero, htf]
    show _ + w'.addHx x y = _
    rw [Tensor.upd_val]
    congr 1
    by_cases hin : (x, y) ∈ rect 1 (c.g.Nx - 1) 1 (c.g.Ny - 1)
    · rw [if_pos hin, if_pos hin]
      rw [mem_rect] at hin
      simp only at hin
      have m := I.empty.medium x y (by omega) (by omega) (by omega) (by omega)
      unfold hxVal
      rw [S.coef.2.2.1, S.coef.2.2.2, m.Da, m.Db, vac_Da, vac_Db, I.std.sc.khdy, hdt, fX]
      field_simp
    · rw [if_neg hin, if_neg hin, fX]
  have vY : ∀ x y, c'.f.Hy.val x y = (if (x, y) ∈ rect 1 (c.g.Nx - 1) 1 (c.g.Ny - 1) then
      (f.Ez.val (x + 1) y - f.Ez.val x y) / 2 else 0) + w'.addHy x y := by
    intro x y
    rw [S.eY, (cH _ x y).2, add_zero, htf]
    show _ + w'.addHy x y = _
    rw [Tensor.upd_val]
    congr 1
    by_cases hin : (x, y) ∈ rect 1 (c.g.Nx - 1) 1 (c.g.Ny - 1)
    · rw [if_pos hin, if_pos hin]
      rw [mem_rect] at hin
      simp only at hin
      have m := I.empty.medium x y (by omega) (by omega) (by omega) (by omega)
      unfold hyVal
      rw [S.coef.2.2.1, S.coef.2.2.2, m.Da, m.Db, vac_Da, vac_Db, I.std.sc.khdx, hdt, fY]
      field_simp
      ring
    · rw [if_neg hin, if_neg hin, fY]
  have ia' := B.ia.trans ia
  have ib' := B.ib.trans ib
  have ja' := B.ja.trans ja
  have jb' := B.jb.trans jb
  have wN' := B.Nx.trans wN
  refine ⟨c', hu, ⟨S.std, ⟨?_, n1, n2, n3⟩, by rw [S.g]; exact I.clear, ?_, ?_, ?_⟩, S.g⟩
  · intro i j h1 h2 h3 h4
    rw [S.g] at h2 h4 ⊢
    have m := I.empty.medium i j h1 h2 h3 h4
    obtain ⟨q1, q2, q3, q4⟩ := S.coef'
    exact ⟨by rw [q1]; exact m.Ca, by rw [q2]; exact m.Cb, by rw [q3]; exact m.Da, by rw [q4]; exact m.Db⟩
  · rw [S.pml]; exact qH
  · refine ⟨?_, ?_, ?_, ?_, ?_⟩
    · intro i j h1 h2 h3 h4; rw [S.eE]; exact (fE i j).1 ⟨h1, h2, h3, h4⟩
    · intro i j hh; rw [S.eE]; exact (fE i j).2 hh
    · intro i j h1 h2 h3 h4
      have hin : (i, j) ∈ rect 1 (c.g.Nx - 1) 1 (c.g.Ny - 1) := by rw [mem_rect]; simp only; omega
      have z : w'.addHx i j = 0 := by
        unfold Tfsf.addHx
        rw [ia', ib', ja', jb', if_pos ⟨h1, h2⟩, if_neg (by omega), if_neg (by omega), add_zero]
      rw [vX, if_pos hin, z, (fE i j).1 ⟨h1, h2, h3, by omega⟩, (fE i (j + 1)).1 ⟨h1, h2, by omega, by omega⟩,
        I.fills.Hx_in i j h1 h2 h3 h4, W.faraday n (j - a.y + 3) (by omega) (by omega)]
      rw [show j + 1 - a.y + 3 = j - a.y + 3 + 1 by ring]
      ring
    · intro i j hh
      rw [vX, I.fills.Hx_out i j hh]
      by_cases hi : a.x ≤ i ∧ i ≤ b.x
      · unfold Tfsf.addHx
        rw [ia', ib', ja', jb', wN', if_pos hi, O'.Ez 3 (by omega) (by omega), O'.Ez (b.y - a.y + 5 - 2) (by omega) (by omega)]
        by_cases k1 : j = a.y - 1
        · have hin : (i, j) ∈ rect 1 (c.g.Nx - 1) 1 (c.g.Ny - 1) := by rw [mem_rect]; simp only; omega
          rw [if_pos hin, if_pos k1, if_neg (by omega), (fE i j).2 (by omega), (fE i (j + 1)).1 (by omega)]
          rw [show j + 1 - a.y + 3 = 3 by omega]; ring
        · by_cases k2 : j = b.y
          · have hin : (i, j) ∈ rect 1 (c.g.Nx - 1) 1 (c.g.Ny - 1) := by rw [mem_rect]; simp only; omega
            rw [if_pos hin, if_neg k1, if_pos k2, (fE i j).1 (by omega), (fE i (j + 1)).2 (by omega)]
            rw [show j - a.y + 3 = b.y - a.y + 5 - 2 by omega]; ring
          · rw [if_neg k1, if_neg k2, (fE i j).2 (by omega), (fE i (j + 1)).2 (by omega)]
            simp
      · have z : w'.addHx i j = 0 := by
          unfold Tfsf.addHx
          rw [ia', ib', if_neg hi]
        rw [z, (fE i j).2 (by omega), (fE i (j + 1)).2 (by omega)]
        simp
    · intro i j
      rw [vY]
      by_cases hj : a.y ≤ j ∧ j ≤ b.y
      · unfold Tfsf.addHy
        rw [ia', ib', ja', jb', if_pos hj, O'.Ez (j - a.y + 3) (by omega) (by omega)]
        by_cases k1 : i = a.x - 1
        · have hin : (i, j) ∈ rect 1 (c.g.Nx - 1) 1 (c.g.Ny - 1) := by rw [mem_rect]; simp only; omega
          rw [if_pos hin, if_pos k1, if_neg (by omega), (fE i j).2 (by omega), (fE (i + 1) j).1 (by omega)]
          ring
        · by_cases k2 : i = b.x
          · have hin : (i, j) ∈ rect 1 (c.g.Nx - 1) 1 (c.g.Ny - 1) := by rw [mem_rect]; simp only; omega
            rw [if_pos hin, if_neg k1, if_pos k2, (fE i j).1 (by omega), (fE (i + 1) j).2 (by omega)]
            ring
          · rw [if_neg k1, if_neg k2]
            by_cases k3 : a.x ≤ i ∧ i ≤ b.x
            · rw [(fE i j).1 (by omega), (fE (i + 1) j).1 (by omega)]
              simp
            · rw [(fE i j).2 (by omega), (fE (i + 1) j).2 (by omega)]
              simp
      · have z : w'.addHy i j = 0 := by
          unfold Tfsf.addHy
          rw [ja', jb', if_neg hj]
        rw [z, (fE i j).2 (by omega), (fE (i + 1) j).2 (by omega)]
        simp
  · exact ⟨w', htf, O', ia', ib', ja', jb', wN', by rw [B.dt, wd, S.g]⟩

end Qbox
