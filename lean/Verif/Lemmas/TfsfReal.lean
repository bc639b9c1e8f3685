import Verif.Lemmas.WF

/-! # Closed forms of the TFSF source -/

namespace Qbox
open Scalar

set_option linter.unusedSectionVars false
set_option linter.unusedSimpArgs false

section
variable {K : Type} [Scalar K]

/-- `D` on the auxiliary line after a step. -/
def Tfsf.newD (w : Tfsf K) (k : ℤ) : K :=
  if 1 ≤ k ∧ k < w.Nx then w.Dz.val k + half * (w.Hx.val (k - 1) - w.Hx.val k) else w.Dz.val k

/-- `E` on the auxiliary line after the main loop of a step. -/
def Tfsf.loopE (w : Tfsf K) (k : ℤ) : K :=
  if 1 ≤ k ∧ k < w.Nx then w.ca.val k * (w.newD k - w.Iz.val k) else w.Ez.val k

/-- `I` on the auxiliary line after a step. -/
def Tfsf.newI (w : Tfsf K) (k : ℤ) : K :=
  if 1 ≤ k ∧ k < w.Nx then w.Iz.val k + w.cb.val k * w.loopE k else w.Iz.val k

/-- `E` on the auxiliary line after a step: driven at index 1, absorbed at both ends. -/
def Tfsf.newE (w : Tfsf K) (k : ℤ) : K :=
  if k = w.Nx - 1 then w.right1 else if k = 0 then w.left1 else if k = 1 then w.tp.resp (w.t + w.dt) else w.loopE k

/-- `H` on the auxiliary line after a step. -/
def Tfsf.newH (w : Tfsf K) (k : ℤ) : K :=
  if 0 ≤ k ∧ k < w.Nx - 1 then w.Hx.val k + half * (w.newE k - w.newE (k + 1)) else w.Hx.val k

theorem lineE_closed {w : Tfsf K} (hw : w.Shape) :
    forRange 1 w.Nx ⟨w.Dz, w.Ez, w.Iz⟩ (lineEBody w.Hx w.ca w.cb) =
      .ok ⟨w.Dz.setv w.newD, w.Ez.setv w.loopE, w.Iz.setv w.newI⟩ := by
  obtain ⟨w0, w1, w2, w3, w4, w5, w6, w7⟩ := hw
  have h := forRange_closed (fun D => (⟨w.Dz.setv fun k => if k ∈ D then w.newD k else w.Dz.val k,
      w.Ez.setv fun k => if k ∈ D then w.loopE k else w.Ez.val k,
      w.Iz.setv fun k => if k ∈ D then w.newI k else w.Iz.val k⟩ : Line3 K)) 1 w.Nx (lineEBody w.Hx w.ca w.cb)
    (by
      intro k h1 h2 D hDs hD
      unfold lineEBody
      simp (disch := first | omega | (simp only [Arr.setv_n]; omega)) only
        [Arr.rd_in, Arr.wr_in, Except.ok_bind, Except.pure_eq, Arr.setv_val, hD, if_false, if_true]
      have e : ∀ {a a' b b' c c' : Arr K}, a = a' → b = b' → c = c' →
          (Except.ok ⟨a, b, c⟩ : M (Line3 K)) = .ok ⟨a', b', c'⟩ := by rintro _ _ _ _ _ _ rfl rfl rfl; rfl
      refine e (Arr.ext' rfl fun x => ?_) (Arr.ext' rfl fun x => ?_) (Arr.ext' rfl fun x => ?_)
      · simp only [Arr.setv_val, Finset.mem_insert]
        by_cases hx : x = k
        · subst hx; simp only [if_true, true_or, Tfsf.newD, h1, h2, and_self]
        · simp only [hx, if_false, false_or]
      · simp only [Arr.setv_val, Finset.mem_insert]
        by_cases hx : x = k
        · subst hx; simp only [if_true, true_or, Tfsf.newD, Tfsf.loopE, h1, h2, and_self]
        · simp only [hx, if_false, false_or]
      · simp only [Arr.setv_val, Finset.mem_insert]
        by_cases hx : x = k
        · subst hx; simp only [if_true, true_or, Tfsf.newD, Tfsf.loopE, Tfsf.newI, h1, h2, and_self]
        · simp only [hx, if_false, false_or])
  have e0 : (⟨w.Dz, w.Ez, w.Iz⟩ : Line3 K) = ⟨w.Dz.setv fun k => if k ∈ (∅ : Finset ℤ) then w.newD k else w.Dz.val k,
      w.Ez.setv fun k => if k ∈ (∅ : Finset ℤ) then w.loopE k else w.Ez.val k,
      w.Iz.setv fun k => if k ∈ (∅ : Finset ℤ) then w.newI k else w.Iz.val k⟩ := by
    simp [Arr.setv]
  rw [e0, h]
  refine congrArg Except.ok ?_
  congr 1
  all_goals
    refine Arr.ext' rfl fun x => ?_
    simp only [Arr.setv_val, List.mem_toFinset, mem_intRange]
    by_cases hx : 1 ≤ x ∧ x < w.Nx
    · simp only [hx, and_self, if_true]
    · simp only [hx, if_false, Tfsf.newD, Tfsf.loopE, Tfsf.newI]

theorem lineH_closed {n : ℤ} (Hx E : Arr K) (hH : Hx.n = n) (hE : E.n = n) :
    forRange 0 (n - 1) Hx (lineHBody E) = .ok (Hx.setv fun k =>
      if 0 ≤ k ∧ k < n - 1 then Hx.val k + half * (E.val k - E.val (k + 1)) else Hx.val k) := by
  have h := forRange_closed (fun D => Hx.setv fun k => if k ∈ D then Hx.val k + half * (E.val k - E.val (k + 1)) else Hx.val k)
    0 (n - 1) (lineHBody E)
    (by
      intro k h1 h2 D hDs hD
      unfold lineHBody
      simp (disch := first | omega | (simp only [Arr.setv_n]; omega)) only
        [Arr.rd_in, Arr.wr_in, Except.ok_bind, Except.pure_eq, Arr.setv_val, hD, if_false, if_true]
      refine congrArg Except.ok (Arr.ext' rfl fun x => ?_)
      simp only [Arr.setv_val, Finset.mem_insert]
      by_cases hx : x = k
      · subst hx; simp only [if_true, true_or]
      · simp only [hx, if_false, false_or])
  have e0 : Hx = Hx.setv fun k => if k ∈ (∅ : Finset ℤ) then Hx.val k + half * (E.val k - E.val (k + 1)) else Hx.val k := by
    simp [Arr.setv]
  conv_lhs => rw [e0]
  rw [h]
  refine congrArg Except.ok (Arr.ext' rfl fun x => ?_)
  simp only [Arr.setv_val, List.mem_toFinset, mem_intRange]

/-- Closed form of `tfsf::pulse`. -/
theorem Tfsf.pulse_closed {w : Tfsf K} (hw : w.Shape) :
    ∃ tp' fo, w.tp.response (w.t + w.dt) = .ok (w.tp.resp (w.t + w.dt), tp') ∧ w.pulse = .ok { w with
      t := w.t + w.dt, tp := tp', fourier := fo, Dz := w.Dz.setv w.newD, Ez := w.Ez.setv w.newE, Iz := w.Iz.setv w.newI,
      Hx := w.Hx.setv w.newH, left0 := w.tp.resp (w.t + w.dt), left1 := w.left0, right0 := w.newE (w.Nx - 2),
      right1 := w.right0 } ∧
      tfsfFourier (w.Ez.setv w.newE) w.Hx (w.Ez.val 2) (w.t + w.dt) w.fourier = .ok fo := by
  obtain ⟨w', hp, -⟩ := Tfsf.pulse_ok hw
  obtain ⟨tp', htp, -⟩ := TimeProfile.response_ok w.tp (w.t + w.dt)
  have hE := lineE_closed hw
  obtain ⟨w0, w1, w2, w3, w4, w5, w6, w7⟩ := hw
  have eE : ((((w.Ez.setv w.loopE).setv fun x => if x = 1 then w.tp.resp (w.t + w.dt) else (w.Ez.setv w.loopE).val x).setv
      fun x => if x = 0 then w.left1 else ((w.Ez.setv w.loopE).setv fun x => if x = 1 then w.tp.resp (w.t + w.dt)
        else (w.Ez.setv w.loopE).val x).val x).setv fun x => if x = w.Nx - 1 then w.right1 else
      (((w.Ez.setv w.loopE).setv fun x => if x = 1 then w.tp.resp (w.t + w.dt) else (w.Ez.setv w.loopE).val x).setv
      fun x => if x = 0 then w.left1 else ((w.Ez.setv w.loopE).setv fun x => if x = 1 then w.tp.resp (w.t + w.dt)
        else (w.Ez.setv w.loopE).val x).val x).val x) = w.Ez.setv w.newE := by
    refine Arr.ext' rfl fun x => ?_
    simp only [Arr.setv_val, Tfsf.newE]
  have key : w.pulse = (tfsfFourier (w.Ez.setv w.newE) w.Hx (w.Ez.val 2) (w.t + w.dt) w.fourier).bind fun fo =>
      .ok { w with
      t := w.t + w.dt, tp := tp', fourier := fo, Dz := w.Dz.setv w.newD, Ez := w.Ez.setv w.newE, Iz := w.Iz.setv w.newI,
      Hx := w.Hx.setv w.newH, left0 := w.tp.resp (w.t + w.dt), left1 := w.left0, right0 := w.newE (w.Nx - 2),
      right1 := w.right0 } := by
    unfold Tfsf.pulse
    rw [Arr.rd_in (by omega) (by omega)]
    simp only [Except.ok_bind]
    rw [hE]; simp only [Except.ok_bind]
    rw [htp]; simp only [Except.ok_bind]
    simp (disch := first | omega | (simp only [Arr.setv_n]; omega)) only
        [Arr.rd_in, Arr.wr_in, Except.ok_bind, Except.pure_eq, eE]
    have hH := lineH_closed w.Hx (w.Ez.setv w.newE) w3 (show (w.Ez.setv w.newE).n = w.Nx from w1)
    rw [hH]
    have v1 : (w.Ez.setv w.newE).val (w.Nx - 2) = w.newE (w.Nx - 2) := rfl
    simp only [Arr.setv_val, show ¬ ((1 : ℤ) = 0) by omega, if_true, if_false, v1, Except.ok_bind]
    rfl
  rw [key] at hp
  cases hf : tfsfFourier (w.Ez.setv w.newE) w.Hx (w.Ez.val 2) (w.t + w.dt) w.fourier with
  | error e => rw [hf] at hp; simp [Except.bind] at hp
  | ok fo => exact ⟨tp', fo, htp, by rw [key, hf]; rfl, rfl⟩

end

/-- What `tfsf::updateD` adds to `Ez`. -/
noncomputable def Tfsf.addEz (w : Tfsf ℝ) (x y : ℤ) : ℝ :=
  if w.ia ≤ x ∧ x ≤ w.ib then
    (if y = w.ja then 1 / 2 * w.Hx.val 2 else 0) + (if y = w.jb then - (1 / 2) * w.Hx.val (w.Nx - 2) else 0) else 0

/-- What `tfsf::updateH` adds to `Hx`. -/
noncomputable def Tfsf.addHx (w : Tfsf ℝ) (x y : ℤ) : ℝ :=
  if w.ia ≤ x ∧ x ≤ w.ib then
    (if y = w.ja - 1 then 1 / 2 * w.Ez.val 3 else 0) + (if y = w.jb then - (1 / 2) * w.Ez.val (w.Nx - 2) else 0) else 0

/-- What `tfsf::updateH` adds to `Hy`. -/
noncomputable def Tfsf.addHy (w : Tfsf ℝ) (x y : ℤ) : ℝ :=
  if w.ja ≤ y ∧ y ≤ w.jb then
    (if x = w.ia - 1 then - (1 / 2) * w.Ez.val (y - w.ja + 3) else 0)
      + (if x = w.ib then 1 / 2 * w.Ez.val (y - w.ja + 3) else 0) else 0

theorem addRow_closed (A : Tensor ℝ) (Nx Ny a b j1 j2 : ℤ) (v1 v2 : ℝ) (hA : A.Dim Nx Ny) (ha : 0 ≤ a) (hb : b < Nx)
    (h1 : 0 ≤ j1) (h1' : j1 < Ny) (h2 : 0 ≤ j2) (h2' : j2 < Ny) (hab : a ≤ b) :
    forRange a (b + 1) A (fun i A => do let A ← A.addTo i j1 v1; A.addTo i j2 v2) =
      .ok (A.setv fun x y => A.val x y + if a ≤ x ∧ x ≤ b then (if y = j1 then v1 else 0) + (if y = j2 then v2 else 0)
        else 0) := by
  obtain ⟨e1, e2⟩ := hA
  have h := forRange_closed (fun D => A.setv fun x y => A.val x y +
      if x ∈ D then (if y = j1 then v1 else 0) + (if y = j2 then v2 else 0) else 0) a (b + 1)
    (fun i A => do let A ← A.addTo i j1 v1; A.addTo i j2 v2)
    (by
      intro i i1 i2 D hDs hD
      simp (disch := first | omega | (simp only [Tensor.setv_nx, Tensor.setv_ny]; omega)) only
        [Tensor.addTo_in, Except.ok_bind, Tensor.setv_val]
      refine congrArg Except.ok (Tensor.ext' rfl rfl fun x y => ?_)
      simp only [Tensor.setv_val, Finset.mem_insert, hD, if_false]
      by_cases hx : x = i
      · subst hx
        simp only [true_and, true_or, if_true, hD, if_false]
        by_cases y1 : y = j1 <;> by_cases y2 : y = j2
        · subst y1; simp only [y2, if_true]; simp [← y2]; ring
        · subst y1; simp [y2]
        · subst y2; simp [y1]
        · simp [y1, y2]
      · simp only [hx, false_and, false_or, if_false])
  have e0 : A = A.setv fun x y => A.val x y +
      if x ∈ (∅ : Finset ℤ) then (if y = j1 then v1 else 0) + (if y = j2 then v2 else 0) else 0 := by
    simp [Tensor.setv]
  conv_lhs => rw [e0]
  rw [h]
  refine congrArg Except.ok (Tensor.ext' rfl rfl fun x y => ?_)
  simp only [Tensor.setv_val, List.mem_toFinset, mem_intRange, Int.lt_add_one_iff]

theorem addCol_closed (A : Tensor ℝ) (Nx Ny a b i1 i2 : ℤ) (v1 v2 : ℤ → ℝ) (hA : A.Dim Nx Ny) (ha : 0 ≤ a) (hb : b < Ny)
    (h1 : 0 ≤ i1) (h1' : i1 < Nx) (h2 : 0 ≤ i2) (h2' : i2 < Nx) (hab : a ≤ b) :
    forRange a (b + 1) A (fun j A => do let A ← A.addTo i1 j (v1 j); A.addTo i2 j (v2 j)) =
      .ok (A.setv fun x y => A.val x y + if a ≤ y ∧ y ≤ b then (if x = i1 then v1 y else 0) + (if x = i2 then v2 y else 0)
        else 0) := by
  obtain ⟨e1, e2⟩ := hA
  have h := forRange_closed (fun D => A.setv fun x y => A.val x y +
      if y ∈ D then (if x = i1 then v1 y else 0) + (if x = i2 then v2 y else 0) else 0) a (b + 1)
    (fun j A => do let A ← A.addTo i1 j (v1 j); A.addTo i2 j (v2 j))
    (by
      intro j k1 k2 D hDs hD
      simp (disch := first | omega | (simp only [Tensor.setv_nx, Tensor.setv_ny]; omega)) only
        [Tensor.addTo_in, Except.ok_bind, Tensor.setv_val]
      refine congrArg Except.ok (Tensor.ext' rfl rfl fun x y => ?_)
      simp only [Tensor.setv_val, Finset.mem_insert, hD, if_false]
      by_cases hx : y = j
      · subst hx
        simp only [and_true, true_or, if_true, hD, if_false]
        by_cases y1 : x = i1 <;> by_cases y2 : x = i2
        · subst y1; simp only [y2, if_true]; simp [← y2]; ring
        · subst y1; simp [y2]
        · subst y2; simp [y1]
        · simp [y1, y2]
      · simp only [hx, and_false, false_or, if_false])
  have e0 : A = A.setv fun x y => A.val x y +
      if y ∈ (∅ : Finset ℤ) then (if x = i1 then v1 y else 0) + (if x = i2 then v2 y else 0) else 0 := by
    simp [Tensor.setv]
  conv_lhs => rw [e0]
  rw [h]
  refine congrArg Except.ok (Tensor.ext' rfl rfl fun x y => ?_)
  simp only [Tensor.setv_val, List.mem_toFinset, mem_intRange, Int.lt_add_one_iff]

theorem forRange_congr {σ : Type} (a b : ℤ) (s : σ) (b1 b2 : ℤ → σ → M σ) (h : ∀ i, a ≤ i → i < b → b1 i = b2 i) :
    forRange a b s b1 = forRange a b s b2 := by
  rw [forRange_eq_forList, forRange_eq_forList]
  have : ∀ l : List ℤ, (∀ i ∈ l, b1 i = b2 i) → ∀ s, forList l s b1 = forList l s b2 := by
    intro l
    induction l with
    | nil => intro _ s; rfl
    | cons x l ih =>
      intro hl s
      simp only [forList, List.foldlM_cons]
      rw [hl x (by simp)]
      congr 1
      funext s'
      exact ih (fun i hi => hl i (by simp [hi])) s'
  exact this _ (fun i hi => h i (mem_intRange.mp hi).1 (mem_intRange.mp hi).2) s

theorem Tfsf.updateD_closed {w : Tfsf ℝ} {Nx Ny : ℤ} (hw : w.Shape) (hg : w.InGrid Nx Ny) {Ez : Tensor ℝ}
    (hE : Ez.Dim Nx Ny) : w.updateD Ez = .ok (Ez.setv fun x y => Ez.val x y + w.addEz x y) := by
  obtain ⟨g0, g1, g2, g3, g4, g5, g6⟩ := hg
  obtain ⟨w0, w1, w2, w3, w4, w5, w6, -⟩ := hw
  unfold Tfsf.updateD
  simp (disch := omega) only [Arr.rd_in, Except.ok_bind]
  rw [addRow_closed Ez Nx Ny w.ia w.ib w.ja w.jb _ _ hE (by omega) g3 (by omega) (by omega) (by omega) g6 g2]
  simp only [Tfsf.addEz, half_real]

theorem Tfsf.updateH_closed {w : Tfsf ℝ} {Nx Ny : ℤ} (hw : w.Shape) (hg : w.InGrid Nx Ny) {h : HPair ℝ}
    (hX : h.Hx.Dim Nx Ny) (hY : h.Hy.Dim Nx Ny) :
    w.updateH h = .ok ⟨h.Hx.setv fun x y => h.Hx.val x y + w.addHx x y, h.Hy.setv fun x y => h.Hy.val x y + w.addHy x y⟩ := by
  obtain ⟨g0, g1, g2, g3, g4, g5, g6⟩ := hg
  obtain ⟨w0, w1, w2, w3, w4, w5, w6, -⟩ := hw
  unfold Tfsf.updateH
  have e := forRange_congr w.ja (w.jb + 1) h.Hy (fun j Hy => do
      let Hy ← Hy.addTo (w.ia - 1) j (-half * (← w.Ez.rd (j - w.ja + 3)))
      Hy.addTo w.ib j (half * (← w.Ez.rd (j - w.ja + 3))))
    (fun j Hy => do
      let Hy ← Hy.addTo (w.ia - 1) j ((fun j => -half * w.Ez.val (j - w.ja + 3)) j)
      Hy.addTo w.ib j ((fun j => half * w.Ez.val (j - w.ja + 3)) j))
    (by
      intro j h1 h2
      funext Hy
      simp (disch := omega) only [Arr.rd_in, Except.ok_bind])
  rw [e]
  simp (disch := omega) only [Arr.rd_in, Except.ok_bind]
  rw [addRow_closed h.Hx Nx Ny w.ia w.ib (w.ja - 1) w.jb _ _ hX (by omega) g3 (by omega) (by omega) (by omega) g6 g2]
  simp only [Except.ok_bind]
  rw [addCol_closed h.Hy Nx Ny w.ja w.jb (w.ia - 1) w.ib (fun j => -half * w.Ez.val (j - w.ja + 3))
    (fun j => half * w.Ez.val (j - w.ja + 3)) hY (by omega) g6 (by omega) (by omega) (by omega) g3 g5]
  simp only [Tfsf.addHx, Tfsf.addHy, half_real]
  rfl

end Qbox
