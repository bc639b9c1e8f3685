import Verif.Lemmas.WF

/-! # Closed forms of the polarization updates: every cell is updated from its own data only -/

namespace Qbox
open Scalar

set_option linter.unusedSectionVars false
set_option linter.unusedSimpArgs false

/-- Fold of the poles `0, …, n-1` over one cell: field value and the memory `S` of each pole. -/
def cellIter {K S : Type} (step : ℤ → K → S → K × S) : ℕ → K × (ℤ → S) → K × (ℤ → S)
  | 0, r => r
  | n + 1, r =>
    let q := cellIter step n r
    let e := step n q.1 (q.2 n)
    (e.1, fun N : ℤ => if N = (n : ℤ) then e.2 else q.2 N)

theorem cellIter_succ {K S : Type} (step : ℤ → K → S → K × S) (n : ℕ) (r : K × (ℤ → S)) :
    cellIter step (n + 1) r = ((step n (cellIter step n r).1 ((cellIter step n r).2 n)).1,
      fun N : ℤ => if N = (n : ℤ) then (step n (cellIter step n r).1 ((cellIter step n r).2 n)).2 else (cellIter step n r).2 N) := rfl

/-- Poles that have not been visited yet keep their memory. -/
theorem cellIter_ge {K S : Type} (step : ℤ → K → S → K × S) (n : ℕ) (r : K × (ℤ → S)) (N : ℤ) (h : (n : ℤ) ≤ N) :
    (cellIter step n r).2 N = r.2 N := by
  induction n with
  | zero => rfl
  | succ n ih =>
    rw [cellIter_succ]
    push_cast at h
    simp only [show N ≠ (n : ℤ) by omega, if_false]
    exact ih (by omega)

theorem cellIter_neg {K S : Type} (step : ℤ → K → S → K × S) (n : ℕ) (r : K × (ℤ → S)) (N : ℤ) (h : N < 0) :
    (cellIter step n r).2 N = r.2 N := by
  induction n with
  | zero => rfl
  | succ n ih =>
    rw [cellIter_succ]
    simp only [show N ≠ (n : ℤ) by omega, if_false]
    exact ih

variable {K : Type} [Scalar K]

/-- One pole of `debye_polarization::update_J` in one cell. -/
def debyeStep (dt Cb : K) (kap bet : ℤ → K) (pE : K) (N : ℤ) (E J : K) : K × K :=
  let E' := E - Cb * half * (1 + kap N) * J
  (E', kap N * J + bet N / dt * (E' - pE))

/-- One pole of `drude_polarization::update_J` in one cell. -/
def drudeStep (Cb : K) (kap bet : ℤ → K) (pE : K) (N : ℤ) (E J : K) : K × K :=
  let E' := E - Cb * half * (1 + kap N) * J
  (E', kap N * J + bet N * (E' + pE))

/-- One pole of `lorentz_polarization::update_J` in one cell; the memory is `(J, prevJ)`. -/
def lorentzStep (dt Cb CaPrev : K) (alp bet del : ℤ → K) (p2E : K) (N : ℤ) (E : K) (J : K × K) : K × (K × K) :=
  let E' := E + (CaPrev * p2E - Cb * half * ((1 + alp N) * J.1 + bet N * J.2))
  (E', (alp N * J.1 + bet N * J.2 + del N / (ofInt 2 * dt) * (E' - p2E), J.1))

/-- The cell of `debye_polarization::update_J` at `(x, y)` after `n` poles. -/
def DebyePol.cell (g : Grid K) (P : DebyePol K) (pE Ez : Tensor K) (n : ℕ) (x y : ℤ) : K × (ℤ → K) :=
  cellIter (debyeStep g.dt (P.mat.Cb g.dt) (Arr.ofList (P.mat.poles.map (·.kappa g.dt))).val (P.beta.val x y) (pE.val x y)) n
    (Ez.val x y, P.J.val x y)

theorem DebyePol.cell_succ (g : Grid K) (P : DebyePol K) (pE Ez : Tensor K) (n : ℕ) (x y : ℤ) :
    P.cell g pE Ez (n + 1) x y =
      let r := P.cell g pE Ez n x y
      let e := debyeStep g.dt (P.mat.Cb g.dt) (Arr.ofList (P.mat.poles.map (·.kappa g.dt))).val (P.beta.val x y) (pE.val x y) n r.1 (r.2 n)
      (e.1, fun N : ℤ => if N = (n : ℤ) then e.2 else r.2 N) := rfl

/-- Loop state: cells in `D` are finished, the cell `(i, j)` has seen `n` poles. -/
def DebyePol.st (g : Grid K) (P : DebyePol K) (pE Ez : Tensor K) (D : Finset (ℤ × ℤ)) (i j : ℤ) (n : ℕ) : EJ K :=
  ⟨Ez.setv fun x y => if (x, y) ∈ D then (P.cell g pE Ez P.np.toNat x y).1
      else if x = i ∧ y = j then (P.cell g pE Ez n x y).1 else Ez.val x y,
   P.J.setv fun x y N => if (x, y) ∈ D then (P.cell g pE Ez P.np.toNat x y).2 N
      else if x = i ∧ y = j then (P.cell g pE Ez n x y).2 N else P.J.val x y N⟩

theorem DebyePol.st_step {g : Grid K} {P : DebyePol K} (hP : P.WF g.Nx g.Ny) {pE Ez : Tensor K} (hp : pE.Dim g.Nx g.Ny)
    (hE : Ez.Dim g.Nx g.Ny) (D : Finset (ℤ × ℤ)) {i j : ℤ} (hD : (i, j) ∉ D) (i0 : 0 ≤ i) (i1 : i < g.Nx) (j0 : 0 ≤ j)
    (j1 : j < g.Ny) (n : ℕ) (hn : (n : ℤ) < P.np) :
    debyeBody g.dt (P.mat.Cb g.dt) (Arr.ofList (P.mat.poles.map (·.kappa g.dt))) P.beta (some pE) i j n (P.st g pE Ez D i j n) =
      .ok (P.st g pE Ez D i j (n + 1)) := by
  obtain ⟨hnp, ⟨a1, a2, a3⟩, b1, b2, b3⟩ := hP
  obtain ⟨c1, c2⟩ := hp
  obtain ⟨d1, d2⟩ := hE
  have hk : (Arr.ofList (P.mat.poles.map (·.kappa g.dt))).n = P.np := by simp [hnp]
  have s1 : (P.st g pE Ez D i j n).Ez.nx = Ez.nx := rfl
  have s2 : (P.st g pE Ez D i j n).Ez.ny = Ez.ny := rfl
  have s3 : (P.st g pE Ez D i j n).J.nx = P.J.nx := rfl
  have s4 : (P.st g pE Ez D i j n).J.ny = P.J.ny := rfl
  have s5 : (P.st g pE Ez D i j n).J.nz = P.J.nz := rfl
  unfold debyeBody
  simp (disch := first | omega | (simp only [Tensor.setv_nx, Tensor.setv_ny]; omega)) only [Tensor.rd_in, Tensor.wr_in, Arr.rd_in, Tensor3.rd_in, Tensor3.wr_in, Except.ok_bind, Except.pure_eq, derefOpt]
  have v1 : (P.st g pE Ez D i j n).Ez.val i j = (P.cell g pE Ez n i j).1 := by simp [DebyePol.st, hD]
  have v2 : (P.st g pE Ez D i j n).J.val i j n = (P.cell g pE Ez n i j).2 n := by simp [DebyePol.st, hD]
  simp only [Tensor.setv_val, v1, v2]
  have e : ∀ {a a' : Tensor K} {b b' : Tensor3 K}, a = a' → b = b' → (Except.ok ⟨a, b⟩ : M (EJ K)) = .ok ⟨a', b'⟩ := by
    rintro _ _ _ _ rfl rfl; rfl
  refine e (Tensor.ext' rfl rfl fun x y => ?_) (Tensor3.ext' rfl rfl rfl fun x y N => ?_)
  · simp only [DebyePol.st, Tensor.setv_val]
    by_cases hx : x = i ∧ y = j
    · obtain ⟨rfl, rfl⟩ := hx
      simp only [hD, if_false, and_self, if_true, DebyePol.cell_succ, debyeStep]
    · simp only [hx, if_false]
  · simp only [DebyePol.st, Tensor3.setv_val]
    by_cases hx : x = i ∧ y = j
    · obtain ⟨rfl, rfl⟩ := hx
      simp only [hD, if_false, and_self, if_true, true_and, DebyePol.cell_succ, debyeStep]
    · have : ¬ (x = i ∧ y = j ∧ N = n) := fun h => hx ⟨h.1, h.2.1⟩
      simp only [hx, this, if_false]

/-- Closed form of `debye_polarization::update_J`. -/
theorem DebyePol.updateJ_closed {g : Grid K} {P : DebyePol K} (hP : P.WF g.Nx g.Ny) {pE Ez : Tensor K} (hp : pE.Dim g.Nx g.Ny)
    (hE : Ez.Dim g.Nx g.Ny) :
    P.updateJ g (some pE) Ez = .ok ({ P with
      J := P.J.setv fun x y N => if (x, y) ∈ rect 0 g.Nx 0 g.Ny then (P.cell g pE Ez P.np.toNat x y).2 N else P.J.val x y N },
      Ez.setv fun x y => if (x, y) ∈ rect 0 g.Nx 0 g.Ny then (P.cell g pE Ez P.np.toNat x y).1 else Ez.val x y) := by
  have key := forRange2_closed (fun D => (⟨Ez.setv fun x y => if (x, y) ∈ D then (P.cell g pE Ez P.np.toNat x y).1 else Ez.val x y,
      P.J.setv fun x y N => if (x, y) ∈ D then (P.cell g pE Ez P.np.toNat x y).2 N else P.J.val x y N⟩ : EJ K))
    0 g.Nx 0 g.Ny (fun i j s => forRange 0 P.np s (fun N s =>
      debyeBody g.dt (P.mat.Cb g.dt) (Arr.ofList (P.mat.poles.map (·.kappa g.dt))) P.beta (some pE) i j N s))
    (by
      intro i j i0 i1 j0 j1 D _ hD
      have h := forRange_seq (fun M => P.st g pE Ez D i j M.toNat) 0 P.np (by rw [hP.np]; positivity)
        (fun N s => debyeBody g.dt (P.mat.Cb g.dt) (Arr.ofList (P.mat.poles.map (·.kappa g.dt))) P.beta (some pE) i j N s)
        (by
          intro N n0 n1
          obtain ⟨n, rfl⟩ := Int.eq_ofNat_of_zero_le n0
          have := DebyePol.st_step hP hp hE D hD i0 i1 j0 j1 n n1
          simpa using this)
      have e0 : P.st g pE Ez D i j (0 : ℤ).toNat = ⟨Ez.setv fun x y => if (x, y) ∈ D then (P.cell g pE Ez P.np.toNat x y).1 else Ez.val x y,
          P.J.setv fun x y N => if (x, y) ∈ D then (P.cell g pE Ez P.np.toNat x y).2 N else P.J.val x y N⟩ := by
        unfold DebyePol.st
        congr 1
        · refine Tensor.ext' rfl rfl fun x y => ?_
          simp [DebyePol.cell, cellIter]
        · refine Tensor3.ext' rfl rfl rfl fun x y N => ?_
          simp [DebyePol.cell, cellIter]
      rw [e0] at h
      rw [h]
      refine congrArg Except.ok ?_
      unfold DebyePol.st
      congr 1
      · refine Tensor.ext' rfl rfl fun x y => ?_
        simp only [Tensor.setv_val, Finset.mem_insert, Prod.mk.injEq]
        by_cases hx : x = i ∧ y = j
        · obtain ⟨rfl, rfl⟩ := hx; simp [hD]
        · simp [hx]
      · refine Tensor3.ext' rfl rfl rfl fun x y N => ?_
        simp only [Tensor3.setv_val, Finset.mem_insert, Prod.mk.injEq]
        by_cases hx : x = i ∧ y = j
        · obtain ⟨rfl, rfl⟩ := hx; simp [hD]
        · simp [hx])
  have e1 : (⟨Ez.setv fun x y => if (x, y) ∈ (∅ : Finset (ℤ × ℤ)) then (P.cell g pE Ez P.np.toNat x y).1 else Ez.val x y,
      P.J.setv fun x y N => if (x, y) ∈ (∅ : Finset (ℤ × ℤ)) then (P.cell g pE Ez P.np.toNat x y).2 N else P.J.val x y N⟩ : EJ K) =
      ⟨Ez, P.J⟩ := by
    simp [Tensor.setv, Tensor3.setv]
  rw [e1] at key
  unfold DebyePol.updateJ
  simp only
  rw [key]
  rfl

/-- The cell of `drude_polarization::update_J` at `(x, y)` after `n` poles. -/
def DrudePol.cell (g : Grid K) (P : DrudePol K) (pE Ez : Tensor K) (n : ℕ) (x y : ℤ) : K × (ℤ → K) :=
  cellIter (drudeStep (P.mat.Cb g.dt) (Arr.ofList (P.mat.poles.map (·.kappa g.dt))).val (P.beta.val x y) (pE.val x y)) n
    (Ez.val x y, P.J.val x y)

theorem DrudePol.cell_succ (g : Grid K) (P : DrudePol K) (pE Ez : Tensor K) (n : ℕ) (x y : ℤ) :
    P.cell g pE Ez (n + 1) x y =
      let r := P.cell g pE Ez n x y
      let e := drudeStep (P.mat.Cb g.dt) (Arr.ofList (P.mat.poles.map (·.kappa g.dt))).val (P.beta.val x y) (pE.val x y) n r.1 (r.2 n)
      (e.1, fun N : ℤ => if N = (n : ℤ) then e.2 else r.2 N) := rfl

/-- Loop state: cells in `D` are finished, the cell `(i, j)` has seen `n` poles. -/
def DrudePol.st (g : Grid K) (P : DrudePol K) (pE Ez : Tensor K) (D : Finset (ℤ × ℤ)) (i j : ℤ) (n : ℕ) : EJ K :=
  ⟨Ez.setv fun x y => if (x, y) ∈ D then (P.cell g pE Ez P.np.toNat x y).1
      else if x = i ∧ y = j then (P.cell g pE Ez n x y).1 else Ez.val x y,
   P.J.setv fun x y N => if (x, y) ∈ D then (P.cell g pE Ez P.np.toNat x y).2 N
      else if x = i ∧ y = j then (P.cell g pE Ez n x y).2 N else P.J.val x y N⟩

theorem DrudePol.st_step {g : Grid K} {P : DrudePol K} (hP : P.WF g.Nx g.Ny) {pE Ez : Tensor K} (hp : pE.Dim g.Nx g.Ny)
    (hE : Ez.Dim g.Nx g.Ny) (D : Finset (ℤ × ℤ)) {i j : ℤ} (hD : (i, j) ∉ D) (i0 : 0 ≤ i) (i1 : i < g.Nx) (j0 : 0 ≤ j)
    (j1 : j < g.Ny) (n : ℕ) (hn : (n : ℤ) < P.np) :
    drudeBody (P.mat.Cb g.dt) (Arr.ofList (P.mat.poles.map (·.kappa g.dt))) P.beta (some pE) i j n (P.st g pE Ez D i j n) =
      .ok (P.st g pE Ez D i j (n + 1)) := by
  obtain ⟨hnp, ⟨a1, a2, a3⟩, b1, b2, b3⟩ := hP
  obtain ⟨c1, c2⟩ := hp
  obtain ⟨d1, d2⟩ := hE
  have hk : (Arr.ofList (P.mat.poles.map (·.kappa g.dt))).n = P.np := by simp [hnp]
  have s1 : (P.st g pE Ez D i j n).Ez.nx = Ez.nx := rfl
  have s2 : (P.st g pE Ez D i j n).Ez.ny = Ez.ny := rfl
  have s3 : (P.st g pE Ez D i j n).J.nx = P.J.nx := rfl
  have s4 : (P.st g pE Ez D i j n).J.ny = P.J.ny := rfl
  have s5 : (P.st g pE Ez D i j n).J.nz = P.J.nz := rfl
  unfold drudeBody
  simp (disch := first | omega | (simp only [Tensor.setv_nx, Tensor.setv_ny]; omega)) only [Tensor.rd_in, Tensor.wr_in, Arr.rd_in, Tensor3.rd_in, Tensor3.wr_in, Except.ok_bind, Except.pure_eq, derefOpt]
  have v1 : (P.st g pE Ez D i j n).Ez.val i j = (P.cell g pE Ez n i j).1 := by simp [DrudePol.st, hD]
  have v2 : (P.st g pE Ez D i j n).J.val i j n = (P.cell g pE Ez n i j).2 n := by simp [DrudePol.st, hD]
  simp only [Tensor.setv_val, v1, v2]
  have e : ∀ {a a' : Tensor K} {b b' : Tensor3 K}, a = a' → b = b' → (Except.ok ⟨a, b⟩ : M (EJ K)) = .ok ⟨a', b'⟩ := by
    rintro _ _ _ _ rfl rfl; rfl
  refine e (Tensor.ext' rfl rfl fun x y => ?_) (Tensor3.ext' rfl rfl rfl fun x y N => ?_)
  · simp only [DrudePol.st, Tensor.setv_val]
    by_cases hx : x = i ∧ y = j
    · obtain ⟨rfl, rfl⟩ := hx
      simp only [hD, if_false, and_self, if_true, DrudePol.cell_succ, drudeStep]
    · simp only [hx, if_false]
  · simp only [DrudePol.st, Tensor3.setv_val]
    by_cases hx : x = i ∧ y = j
    · obtain ⟨rfl, rfl⟩ := hx
      simp only [hD, if_false, and_self, if_true, true_and, DrudePol.cell_succ, drudeStep]
    · have : ¬ (x = i ∧ y = j ∧ N = n) := fun h => hx ⟨h.1, h.2.1⟩
      simp only [hx, this, if_false]

/-- Closed form of `drude_polarization::update_J`. -/
theorem DrudePol.updateJ_closed {g : Grid K} {P : DrudePol K} (hP : P.WF g.Nx g.Ny) {pE Ez : Tensor K} (hp : pE.Dim g.Nx g.Ny)
    (hE : Ez.Dim g.Nx g.Ny) :
    P.updateJ g (some pE) Ez = .ok ({ P with
      J := P.J.setv fun x y N => if (x, y) ∈ rect 0 g.Nx 0 g.Ny then (P.cell g pE Ez P.np.toNat x y).2 N else P.J.val x y N },
      Ez.setv fun x y => if (x, y) ∈ rect 0 g.Nx 0 g.Ny then (P.cell g pE Ez P.np.toNat x y).1 else Ez.val x y) := by
  have key := forRange2_closed (fun D => (⟨Ez.setv fun x y => if (x, y) ∈ D then (P.cell g pE Ez P.np.toNat x y).1 else Ez.val x y,
      P.J.setv fun x y N => if (x, y) ∈ D then (P.cell g pE Ez P.np.toNat x y).2 N else P.J.val x y N⟩ : EJ K))
    0 g.Nx 0 g.Ny (fun i j s => forRange 0 P.np s (fun N s =>
      drudeBody (P.mat.Cb g.dt) (Arr.ofList (P.mat.poles.map (·.kappa g.dt))) P.beta (some pE) i j N s))
    (by
      intro i j i0 i1 j0 j1 D _ hD
      have h := forRange_seq (fun M => P.st g pE Ez D i j M.toNat) 0 P.np (by rw [hP.np]; positivity)
        (fun N s => drudeBody (P.mat.Cb g.dt) (Arr.ofList (P.mat.poles.map (·.kappa g.dt))) P.beta (some pE) i j N s)
        (by
          intro N n0 n1
          obtain ⟨n, rfl⟩ := Int.eq_ofNat_of_zero_le n0
          have := DrudePol.st_step hP hp hE D hD i0 i1 j0 j1 n n1
          simpa using this)
      have e0 : P.st g pE Ez D i j (0 : ℤ).toNat = ⟨Ez.setv fun x y => if (x, y) ∈ D then (P.cell g pE Ez P.np.toNat x y).1 else Ez.val x y,
          P.J.setv fun x y N => if (x, y) ∈ D then (P.cell g pE Ez P.np.toNat x y).2 N else P.J.val x y N⟩ := by
        unfold DrudePol.st
        congr 1
        · refine Tensor.ext' rfl rfl fun x y => ?_
          simp [DrudePol.cell, cellIter]
        · refine Tensor3.ext' rfl rfl rfl fun x y N => ?_
          simp [DrudePol.cell, cellIter]
      rw [e0] at h
      rw [h]
      refine congrArg Except.ok ?_
      unfold DrudePol.st
      congr 1
      · refine Tensor.ext' rfl rfl fun x y => ?_
        simp only [Tensor.setv_val, Finset.mem_insert, Prod.mk.injEq]
        by_cases hx : x = i ∧ y = j
        · obtain ⟨rfl, rfl⟩ := hx; simp [hD]
        · simp [hx]
      · refine Tensor3.ext' rfl rfl rfl fun x y N => ?_
        simp only [Tensor3.setv_val, Finset.mem_insert, Prod.mk.injEq]
        by_cases hx : x = i ∧ y = j
        · obtain ⟨rfl, rfl⟩ := hx; simp [hD]
        · simp [hx])
  have e1 : (⟨Ez.setv fun x y => if (x, y) ∈ (∅ : Finset (ℤ × ℤ)) then (P.cell g pE Ez P.np.toNat x y).1 else Ez.val x y,
      P.J.setv fun x y N => if (x, y) ∈ (∅ : Finset (ℤ × ℤ)) then (P.cell g pE Ez P.np.toNat x y).2 N else P.J.val x y N⟩ : EJ K) =
      ⟨Ez, P.J⟩ := by
    simp [Tensor.setv, Tensor3.setv]
  rw [e1] at key
  unfold DrudePol.updateJ
  simp only
  rw [key]
  rfl

/-- The cell of `lorentz_polarization::update_J` at `(x, y)` after `n` poles. -/
def LorentzPol.cell (g : Grid K) (P : LorentzPol K) (pE Ez : Tensor K) (n : ℕ) (x y : ℤ) : K × (ℤ → K × K) :=
  cellIter (lorentzStep g.dt (P.mat.Cb g.dt) (P.mat.CaPrev g.dt) (Arr.ofList (P.mat.poles.map (·.alpha g.dt))).val
          (Arr.ofList (P.mat.poles.map (·.beta g.dt))).val (P.delta.val x y) (pE.val x y)) n
    (Ez.val x y, fun N => (P.J.val x y N, P.prevJ.val x y N))

theorem LorentzPol.cell_succ (g : Grid K) (P : LorentzPol K) (pE Ez : Tensor K) (n : ℕ) (x y : ℤ) :
    P.cell g pE Ez (n + 1) x y =
      let r := P.cell g pE Ez n x y
      let e := lorentzStep g.dt (P.mat.Cb g.dt) (P.mat.CaPrev g.dt) (Arr.ofList (P.mat.poles.map (·.alpha g.dt))).val
          (Arr.ofList (P.mat.poles.map (·.beta g.dt))).val (P.delta.val x y) (pE.val x y) n r.1 (r.2 n)
      (e.1, fun N : ℤ => if N = (n : ℤ) then e.2 else r.2 N) := rfl

/-- Loop state: cells in `D` are finished, the cell `(i, j)` has seen `n` poles. -/
def LorentzPol.st (g : Grid K) (P : LorentzPol K) (pE Ez : Tensor K) (D : Finset (ℤ × ℤ)) (i j : ℤ) (n : ℕ) : EJJ K :=
  ⟨Ez.setv fun x y => if (x, y) ∈ D then (P.cell g pE Ez P.np.toNat x y).1
      else if x = i ∧ y = j then (P.cell g pE Ez n x y).1 else Ez.val x y,
   P.J.setv fun x y N => if (x, y) ∈ D then ((P.cell g pE Ez P.np.toNat x y).2 N).1
      else if x = i ∧ y = j then ((P.cell g pE Ez n x y).2 N).1 else P.J.val x y N,
   P.prevJ.setv fun x y N => if (x, y) ∈ D then ((P.cell g pE Ez P.np.toNat x y).2 N).2
      else if x = i ∧ y = j then ((P.cell g pE Ez n x y).2 N).2 else P.prevJ.val x y N⟩

theorem LorentzPol.st_step {g : Grid K} {P : LorentzPol K} (hP : P.WF g.Nx g.Ny) {pE Ez : Tensor K} (hp : pE.Dim g.Nx g.Ny)
    (hE : Ez.Dim g.Nx g.Ny) (D : Finset (ℤ × ℤ)) {i j : ℤ} (hD : (i, j) ∉ D) (i0 : 0 ≤ i) (i1 : i < g.Nx) (j0 : 0 ≤ j)
    (j1 : j < g.Ny) (n : ℕ) (hn : (n : ℤ) < P.np) :
    lorentzBody g.dt (P.mat.Cb g.dt) (P.mat.CaPrev g.dt) (Arr.ofList (P.mat.poles.map (·.alpha g.dt)))
      (Arr.ofList (P.mat.poles.map (·.beta g.dt))) P.delta (some pE) i j n (P.st g pE Ez D i j n) =
      .ok (P.st g pE Ez D i j (n + 1)) := by
  obtain ⟨hnp, ⟨a1, a2, a3⟩, ⟨b1, b2, b3⟩, q1, q2, q3⟩ := hP
  obtain ⟨c1, c2⟩ := hp
  obtain ⟨d1, d2⟩ := hE
  have hk : (Arr.ofList (P.mat.poles.map (·.alpha g.dt))).n = P.np := by simp [hnp]
  have hk2 : (Arr.ofList (P.mat.poles.map (·.beta g.dt))).n = P.np := by simp [hnp]
  have s1 : (P.st g pE Ez D i j n).Ez.nx = Ez.nx := rfl
  have s2 : (P.st g pE Ez D i j n).Ez.ny = Ez.ny := rfl
  have s3 : (P.st g pE Ez D i j n).J.nx = P.J.nx := rfl
  have s4 : (P.st g pE Ez D i j n).J.ny = P.J.ny := rfl
  have s5 : (P.st g pE Ez D i j n).J.nz = P.J.nz := rfl
  have s6 : (P.st g pE Ez D i j n).prevJ.nx = P.prevJ.nx := rfl
  have s7 : (P.st g pE Ez D i j n).prevJ.ny = P.prevJ.ny := rfl
  have s8 : (P.st g pE Ez D i j n).prevJ.nz = P.prevJ.nz := rfl
  unfold lorentzBody
  simp (disch := first | omega | (simp only [Tensor.setv_nx, Tensor.setv_ny]; omega)) only [Tensor.rd_in, Tensor.wr_in, Arr.rd_in, Tensor3.rd_in, Tensor3.wr_in, Except.ok_bind, Except.pure_eq, derefOpt]
  have v1 : (P.st g pE Ez D i j n).Ez.val i j = (P.cell g pE Ez n i j).1 := by simp [LorentzPol.st, hD]
  have v2 : (P.st g pE Ez D i j n).J.val i j n = ((P.cell g pE Ez n i j).2 n).1 := by simp [LorentzPol.st, hD]
  have v3 : (P.st g pE Ez D i j n).prevJ.val i j n = ((P.cell g pE Ez n i j).2 n).2 := by simp [LorentzPol.st, hD]
  simp only [Tensor.setv_val, v1, v2, v3]
  have e : ∀ {a a' : Tensor K} {b b' d d' : Tensor3 K}, a = a' → b = b' → d = d' →
      (Except.ok ⟨a, b, d⟩ : M (EJJ K)) = .ok ⟨a', b', d'⟩ := by
    rintro _ _ _ _ _ _ rfl rfl rfl; rfl
  refine e (Tensor.ext' rfl rfl fun x y => ?_) (Tensor3.ext' rfl rfl rfl fun x y N => ?_)
    (Tensor3.ext' rfl rfl rfl fun x y N => ?_)
  · simp only [LorentzPol.st, Tensor.setv_val]
    by_cases hx : x = i ∧ y = j
    · obtain ⟨rfl, rfl⟩ := hx
      simp only [hD, if_false, and_self, if_true, LorentzPol.cell_succ, lorentzStep]
    · simp only [hx, if_false]
  · simp only [LorentzPol.st, Tensor3.setv_val]
    by_cases hx : x = i ∧ y = j
    · obtain ⟨rfl, rfl⟩ := hx
      simp only [hD, if_false, and_self, if_true, true_and, LorentzPol.cell_succ, lorentzStep]
      by_cases hN : N = n <;> simp [hN]
    · have : ¬ (x = i ∧ y = j ∧ N = n) := fun h => hx ⟨h.1, h.2.1⟩
      simp only [hx, this, if_false]
  · simp only [LorentzPol.st, Tensor3.setv_val]
    by_cases hx : x = i ∧ y = j
    · obtain ⟨rfl, rfl⟩ := hx
      simp only [hD, if_false, and_self, if_true, true_and, LorentzPol.cell_succ, lorentzStep]
      by_cases hN : N = n <;> simp [hN]
    · have : ¬ (x = i ∧ y = j ∧ N = n) := fun h => hx ⟨h.1, h.2.1⟩
      simp only [hx, this, if_false]

/-- Closed form of `lorentz_polarization::update_J`. -/
theorem LorentzPol.updateJ_closed {g : Grid K} {P : LorentzPol K} (hP : P.WF g.Nx g.Ny) {pE Ez : Tensor K} (hp : pE.Dim g.Nx g.Ny)
    (hE : Ez.Dim g.Nx g.Ny) :
    P.updateJ g (some pE) Ez = .ok ({ P with
      J := P.J.setv fun x y N => if (x, y) ∈ rect 0 g.Nx 0 g.Ny then ((P.cell g pE Ez P.np.toNat x y).2 N).1 else P.J.val x y N,
      prevJ := P.prevJ.setv fun x y N => if (x, y) ∈ rect 0 g.Nx 0 g.Ny then ((P.cell g pE Ez P.np.toNat x y).2 N).2 else P.prevJ.val x y N },
      Ez.setv fun x y => if (x, y) ∈ rect 0 g.Nx 0 g.Ny then (P.cell g pE Ez P.np.toNat x y).1 else Ez.val x y) := by
  have key := forRange2_closed (fun D => (⟨Ez.setv fun x y => if (x, y) ∈ D then (P.cell g pE Ez P.np.toNat x y).1 else Ez.val x y,
      P.J.setv fun x y N => if (x, y) ∈ D then ((P.cell g pE Ez P.np.toNat x y).2 N).1 else P.J.val x y N,
      P.prevJ.setv fun x y N => if (x, y) ∈ D then ((P.cell g pE Ez P.np.toNat x y).2 N).2 else P.prevJ.val x y N⟩ : EJJ K))
    0 g.Nx 0 g.Ny (fun i j s => forRange 0 P.np s (fun N s =>
      lorentzBody g.dt (P.mat.Cb g.dt) (P.mat.CaPrev g.dt) (Arr.ofList (P.mat.poles.map (·.alpha g.dt)))
      (Arr.ofList (P.mat.poles.map (·.beta g.dt))) P.delta (some pE) i j N s))
    (by
      intro i j i0 i1 j0 j1 D _ hD
      have h := forRange_seq (fun M => P.st g pE Ez D i j M.toNat) 0 P.np (by rw [hP.np]; positivity)
        (fun N s => lorentzBody g.dt (P.mat.Cb g.dt) (P.mat.CaPrev g.dt) (Arr.ofList (P.mat.poles.map (·.alpha g.dt)))
      (Arr.ofList (P.mat.poles.map (·.beta g.dt))) P.delta (some pE) i j N s)
        (by
          intro N n0 n1
          obtain ⟨n, rfl⟩ := Int.eq_ofNat_of_zero_le n0
          have := LorentzPol.st_step hP hp hE D hD i0 i1 j0 j1 n n1
          simpa using this)
      have e0 : P.st g pE Ez D i j (0 : ℤ).toNat = ⟨Ez.setv fun x y => if (x, y) ∈ D then (P.cell g pE Ez P.np.toNat x y).1 else Ez.val x y,
          P.J.setv fun x y N => if (x, y) ∈ D then ((P.cell g pE Ez P.np.toNat x y).2 N).1 else P.J.val x y N,
      P.prevJ.setv fun x y N => if (x, y) ∈ D then ((P.cell g pE Ez P.np.toNat x y).2 N).2 else P.prevJ.val x y N⟩ := by
        unfold LorentzPol.st
        congr 1
        · refine Tensor.ext' rfl rfl fun x y => ?_
          simp [LorentzPol.cell, cellIter]
        · refine Tensor3.ext' rfl rfl rfl fun x y N => ?_
          simp [LorentzPol.cell, cellIter]
        · refine Tensor3.ext' rfl rfl rfl fun x y N => ?_
          simp [LorentzPol.cell, cellIter]
      rw [e0] at h
      rw [h]
      refine congrArg Except.ok ?_
      unfold LorentzPol.st
      congr 1
      · refine Tensor.ext' rfl rfl fun x y => ?_
        simp only [Tensor.setv_val, Finset.mem_insert, Prod.mk.injEq]
        by_cases hx : x = i ∧ y = j
        · obtain ⟨rfl, rfl⟩ := hx; simp [hD]
        · simp [hx]
      · refine Tensor3.ext' rfl rfl rfl fun x y N => ?_
        simp only [Tensor3.setv_val, Finset.mem_insert, Prod.mk.injEq]
        by_cases hx : x = i ∧ y = j
        · obtain ⟨rfl, rfl⟩ := hx; simp [hD]
        · simp [hx]
      · refine Tensor3.ext' rfl rfl rfl fun x y N => ?_
        simp only [Tensor3.setv_val, Finset.mem_insert, Prod.mk.injEq]
        by_cases hx : x = i ∧ y = j
        · obtain ⟨rfl, rfl⟩ := hx; simp [hD]
        · simp [hx])
  have e1 : (⟨Ez.setv fun x y => if (x, y) ∈ (∅ : Finset (ℤ × ℤ)) then (P.cell g pE Ez P.np.toNat x y).1 else Ez.val x y,
      P.J.setv fun x y N => if (x, y) ∈ (∅ : Finset (ℤ × ℤ)) then ((P.cell g pE Ez P.np.toNat x y).2 N).1 else P.J.val x y N,
      P.prevJ.setv fun x y N => if (x, y) ∈ (∅ : Finset (ℤ × ℤ)) then ((P.cell g pE Ez P.np.toNat x y).2 N).2 else P.prevJ.val x y N⟩ : EJJ K) =
      ⟨Ez, P.J, P.prevJ⟩ := by
    simp [Tensor.setv, Tensor3.setv]
  rw [e1] at key
  unfold LorentzPol.updateJ
  simp only
  rw [key]
  rfl

end Qbox
