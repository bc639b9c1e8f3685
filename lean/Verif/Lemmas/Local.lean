import Verif.Lemmas.CoreOps
import Verif.Lemmas.PolCell
import Verif.Spec.LocalSpec

/-!
# Locality of every stage of `update()`, for any arithmetic
-/

namespace Qbox
open Scalar Spec

set_option linter.unusedSectionVars false
set_option linter.unusedSimpArgs false

variable {K : Type} [Scalar K]

/-- `S` is contained in `S1`. -/
theorem Spec.AgreeOn.mono {S S1 : ℤ → ℤ → Prop} (h : ∀ i j, S i j → S1 i j) {a b : Tensor K} (ha : AgreeOn S1 a b) : AgreeOn S a b :=
  fun i j hij => ha i j (h i j hij)

theorem Spec.AgreeOn3.mono {S S1 : ℤ → ℤ → Prop} (h : ∀ i j, S i j → S1 i j) {a b : Tensor3 K} (ha : AgreeOn3 S1 a b) : AgreeOn3 S a b :=
  fun i j hij => ha i j (h i j hij)

theorem Spec.OptAgree.mono {S S1 : ℤ → ℤ → Prop} (h : ∀ i j, S i j → S1 i j) : ∀ {a b : Option (Tensor K)}, OptAgree S1 a b → OptAgree S a b
  | none, none, _ => trivial
  | some _, some _, ha => AgreeOn.mono h ha
  | none, some _, ha => ha.elim
  | some _, none, ha => ha.elim

theorem Spec.DebyeAgree.mono {S S1 : ℤ → ℤ → Prop} (h : ∀ i j, S i j → S1 i j) {a b : DebyePol K} (ha : DebyeAgree S1 a b) :
    DebyeAgree S a b := ⟨ha.mat, ha.np, ha.J.mono h, ha.beta.mono h⟩
theorem Spec.DrudeAgree.mono {S S1 : ℤ → ℤ → Prop} (h : ∀ i j, S i j → S1 i j) {a b : DrudePol K} (ha : DrudeAgree S1 a b) :
    DrudeAgree S a b := ⟨ha.mat, ha.np, ha.J.mono h, ha.beta.mono h⟩
theorem Spec.LorentzAgree.mono {S S1 : ℤ → ℤ → Prop} (h : ∀ i j, S i j → S1 i j) {a b : LorentzPol K} (ha : LorentzAgree S1 a b) :
    LorentzAgree S a b := ⟨ha.mat, ha.np, ha.J.mono h, ha.prevJ.mono h, ha.delta.mono h⟩

theorem Spec.FldsAgree.mono {S S1 : ℤ → ℤ → Prop} (h : ∀ i j, S i j → S1 i j) {a b : Flds K} (ha : FldsAgree S1 a b) : FldsAgree S a b :=
  ⟨ha.Ez.mono h, ha.Hx.mono h, ha.Hy.mono h, ha.Ca.mono h, ha.Cb.mono h, ha.Da.mono h, ha.Db.mono h⟩

theorem Spec.PsiAgree.mono {S S1 : ℤ → ℤ → Prop} (h : ∀ i j, S i j → S1 i j) {Nx Ny : ℤ} {a b : PmlPsi K} (ha : PsiAgree S1 Nx Ny a b) :
    PsiAgree S Nx Ny a b :=
  ⟨ha.Ezx1.mono h, ha.Ezx2.mono fun _ _ => h _ _, ha.Hyx1.mono h, ha.Hyx2.mono fun _ _ => h _ _, ha.Ezy1.mono h,
    ha.Ezy2.mono fun _ _ => h _ _, ha.Hxy1.mono h, ha.Hxy2.mono fun _ _ => h _ _⟩

theorem Spec.Agree.mono {S S1 : ℤ → ℤ → Prop} (h : ∀ i j, S i j → S1 i j) {c d : Core K} (ha : Agree S1 c d) : Agree S c d where
  g := ha.g
  t := ha.t
  sc := ha.sc
  par := ha.par
  co := ha.co
  tfsf := ha.tfsf
  f := ha.f.mono h
  psi := ha.psi.mono h
  prevE := ha.prevE.mono h
  prev2E := ha.prev2E.mono h
  debye := ha.debye.imp fun _ _ hq => ⟨hq.1, hq.2.mono h⟩
  drude := ha.drude.imp fun _ _ hq => ⟨hq.1, hq.2.mono h⟩
  lorentz := ha.lorentz.imp fun _ _ hq => ⟨hq.1, hq.2.mono h⟩

theorem Spec.SrcAgree.mono {g : Grid K} {S S1 : ℤ → ℤ → Prop} (h : ∀ i j, S i j → S1 i j) {l l' : List (Source K)} (ha : SrcAgree g S1 l l') :
    SrcAgree g S l l' := by
  induction ha with
  | nil => exact .nil
  | both s _ ih => exact .both s ih
  | left s hs _ ih => exact .left s (fun C i j hij => hs C i j (h i j hij)) ih
  | right s hs _ ih => exact .right s (fun C i j hij => hs C i j (h i j hij)) ih

/-! ## Main loops -/

theorem ezUpd_local {S S1 : ℤ → ℤ → Prop} (h0 : ∀ i j, S i j → S1 i j) (hx : ∀ i j, S i j → S1 (i - 1) j) (hy : ∀ i j, S i j → S1 i (j - 1))
    {f f' : Flds K} (hf : FldsAgree S1 f f') (sc : Scaling K) (D : Finset (ℤ × ℤ)) :
    AgreeOn S (f.Ez.upd D (ezVal f sc)) (f'.Ez.upd D (ezVal f' sc)) := by
  intro i j h
  simp only [Tensor.upd_val, ezVal]
  rw [hf.Ez i j (h0 i j h), hf.Ca i j (h0 i j h), hf.Cb i j (h0 i j h), hf.Hy i j (h0 i j h), hf.Hx i j (h0 i j h),
    hf.Hy _ _ (hx i j h), hf.Hx _ _ (hy i j h)]

theorem hUpd_local {S S1 : ℤ → ℤ → Prop} (h0 : ∀ i j, S i j → S1 i j) (hx : ∀ i j, S i j → S1 (i + 1) j) (hy : ∀ i j, S i j → S1 i (j + 1))
    {f f' : Flds K} (hf : FldsAgree S1 f f') (sc : Scaling K) (D : Finset (ℤ × ℤ)) :
    AgreeOn S (f.Hx.upd D (hxVal f sc)) (f'.Hx.upd D (hxVal f' sc)) ∧
    AgreeOn S (f.Hy.upd D (hyVal f sc)) (f'.Hy.upd D (hyVal f' sc)) := by
  constructor
  · intro i j h
    simp only [Tensor.upd_val, hxVal]
    rw [hf.Ez i j (h0 i j h), hf.Da i j (h0 i j h), hf.Db i j (h0 i j h), hf.Hx i j (h0 i j h), hf.Ez _ _ (hy i j h)]
  · intro i j h
    simp only [Tensor.upd_val, hyVal]
    rw [hf.Ez i j (h0 i j h), hf.Da i j (h0 i j h), hf.Db i j (h0 i j h), hf.Hy i j (h0 i j h), hf.Ez _ _ (hx i j h)]

/-! ## Absorbing layer -/

/-- Agreement of the loop states: the second auxiliary array belongs to the node `mir i j`. -/
def Psi2.Rel (S : ℤ → ℤ → Prop) (mir : ℤ → ℤ → ℤ × ℤ) (a b Nx Ny : ℤ) (s t : Psi2 K) : Prop :=
  s.Dims a b Nx Ny ∧ t.Dims a b Nx Ny ∧ AgreeOn S s.p1 t.p1 ∧ AgreeOn (fun i j => S (mir i j).1 (mir i j).2) s.p2 t.p2 ∧
    AgreeOn S s.F t.F

theorem Spec.AgreeOn.setv {S : ℤ → ℤ → Prop} {a b : Tensor K} (h : AgreeOn S a b) {i j : ℤ} {u v : K} (huv : S i j → u = v) :
    AgreeOn S (a.setv fun x y => if x = i ∧ y = j then u else a.val x y) (b.setv fun x y => if x = i ∧ y = j then v else b.val x y) := by
  intro x y hxy
  simp only [Tensor.setv_val]
  split_ifs with he
  · obtain ⟨rfl, rfl⟩ := he; exact huv hxy
  · exact h x y hxy

theorem Spec.AgreeOn.setv2 {S : ℤ → ℤ → Prop} {a b : Tensor K} (h : AgreeOn S a b) {i j m n : ℤ} {u v u2 v2 : K} (huv : S i j → u = v)
    (huv2 : AgreeOn S (a.setv fun x y => if x = i ∧ y = j then u else a.val x y) (b.setv fun x y => if x = i ∧ y = j then v else b.val x y) →
      S m n → u2 = v2) :
    AgreeOn S ((a.setv fun x y => if x = i ∧ y = j then u else a.val x y).setv fun x y => if x = m ∧ y = n then u2
        else (a.setv fun x y => if x = i ∧ y = j then u else a.val x y).val x y)
      ((b.setv fun x y => if x = i ∧ y = j then v else b.val x y).setv fun x y => if x = m ∧ y = n then v2
        else (b.setv fun x y => if x = i ∧ y = j then v else b.val x y).val x y) :=
  Spec.AgreeOn.setv (Spec.AgreeOn.setv h huv) (huv2 (Spec.AgreeOn.setv h huv))

theorem and3 {A B C : Prop} (a : A) (b : B) (c : A → B → C) : A ∧ B ∧ C := ⟨a, b, c a b⟩

theorem lin_congr {a a' b b' c c' d d' e e' x : K} (ha : a = a') (hb : b = b') (hc : c = c') (hd : d = d') (he : e = e') :
    a * b + c * (d - e) / x = a' * b' + c' * (d' - e') / x := by rw [ha, hb, hc, hd, he]
theorem sub_congr' {a a' b b' c c' : K} (ha : a = a') (hb : b = b') (hc : c = c') : a - b * c = a' - b' * c' := by rw [ha, hb, hc]
theorem add_congr' {a a' b b' c c' : K} (ha : a = a') (hb : b = b') (hc : c = c') : a + b * c = a' + b' * c' := by rw [ha, hb, hc]

/-- One entry of the array changed. -/
def put (a : Tensor K) (i j : ℤ) (v : K) : Tensor K := a.setv fun x y => if x = i ∧ y = j then v else a.val x y

theorem put_agree {S : ℤ → ℤ → Prop} {a b : Tensor K} (h : AgreeOn S a b) {i j : ℤ} {u v : K} (huv : S i j → u = v) : AgreeOn S (put a i j u) (put b i j v) :=
  Spec.AgreeOn.setv h huv

/-- The result of the loop bodies of the layer: `u` and `v` are the new entries of the auxiliary arrays, `op` adds or subtracts. -/
def psiNext (op : K → K → K) (C : Tensor K) (i j m n : ℤ) (u v : K) (s : Psi2 K) : Psi2 K :=
  ⟨put s.p1 i j u, put s.p2 i j v, put (put s.F i j (op (s.F.val i j) (C.val i j * (put s.p1 i j u).val i j))) m n
    (op ((put s.F i j (op (s.F.val i j) (C.val i j * (put s.p1 i j u).val i j))).val m n) (C.val m n * (put s.p2 i j v).val i j))⟩

theorem pmlEyBody_in {be ce : Arr K} {dx : K} {Nx Ny T : ℤ} {E C : Tensor K} (hN : T + 2 ≤ Ny) (hb : be.n = Ny) (hc : ce.n = Ny) (hS : E.Dim Nx Ny)
    (hC : C.Dim Nx Ny) (i j : ℤ) (h1 : 1 ≤ i) (h2 : i < Nx - 1) (h3 : 1 ≤ j) (h4 : j < T + 1) (s : Psi2 K) (hs : s.Dims Nx (T + 1) Nx Ny) :
    pmlEyBody be ce dx (Ny - 1) E C i j s = .ok (psiNext (fun a b => a - b) C i j i (Ny - 1 - j) (be.val j * s.p1.val i j + ce.val j * (E.val i j - E.val i (j - 1)) / dx)
      (be.val j * s.p2.val i j + ce.val j * (E.val i (Ny - 1 - j) - E.val i (Ny - 1 - j - 1)) / dx) s) := by
  obtain ⟨e1, e1'⟩ := hS
  obtain ⟨e2, e2'⟩ := hC
  obtain ⟨⟨e3, e3'⟩, ⟨e4, e4'⟩, ⟨e5, e5'⟩⟩ := hs
  have w1 : ∀ v, s.p1.wr i j v = .ok (put s.p1 i j v) := fun v => Tensor.wr_in (by omega) (by omega) (by omega) (by omega)
  have w2 : ∀ v, s.p2.wr i j v = .ok (put s.p2 i j v) := fun v => Tensor.wr_in (by omega) (by omega) (by omega) (by omega)
  have w3 : ∀ v, s.F.wr i j v = .ok (put s.F i j v) := fun v => Tensor.wr_in (by omega) (by omega) (by omega) (by omega)
  have w4 : ∀ u v, (put s.F i j u).wr i (Ny - 1 - j) v = .ok (put (put s.F i j u) i (Ny - 1 - j) v) := fun u v =>
    Tensor.wr_in (by omega) (show _ < s.F.nx by omega) (by omega) (show _ < s.F.ny by omega)
  have r1 : be.rd j = .ok (be.val j) := Arr.rd_in (by omega) (by omega)
  have r2 : ce.rd j = .ok (ce.val j) := Arr.rd_in (by omega) (by omega)
  have r3 : E.rd i j = .ok (E.val i j) := Tensor.rd_in (by omega) (by omega) (by omega) (by omega)
  have r4 : E.rd i (j - 1) = .ok (E.val i (j - 1)) := Tensor.rd_in (by omega) (by omega) (by omega) (by omega)
  have r5 : E.rd i (Ny - 1 - j) = .ok (E.val i (Ny - 1 - j)) := Tensor.rd_in (by omega) (by omega) (by omega) (by omega)
  have r6 : E.rd i (Ny - 1 - j - 1) = .ok (E.val i (Ny - 1 - j - 1)) := Tensor.rd_in (by omega) (by omega) (by omega) (by omega)
  have r7 : s.p1.rd i j = .ok (s.p1.val i j) := Tensor.rd_in (by omega) (by omega) (by omega) (by omega)
  have r8 : s.p2.rd i j = .ok (s.p2.val i j) := Tensor.rd_in (by omega) (by omega) (by omega) (by omega)
  have r9 : s.F.rd i j = .ok (s.F.val i j) := Tensor.rd_in (by omega) (by omega) (by omega) (by omega)
  have t1 : C.rd i j = .ok (C.val i j) := Tensor.rd_in (by omega) (by omega) (by omega) (by omega)
  have t2 : C.rd i (Ny - 1 - j) = .ok (C.val i (Ny - 1 - j)) := Tensor.rd_in (by omega) (by omega) (by omega) (by omega)
  have t3 : ∀ v, (put s.p1 i j v).rd i j = .ok ((put s.p1 i j v).val i j) := fun v =>
    Tensor.rd_in (by omega) (show _ < s.p1.nx by omega) (by omega) (show _ < s.p1.ny by omega)
  have t4 : ∀ v, (put s.p2 i j v).rd i j = .ok ((put s.p2 i j v).val i j) := fun v =>
    Tensor.rd_in (by omega) (show _ < s.p2.nx by omega) (by omega) (show _ < s.p2.ny by omega)
  have t5 : ∀ v, (put s.F i j v).rd i (Ny - 1 - j) = .ok ((put s.F i j v).val i (Ny - 1 - j)) := fun v =>
    Tensor.rd_in (by omega) (show _ < s.F.nx by omega) (by omega) (show _ < s.F.ny by omega)
  unfold pmlEyBody
  simp only [w1, w2, w3, w4, r1, r2, r3, r4, r5, r6, r7, r8, r9, t1, t2, t3, t4, t5, Except.ok_bind, Except.pure_eq]
  rfl

theorem pmlExBody_in {be ce : Arr K} {dx : K} {Nx Ny T : ℤ} {E C : Tensor K} (hN : T + 2 ≤ Nx) (hb : be.n = Nx) (hc : ce.n = Nx) (hS : E.Dim Nx Ny)
    (hC : C.Dim Nx Ny) (i j : ℤ) (h1 : 1 ≤ i) (h2 : i < T + 1) (h3 : 1 ≤ j) (h4 : j < Ny - 1) (s : Psi2 K) (hs : s.Dims (T + 1) Ny Nx Ny) :
    pmlExBody be ce dx (Nx - 1) E C i j s = .ok (psiNext (fun a b => a + b) C i j (Nx - 1 - i) j (be.val i * s.p1.val i j + ce.val i * (E.val i j - E.val (i - 1) j) / dx)
      (be.val i * s.p2.val i j + ce.val i * (E.val (Nx - 1 - i) j - E.val (Nx - 1 - i - 1) j) / dx) s) := by
  obtain ⟨e1, e1'⟩ := hS
  obtain ⟨e2, e2'⟩ := hC
  obtain ⟨⟨e3, e3'⟩, ⟨e4, e4'⟩, ⟨e5, e5'⟩⟩ := hs
  have w1 : ∀ v, s.p1.wr i j v = .ok (put s.p1 i j v) := fun v => Tensor.wr_in (by omega) (by omega) (by omega) (by omega)
  have w2 : ∀ v, s.p2.wr i j v = .ok (put s.p2 i j v) := fun v => Tensor.wr_in (by omega) (by omega) (by omega) (by omega)
  have w3 : ∀ v, s.F.wr i j v = .ok (put s.F i j v) := fun v => Tensor.wr_in (by omega) (by omega) (by omega) (by omega)
  have w4 : ∀ u v, (put s.F i j u).wr (Nx - 1 - i) j v = .ok (put (put s.F i j u) (Nx - 1 - i) j v) := fun u v =>
    Tensor.wr_in (by omega) (show _ < s.F.nx by omega) (by omega) (show _ < s.F.ny by omega)
  have r1 : be.rd i = .ok (be.val i) := Arr.rd_in (by omega) (by omega)
  have r2 : ce.rd i = .ok (ce.val i) := Arr.rd_in (by omega) (by omega)
  have r3 : E.rd i j = .ok (E.val i j) := Tensor.rd_in (by omega) (by omega) (by omega) (by omega)
  have r4 : E.rd (i - 1) j = .ok (E.val (i - 1) j) := Tensor.rd_in (by omega) (by omega) (by omega) (by omega)
  have r5 : E.rd (Nx - 1 - i) j = .ok (E.val (Nx - 1 - i) j) := Tensor.rd_in (by omega) (by omega) (by omega) (by omega)
  have r6 : E.rd (Nx - 1 - i - 1) j = .ok (E.val (Nx - 1 - i - 1) j) := Tensor.rd_in (by omega) (by omega) (by omega) (by omega)
  have r7 : s.p1.rd i j = .ok (s.p1.val i j) := Tensor.rd_in (by omega) (by omega) (by omega) (by omega)
  have r8 : s.p2.rd i j = .ok (s.p2.val i j) := Tensor.rd_in (by omega) (by omega) (by omega) (by omega)
  have r9 : s.F.rd i j = .ok (s.F.val i j) := Tensor.rd_in (by omega) (by omega) (by omega) (by omega)
  have t1 : C.rd i j = .ok (C.val i j) := Tensor.rd_in (by omega) (by omega) (by omega) (by omega)
  have t2 : C.rd (Nx - 1 - i) j = .ok (C.val (Nx - 1 - i) j) := Tensor.rd_in (by omega) (by omega) (by omega) (by omega)
  have t3 : ∀ v, (put s.p1 i j v).rd i j = .ok ((put s.p1 i j v).val i j) := fun v =>
    Tensor.rd_in (by omega) (show _ < s.p1.nx by omega) (by omega) (show _ < s.p1.ny by omega)
  have t4 : ∀ v, (put s.p2 i j v).rd i j = .ok ((put s.p2 i j v).val i j) := fun v =>
    Tensor.rd_in (by omega) (show _ < s.p2.nx by omega) (by omega) (show _ < s.p2.ny by omega)
  have t5 : ∀ v, (put s.F i j v).rd (Nx - 1 - i) j = .ok ((put s.F i j v).val (Nx - 1 - i) j) := fun v =>
    Tensor.rd_in (by omega) (show _ < s.F.nx by omega) (by omega) (show _ < s.F.ny by omega)
  unfold pmlExBody
  simp only [w1, w2, w3, w4, r1, r2, r3, r4, r5, r6, r7, r8, r9, t1, t2, t3, t4, t5, Except.ok_bind, Except.pure_eq]
  rfl

theorem pmlHyBody_in {be ce : Arr K} {dx : K} {Nx Ny T : ℤ} {E C : Tensor K} (hN : T + 2 ≤ Ny) (hb : be.n = Ny) (hc : ce.n = Ny) (hS : E.Dim Nx Ny)
    (hC : C.Dim Nx Ny) (i j : ℤ) (h1 : 1 ≤ i) (h2 : i < Nx - 1) (h3 : 1 ≤ j) (h4 : j < T) (s : Psi2 K) (hs : s.Dims Nx (T + 1) Nx Ny) :
    pmlHyBody be ce dx (Ny - 1) E C i j s = .ok (psiNext (fun a b => a - b) C i j i (Ny - 1 - j - 1) (be.val j * s.p1.val i j + ce.val j * (E.val i (j + 1) - E.val i j) / dx)
      (be.val j * s.p2.val i j + ce.val j * (E.val i (Ny - 1 - j) - E.val i (Ny - 1 - j - 1)) / dx) s) := by
  obtain ⟨e1, e1'⟩ := hS
  obtain ⟨e2, e2'⟩ := hC
  obtain ⟨⟨e3, e3'⟩, ⟨e4, e4'⟩, ⟨e5, e5'⟩⟩ := hs
  have w1 : ∀ v, s.p1.wr i j v = .ok (put s.p1 i j v) := fun v => Tensor.wr_in (by omega) (by omega) (by omega) (by omega)
  have w2 : ∀ v, s.p2.wr i j v = .ok (put s.p2 i j v) := fun v => Tensor.wr_in (by omega) (by omega) (by omega) (by omega)
  have w3 : ∀ v, s.F.wr i j v = .ok (put s.F i j v) := fun v => Tensor.wr_in (by omega) (by omega) (by omega) (by omega)
  have w4 : ∀ u v, (put s.F i j u).wr i (Ny - 1 - j - 1) v = .ok (put (put s.F i j u) i (Ny - 1 - j - 1) v) := fun u v =>
    Tensor.wr_in (by omega) (show _ < s.F.nx by omega) (by omega) (show _ < s.F.ny by omega)
  have r1 : be.rd j = .ok (be.val j) := Arr.rd_in (by omega) (by omega)
  have r2 : ce.rd j = .ok (ce.val j) := Arr.rd_in (by omega) (by omega)
  have r3 : E.rd i (j + 1) = .ok (E.val i (j + 1)) := Tensor.rd_in (by omega) (by omega) (by omega) (by omega)
  have r4 : E.rd i j = .ok (E.val i j) := Tensor.rd_in (by omega) (by omega) (by omega) (by omega)
  have r5 : E.rd i (Ny - 1 - j) = .ok (E.val i (Ny - 1 - j)) := Tensor.rd_in (by omega) (by omega) (by omega) (by omega)
  have r6 : E.rd i (Ny - 1 - j - 1) = .ok (E.val i (Ny - 1 - j - 1)) := Tensor.rd_in (by omega) (by omega) (by omega) (by omega)
  have r7 : s.p1.rd i j = .ok (s.p1.val i j) := Tensor.rd_in (by omega) (by omega) (by omega) (by omega)
  have r8 : s.p2.rd i j = .ok (s.p2.val i j) := Tensor.rd_in (by omega) (by omega) (by omega) (by omega)
  have r9 : s.F.rd i j = .ok (s.F.val i j) := Tensor.rd_in (by omega) (by omega) (by omega) (by omega)
  have t1 : C.rd i j = .ok (C.val i j) := Tensor.rd_in (by omega) (by omega) (by omega) (by omega)
  have t2 : C.rd i (Ny - 1 - j - 1) = .ok (C.val i (Ny - 1 - j - 1)) := Tensor.rd_in (by omega) (by omega) (by omega) (by omega)
  have t3 : ∀ v, (put s.p1 i j v).rd i j = .ok ((put s.p1 i j v).val i j) := fun v =>
    Tensor.rd_in (by omega) (show _ < s.p1.nx by omega) (by omega) (show _ < s.p1.ny by omega)
  have t4 : ∀ v, (put s.p2 i j v).rd i j = .ok ((put s.p2 i j v).val i j) := fun v =>
    Tensor.rd_in (by omega) (show _ < s.p2.nx by omega) (by omega) (show _ < s.p2.ny by omega)
  have t5 : ∀ v, (put s.F i j v).rd i (Ny - 1 - j - 1) = .ok ((put s.F i j v).val i (Ny - 1 - j - 1)) := fun v =>
    Tensor.rd_in (by omega) (show _ < s.F.nx by omega) (by omega) (show _ < s.F.ny by omega)
  unfold pmlHyBody
  simp only [w1, w2, w3, w4, r1, r2, r3, r4, r5, r6, r7, r8, r9, t1, t2, t3, t4, t5, Except.ok_bind, Except.pure_eq]
  rfl

theorem pmlHxBody_in {be ce : Arr K} {dx : K} {Nx Ny T : ℤ} {E C : Tensor K} (hN : T + 2 ≤ Nx) (hb : be.n = Nx) (hc : ce.n = Nx) (hS : E.Dim Nx Ny)
    (hC : C.Dim Nx Ny) (i j : ℤ) (h1 : 1 ≤ i) (h2 : i < T) (h3 : 1 ≤ j) (h4 : j < Ny - 1) (s : Psi2 K) (hs : s.Dims (T + 1) Ny Nx Ny) :
    pmlHxBody be ce dx (Nx - 1) E C i j s = .ok (psiNext (fun a b => a + b) C i j (Nx - 1 - i - 1) j (be.val i * s.p1.val i j + ce.val i * (E.val (i + 1) j - E.val i j) / dx)
      (be.val i * s.p2.val i j + ce.val i * (E.val (Nx - 1 - i) j - E.val (Nx - 1 - i - 1) j) / dx) s) := by
  obtain ⟨e1, e1'⟩ := hS
  obtain ⟨e2, e2'⟩ := hC
  obtain ⟨⟨e3, e3'⟩, ⟨e4, e4'⟩, ⟨e5, e5'⟩⟩ := hs
  have w1 : ∀ v, s.p1.wr i j v = .ok (put s.p1 i j v) := fun v => Tensor.wr_in (by omega) (by omega) (by omega) (by omega)
  have w2 : ∀ v, s.p2.wr i j v = .ok (put s.p2 i j v) := fun v => Tensor.wr_in (by omega) (by omega) (by omega) (by omega)
  have w3 : ∀ v, s.F.wr i j v = .ok (put s.F i j v) := fun v => Tensor.wr_in (by omega) (by omega) (by omega) (by omega)
  have w4 : ∀ u v, (put s.F i j u).wr (Nx - 1 - i - 1) j v = .ok (put (put s.F i j u) (Nx - 1 - i - 1) j v) := fun u v =>
    Tensor.wr_in (by omega) (show _ < s.F.nx by omega) (by omega) (show _ < s.F.ny by omega)
  have r1 : be.rd i = .ok (be.val i) := Arr.rd_in (by omega) (by omega)
  have r2 : ce.rd i = .ok (ce.val i) := Arr.rd_in (by omega) (by omega)
  have r3 : E.rd (i + 1) j = .ok (E.val (i + 1) j) := Tensor.rd_in (by omega) (by omega) (by omega) (by omega)
  have r4 : E.rd i j = .ok (E.val i j) := Tensor.rd_in (by omega) (by omega) (by omega) (by omega)
  have r5 : E.rd (Nx - 1 - i) j = .ok (E.val (Nx - 1 - i) j) := Tensor.rd_in (by omega) (by omega) (by omega) (by omega)
  have r6 : E.rd (Nx - 1 - i - 1) j = .ok (E.val (Nx - 1 - i - 1) j) := Tensor.rd_in (by omega) (by omega) (by omega) (by omega)
  have r7 : s.p1.rd i j = .ok (s.p1.val i j) := Tensor.rd_in (by omega) (by omega) (by omega) (by omega)
  have r8 : s.p2.rd i j = .ok (s.p2.val i j) := Tensor.rd_in (by omega) (by omega) (by omega) (by omega)
  have r9 : s.F.rd i j = .ok (s.F.val i j) := Tensor.rd_in (by omega) (by omega) (by omega) (by omega)
  have t1 : C.rd i j = .ok (C.val i j) := Tensor.rd_in (by omega) (by omega) (by omega) (by omega)
  have t2 : C.rd (Nx - 1 - i - 1) j = .ok (C.val (Nx - 1 - i - 1) j) := Tensor.rd_in (by omega) (by omega) (by omega) (by omega)
  have t3 : ∀ v, (put s.p1 i j v).rd i j = .ok ((put s.p1 i j v).val i j) := fun v =>
    Tensor.rd_in (by omega) (show _ < s.p1.nx by omega) (by omega) (show _ < s.p1.ny by omega)
  have t4 : ∀ v, (put s.p2 i j v).rd i j = .ok ((put s.p2 i j v).val i j) := fun v =>
    Tensor.rd_in (by omega) (show _ < s.p2.nx by omega) (by omega) (show _ < s.p2.ny by omega)
  have t5 : ∀ v, (put s.F i j v).rd (Nx - 1 - i - 1) j = .ok ((put s.F i j v).val (Nx - 1 - i - 1) j) := fun v =>
    Tensor.rd_in (by omega) (show _ < s.F.nx by omega) (by omega) (show _ < s.F.ny by omega)
  unfold pmlHxBody
  simp only [w1, w2, w3, w4, r1, r2, r3, r4, r5, r6, r7, r8, r9, t1, t2, t3, t4, t5, Except.ok_bind, Except.pure_eq]
  rfl

theorem pmlEyBody_local {S S1 : ℤ → ℤ → Prop} (h0 : ∀ i j, S i j → S1 i j) (hy : ∀ i j, S i j → S1 i (j - 1)) {be ce : Arr K} {dx : K}
    {Nx Ny T : ℤ} {Hx Hx' Cb Cb' : Tensor K} (hN : T + 2 ≤ Ny) (hb : be.n = Ny) (hc : ce.n = Ny) (hS : Hx.Dim Nx Ny)
    (hS' : Hx'.Dim Nx Ny) (hC : Cb.Dim Nx Ny) (hC' : Cb'.Dim Nx Ny) (aS : AgreeOn S1 Hx Hx') (aC : AgreeOn S Cb Cb')
    (i j : ℤ) (h1 : 1 ≤ i) (h2 : i < Nx - 1) (h3 : 1 ≤ j) (h4 : j < T + 1) (s t : Psi2 K)
    (hst : Psi2.Rel S (fun i j => (i, Ny - 1 - j)) Nx (T + 1) Nx Ny s t) :
    ∃ s' t', pmlEyBody be ce dx (Ny - 1) Hx Cb i j s = .ok s' ∧ pmlEyBody be ce dx (Ny - 1) Hx' Cb' i j t = .ok t' ∧
      Psi2.Rel S (fun i j => (i, Ny - 1 - j)) Nx (T + 1) Nx Ny s' t' := by
  obtain ⟨D, D', r1, r2, r3⟩ := hst
  refine ⟨_, _, pmlEyBody_in hN hb hc hS hC i j h1 h2 h3 h4 s D, pmlEyBody_in hN hb hc hS' hC' i j h1 h2 h3 h4 t D', ⟨D.1, D.2.1, D.2.2⟩, ⟨D'.1, D'.2.1, D'.2.2⟩, ?_⟩
  refine and3 ?_ ?_ ?_
  · exact Spec.AgreeOn.setv r1 fun h => lin_congr rfl (r1 i j h) rfl (aS _ _ (h0 _ _ h)) (aS _ _ (hy _ _ h))
  · exact Spec.AgreeOn.setv r2 fun h => lin_congr rfl (r2 i j h) rfl (aS _ _ (h0 _ _ h)) (aS _ _ (hy _ _ h))
  · intro a1 a2
    exact Spec.AgreeOn.setv2 r3 (fun h => sub_congr' (r3 i j h) (aC i j h) (a1 i j h))
      (fun a3 h => sub_congr' (a3 _ _ h) (aC _ _ h) (a2 i j h))

theorem pmlExBody_local {S S1 : ℤ → ℤ → Prop} (h0 : ∀ i j, S i j → S1 i j) (hx : ∀ i j, S i j → S1 (i - 1) j) {be ce : Arr K} {dx : K}
    {Nx Ny T : ℤ} {Hy Hy' Cb Cb' : Tensor K} (hN : T + 2 ≤ Nx) (hb : be.n = Nx) (hc : ce.n = Nx) (hS : Hy.Dim Nx Ny)
    (hS' : Hy'.Dim Nx Ny) (hC : Cb.Dim Nx Ny) (hC' : Cb'.Dim Nx Ny) (aS : AgreeOn S1 Hy Hy') (aC : AgreeOn S Cb Cb')
    (i j : ℤ) (h1 : 1 ≤ i) (h2 : i < T + 1) (h3 : 1 ≤ j) (h4 : j < Ny - 1) (s t : Psi2 K)
    (hst : Psi2.Rel S (fun i j => (Nx - 1 - i, j)) (T + 1) Ny Nx Ny s t) :
    ∃ s' t', pmlExBody be ce dx (Nx - 1) Hy Cb i j s = .ok s' ∧ pmlExBody be ce dx (Nx - 1) Hy' Cb' i j t = .ok t' ∧
      Psi2.Rel S (fun i j => (Nx - 1 - i, j)) (T + 1) Ny Nx Ny s' t' := by
  obtain ⟨D, D', r1, r2, r3⟩ := hst
  refine ⟨_, _, pmlExBody_in hN hb hc hS hC i j h1 h2 h3 h4 s D, pmlExBody_in hN hb hc hS' hC' i j h1 h2 h3 h4 t D', ⟨D.1, D.2.1, D.2.2⟩, ⟨D'.1, D'.2.1, D'.2.2⟩, ?_⟩
  refine and3 ?_ ?_ ?_
  · exact Spec.AgreeOn.setv r1 fun h => lin_congr rfl (r1 i j h) rfl (aS _ _ (h0 _ _ h)) (aS _ _ (hx _ _ h))
  · exact Spec.AgreeOn.setv r2 fun h => lin_congr rfl (r2 i j h) rfl (aS _ _ (h0 _ _ h)) (aS _ _ (hx _ _ h))
  · intro a1 a2
    exact Spec.AgreeOn.setv2 r3 (fun h => add_congr' (r3 i j h) (aC i j h) (a1 i j h))
      (fun a3 h => add_congr' (a3 _ _ h) (aC _ _ h) (a2 i j h))

theorem pmlHyBody_local {S S1 : ℤ → ℤ → Prop} (h0 : ∀ i j, S i j → S1 i j) (hy : ∀ i j, S i j → S1 i (j + 1)) {bh ch : Arr K} {dx : K}
    {Nx Ny T : ℤ} {Ez Ez' Db Db' : Tensor K} (hN : T + 2 ≤ Ny) (hb : bh.n = Ny) (hc : ch.n = Ny) (hS : Ez.Dim Nx Ny)
    (hS' : Ez'.Dim Nx Ny) (hC : Db.Dim Nx Ny) (hC' : Db'.Dim Nx Ny) (aS : AgreeOn S1 Ez Ez') (aC : AgreeOn S Db Db')
    (i j : ℤ) (h1 : 1 ≤ i) (h2 : i < Nx - 1) (h3 : 1 ≤ j) (h4 : j < T) (s t : Psi2 K)
    (hst : Psi2.Rel S (fun i j => (i, Ny - 1 - j - 1)) Nx (T + 1) Nx Ny s t) :
    ∃ s' t', pmlHyBody bh ch dx (Ny - 1) Ez Db i j s = .ok s' ∧ pmlHyBody bh ch dx (Ny - 1) Ez' Db' i j t = .ok t' ∧
      Psi2.Rel S (fun i j => (i, Ny - 1 - j - 1)) Nx (T + 1) Nx Ny s' t' := by
  obtain ⟨D, D', r1, r2, r3⟩ := hst
  have q4 : S i (Ny - 1 - j - 1) → Ez.val i (Ny - 1 - j) = Ez'.val i (Ny - 1 - j) := fun h => by
    have := aS _ _ (hy _ _ h)
    rwa [show Ny - 1 - j - 1 + 1 = Ny - 1 - j by ring] at this
  refine ⟨_, _, pmlHyBody_in hN hb hc hS hC i j h1 h2 h3 h4 s D, pmlHyBody_in hN hb hc hS' hC' i j h1 h2 h3 h4 t D', ⟨D.1, D.2.1, D.2.2⟩, ⟨D'.1, D'.2.1, D'.2.2⟩, ?_⟩
  refine and3 ?_ ?_ ?_
  · exact Spec.AgreeOn.setv r1 fun h => lin_congr rfl (r1 i j h) rfl (aS _ _ (hy _ _ h)) (aS _ _ (h0 _ _ h))
  · exact Spec.AgreeOn.setv r2 fun h => lin_congr rfl (r2 i j h) rfl (q4 h) (aS _ _ (h0 _ _ h))
  · intro a1 a2
    exact Spec.AgreeOn.setv2 r3 (fun h => sub_congr' (r3 i j h) (aC i j h) (a1 i j h))
      (fun a3 h => sub_congr' (a3 _ _ h) (aC _ _ h) (a2 i j h))

theorem pmlHxBody_local {S S1 : ℤ → ℤ → Prop} (h0 : ∀ i j, S i j → S1 i j) (hx : ∀ i j, S i j → S1 (i + 1) j) {bh ch : Arr K} {dx : K}
    {Nx Ny T : ℤ} {Ez Ez' Db Db' : Tensor K} (hN : T + 2 ≤ Nx) (hb : bh.n = Nx) (hc : ch.n = Nx) (hS : Ez.Dim Nx Ny)
    (hS' : Ez'.Dim Nx Ny) (hC : Db.Dim Nx Ny) (hC' : Db'.Dim Nx Ny) (aS : AgreeOn S1 Ez Ez') (aC : AgreeOn S Db Db')
    (i j : ℤ) (h1 : 1 ≤ i) (h2 : i < T) (h3 : 1 ≤ j) (h4 : j < Ny - 1) (s t : Psi2 K)
    (hst : Psi2.Rel S (fun i j => (Nx - 1 - i - 1, j)) (T + 1) Ny Nx Ny s t) :
    ∃ s' t', pmlHxBody bh ch dx (Nx - 1) Ez Db i j s = .ok s' ∧ pmlHxBody bh ch dx (Nx - 1) Ez' Db' i j t = .ok t' ∧
      Psi2.Rel S (fun i j => (Nx - 1 - i - 1, j)) (T + 1) Ny Nx Ny s' t' := by
  obtain ⟨D, D', r1, r2, r3⟩ := hst
  have q4 : S (Nx - 1 - i - 1) j → Ez.val (Nx - 1 - i) j = Ez'.val (Nx - 1 - i) j := fun h => by
    have := aS _ _ (hx _ _ h)
    rwa [show Nx - 1 - i - 1 + 1 = Nx - 1 - i by ring] at this
  refine ⟨_, _, pmlHxBody_in hN hb hc hS hC i j h1 h2 h3 h4 s D, pmlHxBody_in hN hb hc hS' hC' i j h1 h2 h3 h4 t D', ⟨D.1, D.2.1, D.2.2⟩, ⟨D'.1, D'.2.1, D'.2.2⟩, ?_⟩
  refine and3 ?_ ?_ ?_
  · exact Spec.AgreeOn.setv r1 fun h => lin_congr rfl (r1 i j h) rfl (aS _ _ (hx _ _ h)) (aS _ _ (h0 _ _ h))
  · exact Spec.AgreeOn.setv r2 fun h => lin_congr rfl (r2 i j h) rfl (q4 h) (aS _ _ (h0 _ _ h))
  · intro a1 a2
    exact Spec.AgreeOn.setv2 r3 (fun h => add_congr' (r3 i j h) (aC i j h) (a1 i j h))
      (fun a3 h => add_congr' (a3 _ _ h) (aC _ _ h) (a2 i j h))

end Qbox
