import Verif.Spec.NumberSpec
import Verif.Lemmas.Layer

/-!
# The program in an arithmetic with infinities and NaN follows the program in exact arithmetic
-/

namespace Qbox
open Scalar Spec Spec.Xr

set_option linter.unusedSectionVars false
set_option linter.unusedSimpArgs false

namespace Num

/-! ## Operations on numbers -/

theorem zero_fin : (0 : Xr) = fin 0 := rfl
theorem one_fin : (1 : Xr) = fin 1 := rfl
theorem add_fin (a b : ℝ) : (fin a + fin b : Xr) = fin (a + b) := rfl
theorem sub_fin (a b : ℝ) : (fin a - fin b : Xr) = fin (a - b) := rfl
theorem mul_fin (a b : ℝ) : (fin a * fin b : Xr) = fin (a * b) := rfl
theorem neg_fin (a : ℝ) : (-fin a : Xr) = fin (-a) := rfl
theorem div_fin {a b : ℝ} (h : b ≠ 0) : (fin a / fin b : Xr) = fin (a / b) := if_neg h
theorem ofInt_fin (n : ℤ) : (ofInt n : Xr) = fin n := rfl
theorem exp_fin (a : ℝ) : Scalar.exp (fin a) = fin (Real.exp a) := rfl
theorem sin_fin (a : ℝ) : Scalar.sin (fin a) = fin (Real.sin a) := rfl
theorem cos_fin (a : ℝ) : Scalar.cos (fin a) = fin (Real.cos a) := rfl
theorem pi_fin : (Scalar.pi : Xr) = fin Real.pi := rfl
theorem ltb_fin (a b : ℝ) : ltb (fin a) (fin b) = decide (a < b) := rfl
theorem leb_fin (a b : ℝ) : leb (fin a) (fin b) = decide (a ≤ b) := rfl
theorem eqb_fin (a b : ℝ) : eqb (fin a) (fin b) = decide (a = b) := rfl
theorem absS_fin (a : ℝ) : absS (fin a) = fin |a| := rfl
theorem roundI_fin (a : ℝ) : roundI (fin a) = roundAway a := rfl
theorem floorI_fin (a : ℝ) : floorI (fin a) = ⌊a⌋ := rfl
theorem ceilI_fin (a : ℝ) : ceilI (fin a) = ⌈a⌉ := rfl
theorem npow_fin (a : ℝ) (n : ℕ) : npow (fin a) n = fin (a ^ n) := by
  induction n with
  | zero => simp [npow]
  | succ n ih =>
    show Xr.mul (npow (fin a) n) (fin a) = _
    rw [ih, pow_succ]
    rfl
theorem half_fin : (half : Xr) = fin (1 / 2) := by
  rw [half, one_fin, ofInt_fin, div_fin (by norm_num)]
  norm_num
theorem lit0_8_fin : (lit0_8 : Xr) = fin (4 / 5) := by
  rw [lit0_8, ofInt_fin, ofInt_fin, div_fin (by norm_num)]
  norm_num
theorem lit0_2_fin : (lit0_2 : Xr) = fin (1 / 5) := by
  rw [lit0_2, ofInt_fin, ofInt_fin, div_fin (by norm_num)]
  norm_num

/-! ## Programs that follow each other -/

/-- If the second computation ends, so does the first, and the results are related. -/
structure RM {α' α : Type} (R : α' → α → Prop) (m' : M α') (m : M α) : Prop where
  of ::
  out : ∀ a, m = .ok a → ∃ a', m' = .ok a' ∧ R a' a

/-- The relation of a value to its image. -/
def U {α' α : Type} (u : α → α') (a' : α') (a : α) : Prop := a' = u a

variable {α' α β' β : Type}

theorem RM.bind {R : α' → α → Prop} {S : β' → β → Prop} {m' : M α'} {m : M α} {k' : α' → M β'} {k : α → M β} (h : RM R m' m)
    (hk : ∀ a' a, m = .ok a → R a' a → RM S (k' a') (k a)) : RM S (m' >>= k') (m >>= k) := by
  refine ⟨fun b hb => ?_⟩
  obtain ⟨a, ha, hb⟩ := (Except.bind_ok ..).mp hb
  obtain ⟨a', ha', hr⟩ := h.out a ha
  obtain ⟨b', hb', hs⟩ := (hk a' a ha hr).out b hb
  exact ⟨b', (Except.bind_ok ..).mpr ⟨a', ha', hb'⟩, hs⟩

theorem RM.bindU {u : α → α'} {S : β' → β → Prop} {m' : M α'} {m : M α} {k' : α' → M β'} {k : α → M β} (h : RM (U u) m' m)
    (hk : ∀ a, m = .ok a → RM S (k' (u a)) (k a)) : RM S (m' >>= k') (m >>= k) := by
  refine h.bind ?_
  rintro _ a ha rfl
  exact hk a ha

theorem RM.ok {R : α' → α → Prop} {a' : α'} {a : α} (h : R a' a) : RM R (.ok a') (.ok a) := by
  refine ⟨fun b hb => ?_⟩
  cases hb
  exact ⟨a', rfl, h⟩

theorem RM.pure {R : α' → α → Prop} {a' : α'} {a : α} (h : R a' a) : RM R (Pure.pure a') (Pure.pure a) := RM.ok h

theorem RM.error {R : α' → α → Prop} {m' : M α'} {e : Fault} : RM R m' (.error e) := ⟨fun b hb => by cases hb⟩

theorem RM.mono {R S : α' → α → Prop} {m' : M α'} {m : M α} (h : RM R m' m) (hs : ∀ a' a, R a' a → S a' a) : RM S m' m := by
  refine ⟨fun a ha => ?_⟩
  obtain ⟨a', h1, h2⟩ := h.out a ha
  exact ⟨a', h1, hs _ _ h2⟩

theorem RM.forList {ι ι' : Type} {R : α' → α → Prop} {Q : ι' → ι → Prop} {l' : List ι'} {l : List ι} (hl : List.Forall₂ Q l' l)
    {body' : ι' → α' → M α'} {body : ι → α → M α} (h : ∀ i' i s' s, Q i' i → R s' s → RM R (body' i' s') (body i s)) :
    ∀ s' s, R s' s → RM R (Qbox.forList l' s' body') (Qbox.forList l s body) := by
  induction hl with
  | nil => intro s' s hs; exact RM.ok hs
  | cons hq _ ih =>
    intro s' s hs
    unfold Qbox.forList at ih ⊢
    rw [List.foldlM_cons, List.foldlM_cons]
    exact (h _ _ _ _ hq hs).bind fun a' a _ hr => ih a' a hr

theorem RM.forSame {ι : Type} {R : α' → α → Prop} (l : List ι) {body' : ι → α' → M α'} {body : ι → α → M α}
    (h : ∀ i ∈ l, ∀ s' s, R s' s → RM R (body' i s') (body i s)) {s' : α'} {s : α} (hs : R s' s) :
    RM R (Qbox.forList l s' body') (Qbox.forList l s body) := by
  induction l generalizing s' s with
  | nil => exact RM.ok hs
  | cons a l ih =>
    unfold Qbox.forList at ih ⊢
    rw [List.foldlM_cons, List.foldlM_cons]
    exact (h a (by simp) _ _ hs).bind fun a' a _ hr => ih (fun i hi => h i (by simp [hi])) hr

theorem RM.forRange {R : α' → α → Prop} {lo hi : ℤ} {body' : ℤ → α' → M α'} {body : ℤ → α → M α}
    (h : ∀ i, lo ≤ i → i < hi → ∀ s' s, R s' s → RM R (body' i s') (body i s)) {s' : α'} {s : α} (hs : R s' s) :
    RM R (Qbox.forRange lo hi s' body') (Qbox.forRange lo hi s body) :=
  RM.forSame (intRange lo hi) (fun i hi => h i (mem_intRange.mp hi).1 (mem_intRange.mp hi).2) hs

/-! ## Arrays -/

def arr (a : Arr ℝ) : Arr Xr := ⟨a.n, fun i => fin (a.val i)⟩
def ten (a : Tensor ℝ) : Tensor Xr := ⟨a.nx, a.ny, fun i j => fin (a.val i j)⟩
def ten3 (a : Tensor3 ℝ) : Tensor3 Xr := ⟨a.nx, a.ny, a.nz, fun i j k => fin (a.val i j k)⟩

theorem arr_rd (a : Arr ℝ) (i : ℤ) : RM (U fin) ((arr a).rd i) (a.rd i) := by
  unfold Arr.rd arr
  split_ifs
  · exact RM.ok rfl
  · exact RM.error

theorem arr_wr (a : Arr ℝ) (i : ℤ) {v' : Xr} {v : ℝ} (hv : v' = fin v) : RM (U arr) ((arr a).wr i v') (a.wr i v) := by
  subst hv
  unfold Arr.wr arr
  split_ifs
  · refine RM.ok ?_
    simp only [U, arr, Arr.mk.injEq, true_and]
    funext k
    split_ifs <;> rfl
  · exact RM.error

theorem ten_rd (a : Tensor ℝ) (i j : ℤ) : RM (U fin) ((ten a).rd i j) (a.rd i j) := by
  by_cases h : a.In i j
  · rw [Tensor.rd_ok h, Tensor.rd_ok (a := ten a) h]
    exact RM.ok rfl
  · unfold Tensor.rd
    rw [if_neg h]
    exact RM.error

theorem ten_wr (a : Tensor ℝ) (i j : ℤ) {v' : Xr} {v : ℝ} (hv : v' = fin v) : RM (U ten) ((ten a).wr i j v') (a.wr i j v) := by
  subst hv
  by_cases h : a.In i j
  · rw [Tensor.wr_ok h, Tensor.wr_ok (a := ten a) h]
    refine RM.ok ?_
    simp only [U, ten, Tensor.mk.injEq, true_and]
    funext k l
    split_ifs <;> rfl
  · unfold Tensor.wr
    rw [if_neg h]
    exact RM.error

theorem ten3_rd (a : Tensor3 ℝ) (i j k : ℤ) : RM (U fin) ((ten3 a).rd i j k) (a.rd i j k) := by
  by_cases h : a.In i j k
  · rw [Tensor3.rd_ok h, Tensor3.rd_ok (a := ten3 a) h]
    exact RM.ok rfl
  · unfold Tensor3.rd
    rw [if_neg h]
    exact RM.error

theorem ten3_wr (a : Tensor3 ℝ) (i j k : ℤ) {v' : Xr} {v : ℝ} (hv : v' = fin v) :
    RM (U ten3) ((ten3 a).wr i j k v') (a.wr i j k v) := by
  subst hv
  by_cases h : a.In i j k
  · rw [Tensor3.wr_ok h, Tensor3.wr_ok (a := ten3 a) h]
    refine RM.ok ?_
    simp only [U, ten3, Tensor3.mk.injEq, true_and]
    funext k l m
    split_ifs <;> rfl
  · unfold Tensor3.wr
    rw [if_neg h]
    exact RM.error

theorem ofList_fin (l : List ℝ) : Arr.ofList (l.map fin) = arr (Arr.ofList l) := by
  unfold Arr.ofList arr
  simp only [List.length_map, Arr.mk.injEq, true_and]
  funext i
  rw [List.getD_eq_getElem?_getD, List.getD_eq_getElem?_getD, List.getElem?_map]
  cases l[i.toNat]? <;> rfl

theorem rd_val {a : Arr ℝ} {i : ℤ} {v : ℝ} (h : a.rd i = .ok v) : v = a.val i := by
  unfold Arr.rd at h
  split_ifs at h
  cases h
  rfl

/-! ## The main loops -/

def flds (f : Flds ℝ) : Flds Xr := ⟨ten f.Ez, ten f.Hx, ten f.Hy, ten f.Ca, ten f.Cb, ten f.Da, ten f.Db⟩
def scal (s : Scaling ℝ) : Scaling Xr := ⟨arr s.kedx, arr s.khdx, arr s.kedy, arr s.khdy⟩
def hpair (h : HPair ℝ) : HPair Xr := ⟨ten h.Hx, ten h.Hy⟩

theorem ezBody_num (Hx Hy Ca Cb : Tensor ℝ) (kedx kedy : Arr ℝ) (i j : ℤ) (Ez : Tensor ℝ) (hx : ∀ i, kedx.val i ≠ 0)
    (hy : ∀ i, kedy.val i ≠ 0) :
    RM (U ten) (ezBody (ten Hx) (ten Hy) (ten Ca) (ten Cb) (arr kedx) (arr kedy) i j (ten Ez)) (ezBody Hx Hy Ca Cb kedx kedy i j Ez) := by
  unfold ezBody
  refine (ten_rd ..).bindU fun _ _ => (ten_rd ..).bindU fun _ _ => (ten_rd ..).bindU fun _ _ => (ten_rd ..).bindU fun _ _ =>
    (ten_rd ..).bindU fun _ _ => (arr_rd ..).bindU fun a ha => (ten_rd ..).bindU fun _ _ => (ten_rd ..).bindU fun _ _ =>
    (arr_rd ..).bindU fun b hb => ten_wr _ _ _ ?_
  have h1 : a ≠ 0 := by rw [rd_val ha]; exact hx _
  have h2 : b ≠ 0 := by rw [rd_val hb]; exact hy _
  simp only [mul_fin, add_fin, sub_fin, div_fin h1, div_fin h2]

theorem ezLoop_num (Nx Ny : ℤ) (f : Flds ℝ) (sc : Scaling ℝ) {dx : ℝ} (hd : dx ≠ 0) (hs : sc.Plain dx) :
    RM (U ten) (ezLoop Nx Ny (flds f) (scal sc)) (ezLoop Nx Ny f sc) := by
  refine RM.forRange ?_ rfl
  rintro i _ _ _ s rfl
  refine RM.forRange ?_ rfl
  rintro j _ _ _ s rfl
  exact ezBody_num _ _ _ _ _ _ _ _ _ (fun i => by rw [hs.kedx]; exact hd) (fun i => by rw [hs.kedy]; exact hd)

theorem hBody_num (Ez Da Db : Tensor ℝ) (khdx khdy : Arr ℝ) (i j : ℤ) (h : HPair ℝ) (hx : ∀ i, khdx.val i ≠ 0)
    (hy : ∀ i, khdy.val i ≠ 0) :
    RM (U hpair) (hBody (ten Ez) (ten Da) (ten Db) (arr khdx) (arr khdy) i j (hpair h)) (hBody Ez Da Db khdx khdy i j h) := by
  unfold hBody
  refine (ten_rd ..).bindU fun _ _ => (ten_rd ..).bindU fun _ _ => (ten_rd ..).bindU fun _ _ => (ten_rd ..).bindU fun _ _ =>
    (ten_rd ..).bindU fun _ _ => (arr_rd ..).bindU fun a ha => (ten_wr _ _ _ ?_).bindU fun _ _ =>
    (ten_rd ..).bindU fun _ _ => (ten_rd ..).bindU fun _ _ => (ten_rd ..).bindU fun _ _ => (ten_rd ..).bindU fun _ _ =>
    (ten_rd ..).bindU fun _ _ => (arr_rd ..).bindU fun b hb => (ten_wr _ _ _ ?_).bindU fun _ _ => RM.pure rfl
  · have h1 : a ≠ 0 := by rw [rd_val ha]; exact hy _
    simp only [mul_fin, add_fin, sub_fin, div_fin h1]
  · have h2 : b ≠ 0 := by rw [rd_val hb]; exact hx _
    simp only [mul_fin, add_fin, sub_fin, div_fin h2]

theorem hLoop_num (Nx Ny : ℤ) (f : Flds ℝ) (sc : Scaling ℝ) {dx : ℝ} (hd : dx ≠ 0) (hs : sc.Plain dx) :
    RM (U hpair) (hLoop Nx Ny (flds f) (scal sc)) (hLoop Nx Ny f sc) := by
  refine RM.forRange ?_ rfl
  rintro i _ _ _ s rfl
  refine RM.forRange ?_ rfl
  rintro j _ _ _ s rfl
  exact hBody_num _ _ _ _ _ _ _ _ (fun i => by rw [hs.khdx]; exact hd) (fun i => by rw [hs.khdy]; exact hd)

/-! ## The absorbing layer -/

def psi2 (s : Psi2 ℝ) : Psi2 Xr := ⟨ten s.p1, ten s.p2, ten s.F⟩
def psi (s : PmlPsi ℝ) : PmlPsi Xr :=
  ⟨ten s.Ezx1, ten s.Ezx2, ten s.Hyx1, ten s.Hyx2, ten s.Ezy1, ten s.Ezy2, ten s.Hxy1, ten s.Hxy2⟩
def par (p : PmlPar ℝ) : PmlPar Xr := ⟨p.T, fin p.dx, fin p.dt, p.m, p.ma, fin p.kMax, fin p.aMax, fin p.sigMax⟩

/-- The entries `1, …, hi` of an array are numbers. -/
structure ArrOn (hi : ℤ) (a' : Arr Xr) (a : Arr ℝ) : Prop where
  n : a'.n = a.n
  val : ∀ i, 1 ≤ i → i ≤ hi → a'.val i = fin (a.val i)

theorem ArrOn.rd {hi : ℤ} {a' : Arr Xr} {a : Arr ℝ} (h : ArrOn hi a' a) {i : ℤ} (h1 : 1 ≤ i) (h2 : i ≤ hi) :
    RM (U fin) (a'.rd i) (a.rd i) := by
  unfold Arr.rd
  rw [h.n]
  split_ifs
  · exact RM.ok (h.val i h1 h2)
  · exact RM.error

theorem ArrOn.wr {hi : ℤ} {a' : Arr Xr} {a : Arr ℝ} (h : ArrOn hi a' a) {i : ℤ} {v' : Xr} {v : ℝ} (hv : 1 ≤ i → i ≤ hi → v' = fin v) :
    RM (ArrOn hi) (a'.wr i v') (a.wr i v) := by
  unfold Arr.wr
  rw [h.n]
  split_ifs
  · refine RM.ok ⟨rfl, ?_⟩
    intro k h1 h2
    by_cases hk : k = i
    · subst hk; simp [hv h1 h2]
    · simp [hk, h.val k h1 h2]
  · exact RM.error

theorem ArrOn.const (hi n : ℤ) : ArrOn hi (Arr.const n 0) (Arr.const n 0) := ⟨rfl, fun _ _ _ => rfl⟩

theorem pmlEyBody_num {hi : ℤ} {be' ce' : Arr Xr} {be ce : Arr ℝ} (hb : ArrOn hi be' be) (hc : ArrOn hi ce' ce) {dx : ℝ} (hd : dx ≠ 0)
    (je : ℤ) (Hx Cb : Tensor ℝ) (i j : ℤ) (h1 : 1 ≤ j) (h2 : j ≤ hi) (s : Psi2 ℝ) :
    RM (U psi2) (pmlEyBody be' ce' (fin dx) je (ten Hx) (ten Cb) i j (psi2 s)) (pmlEyBody be ce dx je Hx Cb i j s) := by
  unfold pmlEyBody
  refine (hb.rd h1 h2).bindU fun _ _ => (ten_rd ..).bindU fun _ _ => (hc.rd h1 h2).bindU fun _ _ => (ten_rd ..).bindU fun _ _ =>
    (ten_rd ..).bindU fun _ _ => (ten_wr _ _ _ ?_).bindU fun _ _ =>
    (hb.rd h1 h2).bindU fun _ _ => (ten_rd ..).bindU fun _ _ => (hc.rd h1 h2).bindU fun _ _ => (ten_rd ..).bindU fun _ _ =>
    (ten_rd ..).bindU fun _ _ => (ten_wr _ _ _ ?_).bindU fun _ _ =>
    (ten_rd ..).bindU fun _ _ => (ten_rd ..).bindU fun _ _ => (ten_rd ..).bindU fun _ _ => (ten_wr _ _ _ ?_).bindU fun _ _ =>
    (ten_rd ..).bindU fun _ _ => (ten_rd ..).bindU fun _ _ => (ten_rd ..).bindU fun _ _ => (ten_wr _ _ _ ?_).bindU fun _ _ =>
    RM.pure rfl
  all_goals simp only [mul_fin, add_fin, sub_fin, div_fin hd]

theorem pmlExBody_num {hi : ℤ} {be' ce' : Arr Xr} {be ce : Arr ℝ} (hb : ArrOn hi be' be) (hc : ArrOn hi ce' ce) {dx : ℝ} (hd : dx ≠ 0)
    (ie : ℤ) (Hy Cb : Tensor ℝ) (i j : ℤ) (h1 : 1 ≤ i) (h2 : i ≤ hi) (s : Psi2 ℝ) :
    RM (U psi2) (pmlExBody be' ce' (fin dx) ie (ten Hy) (ten Cb) i j (psi2 s)) (pmlExBody be ce dx ie Hy Cb i j s) := by
  unfold pmlExBody
  refine (hb.rd h1 h2).bindU fun _ _ => (ten_rd ..).bindU fun _ _ => (hc.rd h1 h2).bindU fun _ _ => (ten_rd ..).bindU fun _ _ =>
    (ten_rd ..).bindU fun _ _ => (ten_wr _ _ _ ?_).bindU fun _ _ =>
    (hb.rd h1 h2).bindU fun _ _ => (ten_rd ..).bindU fun _ _ => (hc.rd h1 h2).bindU fun _ _ => (ten_rd ..).bindU fun _ _ =>
    (ten_rd ..).bindU fun _ _ => (ten_wr _ _ _ ?_).bindU fun _ _ =>
    (ten_rd ..).bindU fun _ _ => (ten_rd ..).bindU fun _ _ => (ten_rd ..).bindU fun _ _ => (ten_wr _ _ _ ?_).bindU fun _ _ =>
    (ten_rd ..).bindU fun _ _ => (ten_rd ..).bindU fun _ _ => (ten_rd ..).bindU fun _ _ => (ten_wr _ _ _ ?_).bindU fun _ _ =>
    RM.pure rfl
  all_goals simp only [mul_fin, add_fin, sub_fin, div_fin hd]

theorem pmlHyBody_num {hi : ℤ} {be' ce' : Arr Xr} {be ce : Arr ℝ} (hb : ArrOn hi be' be) (hc : ArrOn hi ce' ce) {dx : ℝ} (hd : dx ≠ 0)
    (je : ℤ) (Ez Db : Tensor ℝ) (i j : ℤ) (h1 : 1 ≤ j) (h2 : j ≤ hi) (s : Psi2 ℝ) :
    RM (U psi2) (pmlHyBody be' ce' (fin dx) je (ten Ez) (ten Db) i j (psi2 s)) (pmlHyBody be ce dx je Ez Db i j s) := by
  unfold pmlHyBody
  refine (hb.rd h1 h2).bindU fun _ _ => (ten_rd ..).bindU fun _ _ => (hc.rd h1 h2).bindU fun _ _ => (ten_rd ..).bindU fun _ _ =>
    (ten_rd ..).bindU fun _ _ => (ten_wr _ _ _ ?_).bindU fun _ _ =>
    (hb.rd h1 h2).bindU fun _ _ => (ten_rd ..).bindU fun _ _ => (hc.rd h1 h2).bindU fun _ _ => (ten_rd ..).bindU fun _ _ =>
    (ten_rd ..).bindU fun _ _ => (ten_wr _ _ _ ?_).bindU fun _ _ =>
    (ten_rd ..).bindU fun _ _ => (ten_rd ..).bindU fun _ _ => (ten_rd ..).bindU fun _ _ => (ten_wr _ _ _ ?_).bindU fun _ _ =>
    (ten_rd ..).bindU fun _ _ => (ten_rd ..).bindU fun _ _ => (ten_rd ..).bindU fun _ _ => (ten_wr _ _ _ ?_).bindU fun _ _ =>
    RM.pure rfl
  all_goals simp only [mul_fin, add_fin, sub_fin, div_fin hd]

theorem pmlHxBody_num {hi : ℤ} {be' ce' : Arr Xr} {be ce : Arr ℝ} (hb : ArrOn hi be' be) (hc : ArrOn hi ce' ce) {dx : ℝ} (hd : dx ≠ 0)
    (ie : ℤ) (Ez Db : Tensor ℝ) (i j : ℤ) (h1 : 1 ≤ i) (h2 : i ≤ hi) (s : Psi2 ℝ) :
    RM (U psi2) (pmlHxBody be' ce' (fin dx) ie (ten Ez) (ten Db) i j (psi2 s)) (pmlHxBody be ce dx ie Ez Db i j s) := by
  unfold pmlHxBody
  refine (hb.rd h1 h2).bindU fun _ _ => (ten_rd ..).bindU fun _ _ => (hc.rd h1 h2).bindU fun _ _ => (ten_rd ..).bindU fun _ _ =>
    (ten_rd ..).bindU fun _ _ => (ten_wr _ _ _ ?_).bindU fun _ _ =>
    (hb.rd h1 h2).bindU fun _ _ => (ten_rd ..).bindU fun _ _ => (hc.rd h1 h2).bindU fun _ _ => (ten_rd ..).bindU fun _ _ =>
    (ten_rd ..).bindU fun _ _ => (ten_wr _ _ _ ?_).bindU fun _ _ =>
    (ten_rd ..).bindU fun _ _ => (ten_rd ..).bindU fun _ _ => (ten_rd ..).bindU fun _ _ => (ten_wr _ _ _ ?_).bindU fun _ _ =>
    (ten_rd ..).bindU fun _ _ => (ten_rd ..).bindU fun _ _ => (ten_rd ..).bindU fun _ _ => (ten_wr _ _ _ ?_).bindU fun _ _ =>
    RM.pure rfl
  all_goals simp only [mul_fin, add_fin, sub_fin, div_fin hd]

/-- The coefficients that the updates read are numbers. -/
structure CoNum (T : ℤ) (c' : PmlCoef Xr) (c : PmlCoef ℝ) : Prop where
  be_x : ArrOn T c'.be_x c.be_x
  ce_x : ArrOn T c'.ce_x c.ce_x
  bh_x : ArrOn (T - 1) c'.bh_x c.bh_x
  ch_x : ArrOn (T - 1) c'.ch_x c.ch_x
  be_y : ArrOn T c'.be_y c.be_y
  ce_y : ArrOn T c'.ce_y c.ce_y
  bh_y : ArrOn (T - 1) c'.bh_y c.bh_y
  ch_y : ArrOn (T - 1) c'.ch_y c.ch_y

structure PmlNum (p' : Pml Xr) (p : Pml ℝ) : Prop where
  Nx : p'.Nx = p.Nx
  Ny : p'.Ny = p.Ny
  par : p'.par = par p.par
  co : CoNum p.par.T p'.co p.co
  psi : p'.psi = psi p.psi

theorem updateE_num {p' : Pml Xr} {p : Pml ℝ} (h : PmlNum p' p) (hd : p.par.dx ≠ 0) (Hx Hy Cb Ez : Tensor ℝ) :
    RM (fun r' r => PmlNum r'.1 r.1 ∧ r'.2 = ten r.2) (p'.updateE (ten Hx) (ten Hy) (ten Cb) (ten Ez)) (p.updateE Hx Hy Cb Ez) := by
  obtain ⟨Nx', Ny', par', co', psi'⟩ := p'
  obtain ⟨e1, e2, e3, e4, e5⟩ := h
  dsimp only at e1 e2 e3 e4 e5
  subst e1 e2 e3 e5
  unfold Pml.updateE
  refine RM.bindU (u := psi2) (RM.forRange ?_ rfl) ?_
  · rintro i _ _ _ s rfl
    refine RM.forRange ?_ rfl
    rintro j h1 h2 _ s rfl
    have h3 : j ≤ p.par.T := by exact Int.lt_add_one_iff.mp h2
    exact pmlEyBody_num e4.be_y e4.ce_y hd _ _ _ _ _ h1 h3 _
  intro s _
  refine RM.bindU (u := psi2) (RM.forRange ?_ rfl) ?_
  · rintro i h1 h2 _ s rfl
    refine RM.forRange ?_ rfl
    rintro j _ _ _ s rfl
    have h3 : i ≤ p.par.T := by exact Int.lt_add_one_iff.mp h2
    exact pmlExBody_num e4.be_x e4.ce_x hd _ _ _ _ _ h1 h3 _
  intro r _
  exact RM.pure ⟨⟨rfl, rfl, rfl, e4, rfl⟩, rfl⟩

theorem updateH_num {p' : Pml Xr} {p : Pml ℝ} (h : PmlNum p' p) (hd : p.par.dx ≠ 0) (Ez Db Hx Hy : Tensor ℝ) :
    RM (fun r' r => PmlNum r'.1 r.1 ∧ r'.2.1 = ten r.2.1 ∧ r'.2.2 = ten r.2.2) (p'.updateH (ten Ez) (ten Db) (ten Hx) (ten Hy))
      (p.updateH Ez Db Hx Hy) := by
  obtain ⟨Nx', Ny', par', co', psi'⟩ := p'
  obtain ⟨e1, e2, e3, e4, e5⟩ := h
  dsimp only at e1 e2 e3 e4 e5
  subst e1 e2 e3 e5
  unfold Pml.updateH
  refine RM.bindU (u := psi2) (RM.forRange ?_ rfl) ?_
  · rintro i _ _ _ s rfl
    refine RM.forRange ?_ rfl
    rintro j h1 h2 _ s rfl
    have h3 : j ≤ p.par.T - 1 := by exact Int.lt_add_one_iff.mp h2
    exact pmlHyBody_num e4.bh_y e4.ch_y hd _ _ _ _ _ h1 h3 _
  intro s _
  refine RM.bindU (u := psi2) (RM.forRange ?_ rfl) ?_
  · rintro i h1 h2 _ s rfl
    refine RM.forRange ?_ rfl
    rintro j _ _ _ s rfl
    have h3 : i ≤ p.par.T - 1 := by exact Int.lt_add_one_iff.mp h2
    exact pmlHxBody_num e4.bh_x e4.ch_x hd _ _ _ _ _ h1 h3 _
  intro r _
  exact RM.pure ⟨⟨rfl, rfl, rfl, e4, rfl⟩, rfl, rfl⟩

end Num

end Qbox
