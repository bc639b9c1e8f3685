import Verif.Lemmas.NumberMake

/-!
# Time stepping in an arithmetic with infinities and NaN
-/

namespace Qbox
open Scalar Spec Spec.Xr

set_option linter.unusedSectionVars false
set_option linter.unusedSimpArgs false

namespace Num

/-! ## Polarization currents -/

def ej (s : EJ ℝ) : EJ Xr := ⟨ten s.Ez, ten3 s.J⟩
def ejj (s : EJJ ℝ) : EJJ Xr := ⟨ten s.Ez, ten3 s.J, ten3 s.prevJ⟩

theorem derefOpt_num (o : Option (Tensor ℝ)) : RM (U ten) (derefOpt (o.map ten)) (derefOpt o) := by
  cases o with
  | none => exact RM.error
  | some a => exact RM.ok rfl

theorem debyeBody_num {dt : ℝ} (hdt : dt ≠ 0) (Cb : ℝ) (kappa : Arr ℝ) (beta : Tensor3 ℝ) (pE : Option (Tensor ℝ)) (i j N : ℤ) (s : EJ ℝ) :
    RM (U ej) (debyeBody (fin dt) (fin Cb) (arr kappa) (ten3 beta) (pE.map ten) i j N (ej s)) (debyeBody dt Cb kappa beta pE i j N s) := by
  unfold debyeBody
  refine (ten_rd ..).bindU fun _ _ => (arr_rd ..).bindU fun _ _ => (ten3_rd ..).bindU fun _ _ => (ten_wr _ _ _ ?_).bindU fun _ _ =>
    (derefOpt_num _).bindU fun _ _ => (arr_rd ..).bindU fun _ _ => (ten3_rd ..).bindU fun _ _ => (ten3_rd ..).bindU fun _ _ =>
    (ten_rd ..).bindU fun _ _ => (ten_rd ..).bindU fun _ _ => (ten3_wr _ _ _ _ ?_).bindU fun _ _ => RM.pure rfl
  all_goals simp only [half_fin, half_real, one_fin, mul_fin, add_fin, sub_fin, div_fin hdt]

theorem drudeBody_num (Cb : ℝ) (kappa : Arr ℝ) (beta : Tensor3 ℝ) (pE : Option (Tensor ℝ)) (i j N : ℤ) (s : EJ ℝ) :
    RM (U ej) (drudeBody (fin Cb) (arr kappa) (ten3 beta) (pE.map ten) i j N (ej s)) (drudeBody Cb kappa beta pE i j N s) := by
  unfold drudeBody
  refine (ten_rd ..).bindU fun _ _ => (arr_rd ..).bindU fun _ _ => (ten3_rd ..).bindU fun _ _ => (ten_wr _ _ _ ?_).bindU fun _ _ =>
    (derefOpt_num _).bindU fun _ _ => (arr_rd ..).bindU fun _ _ => (ten3_rd ..).bindU fun _ _ => (ten3_rd ..).bindU fun _ _ =>
    (ten_rd ..).bindU fun _ _ => (ten_rd ..).bindU fun _ _ => (ten3_wr _ _ _ _ ?_).bindU fun _ _ => RM.pure rfl
  all_goals simp only [half_fin, half_real, one_fin, mul_fin, add_fin, sub_fin]

theorem lorentzBody_num {dt : ℝ} (hdt : dt ≠ 0) (Cb CaPrev : ℝ) (alpha beta : Arr ℝ) (delta : Tensor3 ℝ) (pE : Option (Tensor ℝ))
    (i j N : ℤ) (s : EJJ ℝ) :
    RM (U ejj) (lorentzBody (fin dt) (fin Cb) (fin CaPrev) (arr alpha) (arr beta) (ten3 delta) (pE.map ten) i j N (ejj s))
      (lorentzBody dt Cb CaPrev alpha beta delta pE i j N s) := by
  have h2 : (2 : ℝ) * dt ≠ 0 := mul_ne_zero two_ne_zero hdt
  unfold lorentzBody
  refine (derefOpt_num _).bindU fun _ _ => (ten_rd ..).bindU fun _ _ => (ten_rd ..).bindU fun _ _ => (arr_rd ..).bindU fun _ _ =>
    (ten3_rd ..).bindU fun _ _ => (arr_rd ..).bindU fun _ _ => (ten3_rd ..).bindU fun _ _ => (ten_wr _ _ _ ?_).bindU fun _ _ =>
    (ten3_rd ..).bindU fun _ _ => (arr_rd ..).bindU fun _ _ => (ten3_rd ..).bindU fun _ _ => (arr_rd ..).bindU fun _ _ =>
    (ten3_rd ..).bindU fun _ _ => (ten3_rd ..).bindU fun _ _ => (ten_rd ..).bindU fun _ _ => (ten_rd ..).bindU fun _ _ =>
    (ten3_wr _ _ _ _ ?_).bindU fun _ _ => (ten3_wr _ _ _ _ rfl).bindU fun _ _ => RM.pure rfl
  all_goals simp only [half_fin, half_real, one_fin, mul_fin, add_fin, sub_fin, ofInt_fin, ofInt_real, Int.cast_ofNat, div_fin h2]

section
variable {g : Grid ℝ} (hdt : 0 < g.dt)
include hdt

theorem debyeJ_num {P : DebyePol ℝ} (hP : SoundKind (.debye P.mat)) (pE : Option (Tensor ℝ)) (Ez : Tensor ℝ) :
    RM (U fun r => (debyePol r.1, ten r.2)) ((debyePol P).updateJ (grid g) (pE.map ten) (ten Ez)) (P.updateJ g pE Ez) := by
  unfold DebyePol.updateJ
  have e1 : Arr.ofList ((debyePol P).mat.poles.map (·.kappa (grid g).dt)) = arr (Arr.ofList (P.mat.poles.map (·.kappa g.dt))) := by
    rw [← ofList_fin]; exact congrArg _ (debye_kappas hdt hP.2)
  have e2 : (debyePol P).mat.Cb (grid g).dt = fin (P.mat.Cb g.dt) := debye_Cb hdt hP
  simp only [e1, e2]
  refine RM.bindU (u := ej) (RM.forRange ?_ rfl) fun s _ => RM.pure rfl
  rintro i _ _ _ s rfl
  refine RM.forRange ?_ rfl
  rintro j _ _ _ s rfl
  refine RM.forRange ?_ rfl
  rintro N _ _ _ s rfl
  exact debyeBody_num hdt.ne' _ _ _ _ _ _ _ _

theorem drudeJ_num {P : DrudePol ℝ} (hP : SoundKind (.drude P.mat)) (pE : Option (Tensor ℝ)) (Ez : Tensor ℝ) :
    RM (U fun r => (drudePol r.1, ten r.2)) ((drudePol P).updateJ (grid g) (pE.map ten) (ten Ez)) (P.updateJ g pE Ez) := by
  unfold DrudePol.updateJ
  have e1 : Arr.ofList ((drudePol P).mat.poles.map (·.kappa (grid g).dt)) = arr (Arr.ofList (P.mat.poles.map (·.kappa g.dt))) := by
    rw [← ofList_fin]; exact congrArg _ (drude_kappas hdt hP.2)
  have e2 : (drudePol P).mat.Cb (grid g).dt = fin (P.mat.Cb g.dt) := drude_Cb hdt hP
  simp only [e1, e2]
  refine RM.bindU (u := ej) (RM.forRange ?_ rfl) fun s _ => RM.pure rfl
  rintro i _ _ _ s rfl
  refine RM.forRange ?_ rfl
  rintro j _ _ _ s rfl
  refine RM.forRange ?_ rfl
  rintro N _ _ _ s rfl
  exact drudeBody_num _ _ _ _ _ _ _ _

theorem lorentzJ_num {P : LorentzPol ℝ} (hP : SoundKind (.lorentz P.mat)) (pE : Option (Tensor ℝ)) (Ez : Tensor ℝ) :
    RM (U fun r => (lorentzPol r.1, ten r.2)) ((lorentzPol P).updateJ (grid g) (pE.map ten) (ten Ez)) (P.updateJ g pE Ez) := by
  unfold LorentzPol.updateJ
  have e1 : Arr.ofList ((lorentzPol P).mat.poles.map (·.alpha (grid g).dt)) = arr (Arr.ofList (P.mat.poles.map (·.alpha g.dt))) := by
    rw [← ofList_fin]; exact congrArg _ (lorentz_alphas hdt hP.2)
  have e3 : Arr.ofList ((lorentzPol P).mat.poles.map (·.beta (grid g).dt)) = arr (Arr.ofList (P.mat.poles.map (·.beta g.dt))) := by
    rw [← ofList_fin]; exact congrArg _ (lorentz_betas hdt hP.2)
  have e2 : (lorentzPol P).mat.Cb (grid g).dt = fin (P.mat.Cb g.dt) := (lorentz_coef hdt hP).2.1
  have e4 : (lorentzPol P).mat.CaPrev (grid g).dt = fin (P.mat.CaPrev g.dt) := (lorentz_coef hdt hP).2.2
  simp only [e1, e2, e3, e4]
  refine RM.bindU (u := ejj) (RM.forRange ?_ rfl) fun s _ => RM.pure rfl
  rintro i _ _ _ s rfl
  refine RM.forRange ?_ rfl
  rintro j _ _ _ s rfl
  refine RM.forRange ?_ rfl
  rintro N _ _ _ s rfl
  exact lorentzBody_num hdt.ne' _ _ _ _ _ _ _ _ _ _

end

/-- Every value of the map is updated, its medium is kept. -/
theorem mapUpdateJ_num {P P' : Type} (u : P → P') (Q : P → Prop) {upd' : P' → Tensor Xr → M (P' × Tensor Xr)}
    {upd : P → Tensor ℝ → M (P × Tensor ℝ)} (h : ∀ p Ez, Q p → RM (U fun r => (u r.1, ten r.2)) (upd' (u p) (ten Ez)) (upd p Ez)) :
    ∀ (l : List (String × P)) (Ez : Tensor ℝ), (∀ p ∈ l, Q p.2) →
      RM (U fun r => (pmap u r.1, ten r.2)) (mapUpdateJ upd' (pmap u l) (ten Ez)) (mapUpdateJ upd l Ez) := by
  intro l
  induction l with
  | nil => intro Ez _; exact RM.ok rfl
  | cons p l ih =>
    intro Ez hl
    obtain ⟨n, a⟩ := p
    exact (h a Ez (hl (n, a) (by simp))).bindU fun r _ => (ih r.2 fun q hq => hl q (by simp [hq])).bindU fun r _ => RM.pure rfl

theorem mapUpdateJ_keep {P : Type} (Q : P → Prop) {upd : P → Tensor ℝ → M (P × Tensor ℝ)}
    (h : ∀ p Ez r, upd p Ez = .ok r → Q p → Q r.1) :
    ∀ (l : List (String × P)) (Ez : Tensor ℝ) r, mapUpdateJ upd l Ez = .ok r → (∀ p ∈ l, Q p.2) → ∀ p ∈ r.1, Q p.2 := by
  intro l
  induction l with
  | nil => intro Ez r hr _; cases hr; simp
  | cons p l ih =>
    intro Ez r hr hl
    obtain ⟨n, a⟩ := p
    obtain ⟨x, h1, hr⟩ := (Except.bind_ok ..).mp hr
    obtain ⟨y, h2, hr⟩ := (Except.bind_ok ..).mp hr
    cases hr
    intro q hq
    rcases List.mem_cons.mp hq with rfl | hq
    · exact h a Ez x h1 (hl (n, a) (by simp))
    · exact ih _ _ h2 (fun q hq => hl q (by simp [hq])) q hq

theorem debyeJ_mat {g : Grid ℝ} {P : DebyePol ℝ} {pE Ez r} (h : P.updateJ g pE Ez = .ok r) : r.1.mat = P.mat := by
  obtain ⟨s, -, h⟩ := (Except.bind_ok ..).mp h
  cases h; rfl
theorem drudeJ_mat {g : Grid ℝ} {P : DrudePol ℝ} {pE Ez r} (h : P.updateJ g pE Ez = .ok r) : r.1.mat = P.mat := by
  obtain ⟨s, -, h⟩ := (Except.bind_ok ..).mp h
  cases h; rfl
theorem lorentzJ_mat {g : Grid ℝ} {P : LorentzPol ℝ} {pE Ez r} (h : P.updateJ g pE Ez = .ok r) : r.1.mat = P.mat := by
  obtain ⟨s, -, h⟩ := (Except.bind_ok ..).mp h
  cases h; rfl

/-! ## Running Fourier sums -/

section
variable {P : Type}

def acc (a : Acc ℝ P) : Acc Xr P := ⟨a.pos, fun p k => fin (a.re p k), fun p k => fin (a.im p k)⟩
def dft (d : Dft ℝ P) : Dft Xr P := ⟨fin d.t, d.freq.map fin, pmap acc d.acc⟩

theorem accAdd_num (name : String) (pos : List P) (l : List (String × Acc ℝ P)) :
    accAdd name pos (pmap acc l) = pmap acc (accAdd name pos l) := by
  induction l with
  | nil => rfl
  | cons p l ih =>
    obtain ⟨n, a⟩ := p
    simp only [pmap, List.map_cons, accAdd] at ih ⊢
    split_ifs
    · rfl
    · rfl
    · simp only [List.map_cons]; rw [ih]

theorem dft_make (l : List ℝ) : (Dft.make (l.map fin) : Dft Xr P) = dft (Dft.make l) := rfl

theorem dft_add (d : Dft ℝ P) (name : String) (pos : List P) : (dft d).add name pos = dft (d.add name pos) := by
  unfold Dft.add dft
  simp only [accAdd_num]

theorem getD_num (l : List ℝ) (k : ℕ) : (l.map fin).getD k 0 = fin (l.getD k 0) := by
  rw [List.getD_eq_getElem?_getD, List.getD_eq_getElem?_getD, List.getElem?_map]
  cases l[k]? <;> rfl

theorem dftCos_num (l : List ℝ) (t : ℝ) (k : ℤ) : dftCos (l.map fin) (fin t) k = fin (dftCos l t k) := by
  simp only [dftCos, getD_num, ofInt_fin, pi_fin, mul_fin, cos_fin, cos_real, ofInt_real, pi_real]

theorem dftSin_num (l : List ℝ) (t : ℝ) (k : ℤ) : dftSin (l.map fin) (fin t) k = fin (dftSin l t k) := by
  simp only [dftSin, getD_num, ofInt_fin, pi_fin, mul_fin, sin_fin, sin_real, ofInt_real, pi_real]

variable [DecidableEq P] {σ' σ : Type} (w : σ → σ')

theorem accPoint_num (l : List ℝ) (t : ℝ) {s' : P → σ' → M (Xr × σ')} {s : P → σ → M (ℝ × σ)}
    (h : ∀ p m, RM (U fun r => (fin r.1, w r.2)) (s' p (w m)) (s p m)) (p : P) (a : Acc ℝ P × σ) :
    RM (U fun r => (acc r.1, w r.2)) (accPoint (l.map fin) (fin t) s' p (acc a.1, w a.2)) (accPoint l t s p a) := by
  unfold accPoint
  refine (h p a.2).bindU fun r _ => RM.pure ?_
  simp only [U, acc, Prod.mk.injEq, Acc.mk.injEq, true_and, and_true, List.length_map]
  constructor
  · funext q k
    split_ifs
    · rw [dftCos_num, mul_fin, add_fin]
    · rfl
  · funext q k
    split_ifs
    · rw [dftSin_num, mul_fin, add_fin]
    · rfl

theorem accLoop_num (l : List ℝ) (t : ℝ) {s' : String → P → σ' → M (Xr × σ')} {s : String → P → σ → M (ℝ × σ)}
    (h : ∀ n p m, RM (U fun r => (fin r.1, w r.2)) (s' n p (w m)) (s n p m)) :
    ∀ (L : List (String × Acc ℝ P)) (m : σ),
      RM (U fun r => (pmap acc r.1, w r.2)) (accLoop (l.map fin) (fin t) s' (pmap acc L) (w m)) (accLoop l t s L m) := by
  intro L
  induction L with
  | nil => intro m; exact RM.ok rfl
  | cons p L ih =>
    intro m
    obtain ⟨n, a⟩ := p
    refine RM.bindU (u := fun r : Acc ℝ P × σ => (acc r.1, w r.2)) (RM.forSame a.pos ?_ rfl) fun r _ =>
      (ih r.2).bindU fun r _ => RM.pure rfl
    rintro p _ _ b rfl
    exact accPoint_num w l t (h n) p b

theorem dftUpdate_num {s' : String → P → σ' → M (Xr × σ')} {s : String → P → σ → M (ℝ × σ)}
    (h : ∀ n p m, RM (U fun r => (fin r.1, w r.2)) (s' n p (w m)) (s n p m)) (d : Dft ℝ P) (t : ℝ) (m : σ) :
    RM (U fun r => (dft r.1, w r.2)) ((dft d).update s' (fin t) (w m)) (d.update s t m) := by
  unfold Dft.update
  have e : eqb (dft d).t (fin t) = eqb d.t t := rfl
  rw [e]
  split_ifs
  · exact RM.ok rfl
  · exact (accLoop_num w d.freq t h d.acc m).bindU fun r _ => RM.pure rfl

end

/-! ## Signals, sources and the incident wave -/

/-- A time profile during a run. -/
structure TpNum (p' : TimeProfile Xr) (p : TimeProfile ℝ) : Prop where
  resp : ∀ t, p'.resp (fin t) = fin (p.resp t)
  dft : p'.dft = p.dft.map dft

theorem FinSignal.tp {p' : TimeProfile Xr} {p : TimeProfile ℝ} (h : FinSignal p' p) : TpNum p' p := by
  refine ⟨h.resp, ?_⟩
  obtain ⟨fr, h1, h2⟩ := h.dft
  rw [h1, h2]
  cases fr with
  | none => rfl
  | some l => simp only [Option.map_some, dft_make, dft_add]

theorem response_num {p' : TimeProfile Xr} {p : TimeProfile ℝ} (h : TpNum p' p) (t : ℝ) :
    RM (fun r' r => r'.1 = fin r.1 ∧ TpNum r'.2 r.2) (p'.response (fin t)) (p.response t) := by
  unfold TimeProfile.response
  simp only [h.resp, h.dft]
  cases hd : p.dft with
  | none => exact RM.ok ⟨rfl, h⟩
  | some d =>
    refine (dftUpdate_num (id : Unit → Unit) (s' := fun _ _ m => .ok (fin (p.resp t), m)) (s := fun _ _ m => .ok (p.resp t, m))
      (fun n p m => RM.ok rfl) d t ()).bindU fun r _ => RM.pure ⟨rfl, h.resp, rfl⟩

theorem addAt_num (f : Flds ℝ) (C : Fields) (i j : ℤ) (v : ℝ) : RM (U flds) ((flds f).addAt C i j (fin v)) (f.addAt C i j v) := by
  cases C with
  | Ez => exact (ten_rd ..).bindU fun _ _ => (ten_wr _ _ _ rfl).bindU fun _ _ => RM.pure rfl
  | Hx => exact (ten_rd ..).bindU fun _ _ => (ten_wr _ _ _ rfl).bindU fun _ _ => RM.pure rfl
  | Hy => exact (ten_rd ..).bindU fun _ _ => (ten_wr _ _ _ rfl).bindU fun _ _ => RM.pure rfl
  | E => exact RM.error
  | H => exact RM.error
  | all => exact RM.error

theorem lineLoop_num (C : Fields) (b tg : V2 ℤ) (v : ℝ) : ∀ (n : ℕ) (p : V2 ℤ) (f : Flds ℝ),
    RM (U flds) (lineLoop C b tg (fin v) n p (flds f)) (lineLoop C b tg v n p f) := by
  intro n
  induction n with
  | zero => intro p f; exact RM.error
  | succ n ih =>
    intro p f
    unfold lineLoop
    split_ifs
    · exact RM.ok rfl
    · exact (addAt_num ..).bindU fun f _ => ih _ f

/-- A source during a run. -/
structure SrcNum (s' : Source Xr) (s : Source ℝ) : Prop where
  kind : match s.kind, s'.kind with
    | .point C p, .point C' p' => C' = C ∧ p' = finV p
    | .line C k, .line C' k' => C' = C ∧ k'.a = finV k.a ∧ k'.b = finV k.b ∧ k'.sg = k.sg
    | _, _ => False
  tp : TpNum s'.tp s.tp

theorem FinSource.src {s' : Source Xr} {s : Source ℝ} (h : FinSource s' s) : SrcNum s' s := ⟨h.kind, FinSignal.tp h.signal⟩

theorem pulse_num {g : Grid ℝ} (hd : g.dx ≠ 0) (t : ℝ) {s' : Source Xr} {s : Source ℝ} (h : SrcNum s' s) (f : Flds ℝ) :
    ∀ f1, (s.pulse g t f).2 = .ok f1 → (s'.pulse (grid g) (fin t) (flds f)).2 = .ok (flds f1) ∧
      SrcNum (s'.pulse (grid g) (fin t) (flds f)).1 (s.pulse g t f).1 := by
  intro f1 hf
  obtain ⟨n, k, tp⟩ := s
  obtain ⟨n', k', tp'⟩ := s'
  obtain ⟨hk, ht⟩ := h
  have hr := response_num ht t
  cases k with
  | point C p =>
    cases k' with
    | line => exact hk.elim
    | point C' p' =>
      obtain ⟨rfl, rfl⟩ := hk
      simp only [Source.pulse] at hf ⊢
      rcases hr1 : tp.response t with e | ⟨v, tq⟩
      · rw [hr1] at hf; cases hf
      · obtain ⟨⟨v', tq'⟩, h1, h2, h3⟩ := hr.out _ hr1
        rw [hr1] at hf
        dsimp only at hf h2 h3 ht
        rw [h1]
        dsimp only
        subst h2
        rw [toGrid_num hd]
        obtain ⟨f2, h4, h5⟩ := (addAt_num f C' _ _ v).out _ hf
        exact ⟨h5 ▸ h4, ⟨rfl, rfl⟩, h3⟩
  | line C k =>
    cases k' with
    | point => exact hk.elim
    | line C' k' =>
      obtain ⟨rfl, ha, hb, hsg⟩ := hk
      have es : (grid g).toGridS k' = g.toGridS k := by
        unfold Grid.toGridS
        rw [ha, hb, hsg, toGrid_num hd, toGrid_num hd]
      simp only [Source.pulse, es] at hf ⊢
      rcases his : g.toGridS k with e | is
      · rw [his] at hf; cases hf
      rw [his] at hf
      dsimp only at hf ⊢
      rcases hr1 : tp.response t with e | ⟨v, tq⟩
      · rw [hr1] at hf; cases hf
      · obtain ⟨⟨v', tq'⟩, h1, h2, h3⟩ := hr.out _ hr1
        rw [hr1] at hf
        dsimp only at hf h2 h3 ht
        rw [h1]
        dsimp only
        subst h2
        obtain ⟨f2, h4, h5⟩ := (lineLoop_num C' _ _ v _ _ f).out _ hf
        exact ⟨h5 ▸ h4, ⟨rfl, ha, hb, hsg⟩, h3⟩

theorem pulseAll_num {g : Grid ℝ} (hd : g.dx ≠ 0) (t : ℝ) {l' : List (Source Xr)} {l : List (Source ℝ)} (h : List.Forall₂ SrcNum l' l) :
    ∀ f : Flds ℝ, RM (fun r' r => List.Forall₂ SrcNum r'.1 r.1 ∧ r'.2 = flds r.2) (pulseAll (grid g) (fin t) l' (flds f))
      (pulseAll g t l f) := by
  induction h with
  | nil => intro f; exact RM.ok ⟨.nil, rfl⟩
  | cons hs _ ih =>
    intro f
    refine ⟨fun r hr => ?_⟩
    obtain ⟨f1, h1, hr⟩ := (Except.bind_ok ..).mp hr
    obtain ⟨r2, h2, hr⟩ := (Except.bind_ok ..).mp hr
    cases hr
    obtain ⟨h3, h4⟩ := pulse_num hd t hs f f1 h1
    obtain ⟨r2', h5, h6, h7⟩ := (ih f1).out _ h2
    refine ⟨(_ :: r2'.1, r2'.2), ?_, .cons h4 h6, h7⟩
    simp only [pulseAll, h3, Except.ok_bind, h5]
    rfl

def line3 (s : Line3 ℝ) : Line3 Xr := ⟨arr s.Dz, arr s.Ez, arr s.Iz⟩

structure TfNum (w' : Tfsf Xr) (w : Tfsf ℝ) : Prop where
  ia : w'.ia = w.ia
  ib : w'.ib = w.ib
  ja : w'.ja = w.ja
  jb : w'.jb = w.jb
  Nx : w'.Nx = w.Nx
  tp : TpNum w'.tp w.tp
  fourier : w'.fourier = w.fourier.map dft
  dt : w'.dt = fin w.dt
  t : w'.t = fin w.t
  Ez : w'.Ez = arr w.Ez
  Dz : w'.Dz = arr w.Dz
  Hx : w'.Hx = arr w.Hx
  Iz : w'.Iz = arr w.Iz
  ca : w'.ca = arr w.ca
  cb : w'.cb = arr w.cb
  left0 : w'.left0 = fin w.left0
  left1 : w'.left1 = fin w.left1
  right0 : w'.right0 = fin w.right0
  right1 : w'.right1 = fin w.right1

theorem tfsfFourier_num (Ez Hx : Arr ℝ) (pE t : ℝ) (o : Option (Dft ℝ Unit)) :
    RM (U (Option.map dft)) (tfsfFourier (arr Ez) (arr Hx) (fin pE) (fin t) (o.map dft)) (tfsfFourier Ez Hx pE t o) := by
  cases o with
  | none => exact RM.ok rfl
  | some d =>
    refine (arr_rd ..).bindU fun e _ => (arr_rd ..).bindU fun a _ => (arr_rd ..).bindU fun b _ => ?_
    have e1 : (fin e + fin pE) / ofInt 2 = fin ((e + pE) / ofInt 2) := by
      rw [add_fin, ofInt_fin, Int.cast_ofNat, div_fin two_ne_zero]; rfl
    have e2 : (fin a + fin b) / ofInt 2 = fin ((a + b) / ofInt 2) := by
      rw [add_fin, ofInt_fin, Int.cast_ofNat, div_fin two_ne_zero]; rfl
    simp only [e1, e2]
    refine (dftUpdate_num (id : Unit → Unit) ?_ d t ()).bindU fun r _ => RM.pure rfl
    intro n p m
    unfold tfsfSample
    split_ifs
    · exact RM.ok rfl
    · exact RM.ok rfl
    · exact RM.error

theorem tfPulse_num {w' : Tfsf Xr} {w : Tfsf ℝ} (h : TfNum w' w) : RM TfNum w'.pulse w.pulse := by
  obtain ⟨h1, h2, h3, h4, h5, h6, h7, h8, h9, h10, h11, h12, h13, h14, h15, h16, h17, h18, h19⟩ := h
  unfold Tfsf.pulse
  simp only [h5, h7, h8, h9, h10, h11, h12, h13, h14, h15, h16, h17, h18, h19, add_fin]
  refine (arr_rd ..).bindU fun pE _ => ?_
  refine RM.bindU (u := line3) (RM.forRange ?_ rfl) fun s _ => ?_
  · rintro k _ _ _ s rfl
    refine (arr_rd ..).bindU fun _ _ => (arr_rd ..).bindU fun _ _ => (arr_rd ..).bindU fun _ _ => (arr_wr _ _ ?_).bindU fun _ _ =>
      (arr_rd ..).bindU fun _ _ => (arr_rd ..).bindU fun _ _ => (arr_rd ..).bindU fun _ _ => (arr_wr _ _ ?_).bindU fun _ _ =>
      (arr_rd ..).bindU fun _ _ => (arr_rd ..).bindU fun _ _ => (arr_rd ..).bindU fun _ _ => (arr_wr _ _ ?_).bindU fun _ _ => RM.pure rfl
    all_goals simp only [half_fin, half_real, mul_fin, add_fin, sub_fin]
  refine (response_num h6 _).bind ?_
  rintro ⟨v', tp'⟩ ⟨v, tp⟩ _ ⟨rfl, htp⟩
  refine (arr_wr _ _ rfl).bindU fun E1 _ => (arr_wr _ _ rfl).bindU fun E2 _ => (arr_rd ..).bindU fun _ _ =>
    (arr_wr _ _ rfl).bindU fun E3 _ => (arr_rd ..).bindU fun _ _ => (tfsfFourier_num ..).bindU fun _ _ => ?_
  refine RM.bindU (u := arr) (RM.forRange ?_ rfl) fun H _ => ?_
  · rintro k _ _ _ s rfl
    refine (arr_rd ..).bindU fun _ _ => (arr_rd ..).bindU fun _ _ => (arr_rd ..).bindU fun _ _ => arr_wr _ _ ?_
    simp only [half_fin, half_real, mul_fin, add_fin, sub_fin]
  exact RM.pure ⟨h1, h2, h3, h4, rfl, htp, rfl, rfl, rfl, rfl, rfl, rfl, rfl, rfl, rfl, rfl, rfl, rfl, rfl⟩

theorem addTo_num (a : Tensor ℝ) (i j : ℤ) {v' : Xr} {v : ℝ} (h : v' = fin v) : RM (U ten) ((ten a).addTo i j v') (a.addTo i j v) := by
  subst h
  exact (ten_rd ..).bindU fun _ _ => ten_wr _ _ _ rfl

theorem tfD_num {w' : Tfsf Xr} {w : Tfsf ℝ} (h : TfNum w' w) (Ez : Tensor ℝ) : RM (U ten) (w'.updateD (ten Ez)) (w.updateD Ez) := by
  unfold Tfsf.updateD
  rw [h.ia, h.ib, h.ja, h.jb, h.Nx, h.Hx]
  refine RM.forRange ?_ rfl
  rintro i _ _ _ s rfl
  refine (arr_rd ..).bindU fun _ _ => (addTo_num _ _ _ ?_).bindU fun _ _ => (arr_rd ..).bindU fun _ _ => addTo_num _ _ _ ?_
  all_goals simp only [half_fin, half_real, mul_fin, neg_fin]

theorem tfH_num {w' : Tfsf Xr} {w : Tfsf ℝ} (h : TfNum w' w) (p : HPair ℝ) : RM (U hpair) (w'.updateH (hpair p)) (w.updateH p) := by
  unfold Tfsf.updateH
  rw [h.ia, h.ib, h.ja, h.jb, h.Nx, h.Ez]
  refine RM.bindU (u := ten) (RM.forRange ?_ rfl) fun X _ => RM.bindU (u := ten) (RM.forRange ?_ rfl) fun Y _ => RM.pure rfl
  · rintro i _ _ _ s rfl
    refine (arr_rd ..).bindU fun _ _ => (addTo_num _ _ _ ?_).bindU fun _ _ => (arr_rd ..).bindU fun _ _ => addTo_num _ _ _ ?_
    all_goals simp only [half_fin, half_real, mul_fin, neg_fin]
  · rintro i _ _ _ s rfl
    refine (arr_rd ..).bindU fun _ _ => (addTo_num _ _ _ ?_).bindU fun _ _ => (arr_rd ..).bindU fun _ _ => addTo_num _ _ _ ?_
    all_goals simp only [half_fin, half_real, mul_fin, neg_fin]

end Num

end Qbox
