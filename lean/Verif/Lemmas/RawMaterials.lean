import Verif.Model.RawMaterials
import Verif.Lemmas.NanSpread

/-! # Parameter arrays of equal and of different lengths -/

set_option linter.unusedSectionVars false

namespace Qbox
open Scalar
variable {K : Type} [Scalar K]

/-- The arrays of the material have one length. -/
def RawKind.Even : RawKind K → Prop
  | .debye m => m.dEps.length = m.tau.length
  | .drude m => m.omega.length = m.gamma.length
  | .lorentz m => m.omega.length = m.dEps.length ∧ m.omega.length = m.gamma.length

/-- The material as a list of poles. -/
def RawKind.zip : RawKind K → MatKind K
  | .debye m => .debye m.zip
  | .drude m => .drude m.zip
  | .lorentz m => .lorentz m.zip

/-- The only possible failure is an access outside an array. -/
def OnlyOob {α : Type} (x : M α) : Prop := ∀ e, x = .error e → e = .ub .oob

namespace OnlyOob
variable {α β : Type}

theorem ok (a : α) : OnlyOob (.ok a : M α) := fun _ h => by cases h
theorem pure (a : α) : OnlyOob (Pure.pure a : M α) := fun _ h => by cases h
theorem oob : OnlyOob (.error (.ub .oob) : M α) := fun _ h => by cases h; rfl

theorem bind {x : M α} {f : α → M β} (hx : OnlyOob x) (hf : ∀ a, OnlyOob (f a)) : OnlyOob (x >>= f) := by
  intro e h
  cases x with
  | error e' => exact hx e (by rw [Except.error_bind] at h; cases h; rfl)
  | ok a => exact hf a e h

theorem forRange {σ : Type} {lo hi : ℤ} {s : σ} {body : ℤ → σ → M σ} (h : ∀ i s, OnlyOob (body i s)) : OnlyOob (forRange lo hi s body) := by
  unfold Qbox.forRange
  generalize intRange lo hi = l
  induction l generalizing s with
  | nil => exact OnlyOob.pure s
  | cons i l ih => rw [List.foldlM_cons]; exact (h i s).bind fun _ => ih

theorem arr_rd (a : Arr K) (i : ℤ) : OnlyOob (a.rd i) := by
  unfold Arr.rd; split <;> first | exact ok _ | exact oob
theorem wr (a : Tensor K) (i j : ℤ) (v : K) : OnlyOob (a.wr i j v) := by
  unfold Tensor.wr; split <;> first | exact ok _ | exact oob
theorem wr3 (a : Tensor3 K) (i j k : ℤ) (v : K) : OnlyOob (a.wr i j k v) := by
  unfold Tensor3.wr; split <;> first | exact ok _ | exact oob
theorem cwise (op : K → K → K) (a b : List K) : OnlyOob (cwise op a b) := by
  unfold Qbox.cwise; split <;> first | exact ok _ | exact oob
theorem comma (n : ℕ) (a b : List K) : OnlyOob (comma n a b) := by
  unfold Qbox.comma; split <;> first | exact ok _ | exact oob

/-- A computation that cannot succeed fails by the access. -/
theorem fails {x : M α} (h : OnlyOob x) (no : ∀ a, x ≠ .ok a) : x = .error (.ub .oob) := by
  cases x with
  | ok a => exact absurd rfl (no a)
  | error e => rw [h e rfl]

end OnlyOob

theorem OnlyOob.Ca (k : RawKind K) (dt : K) : OnlyOob (k.Ca dt) := by
  cases k with
  | debye m => exact .ok _
  | drude m => exact (OnlyOob.cwise _ _ _).bind fun _ => .pure _
  | lorentz m => exact ((OnlyOob.cwise _ _ _).bind fun _ => .cwise _ _ _).bind fun _ => .pure _

theorem OnlyOob.Cb (k : RawKind K) (dt : K) : OnlyOob (k.Cb dt) := by
  cases k with
  | debye m => exact ((OnlyOob.cwise _ _ _).bind fun _ => .cwise _ _ _).bind fun _ => .pure _
  | drude m => exact (OnlyOob.cwise _ _ _).bind fun _ => .pure _
  | lorentz m => exact ((OnlyOob.cwise _ _ _).bind fun _ => .cwise _ _ _).bind fun _ => .pure _

theorem OnlyOob.setRaw (k : RawKind K) (dt : K) (i j : ℤ) (f : Flds K) : OnlyOob (setRaw k dt i j f) :=
  (OnlyOob.Ca k dt).bind fun _ => (wr _ _ _ _).bind fun _ => (OnlyOob.Cb k dt).bind fun _ => (wr _ _ _ _).bind fun _ =>
    (wr _ _ _ _).bind fun _ => (wr _ _ _ _).bind fun _ => .pure _

theorem OnlyOob.paintRaw (g : Grid K) (o : Object K) (k : RawKind K) (f : Flds K) : OnlyOob (paintRaw g o k f) := by
  unfold Qbox.paintRaw
  refine OnlyOob.forRange fun i s => OnlyOob.forRange fun j s => ?_
  split
  · exact OnlyOob.setRaw _ _ _ _ _
  · exact .ok _

theorem OnlyOob.insertLoop (g : Grid K) (np : ℤ) (v : Arr K) (o : Object K) (b : Tensor3 K) : OnlyOob (insertLoop g np v o b) := by
  unfold Qbox.insertLoop
  refine OnlyOob.forRange fun i s => OnlyOob.forRange fun j s => ?_
  split
  · exact OnlyOob.forRange fun N s => (arr_rd _ _).bind fun _ => wr3 _ _ _ _ _
  · exact .ok _

theorem OnlyOob.addRaw {P : Type} (name : String) (fresh : M P) (ins : P → M P) (l : List (String × P)) (h : OnlyOob fresh)
    (hi : ∀ p, OnlyOob (ins p)) : OnlyOob (addRaw name fresh ins l) := by
  unfold Qbox.addRaw
  split
  · exact h.bind fun _ => .pure _
  · exact (hi _).bind fun _ => .pure _

theorem OnlyOob.insertRaw (c : Core K) (o : Object K) (name : String) (k : RawKind K) : OnlyOob (c.insertRaw o name k) := by
  unfold Core.insertRaw
  refine (OnlyOob.paintRaw _ _ _ _).bind fun f => ?_
  cases k with
  | debye m =>
    exact (OnlyOob.addRaw _ _ _ _ (((OnlyOob.cwise _ _ _).bind fun _ => .cwise _ _ _).bind fun _ => (OnlyOob.insertLoop _ _ _ _ _).bind fun _ => .pure _)
      fun _ => (OnlyOob.insertLoop _ _ _ _ _).bind fun _ => .pure _).bind fun _ => .pure _
  | drude m =>
    exact (OnlyOob.addRaw _ _ _ _ ((OnlyOob.cwise _ _ _).bind fun _ => (OnlyOob.insertLoop _ _ _ _ _).bind fun _ => .pure _)
      fun _ => (OnlyOob.insertLoop _ _ _ _ _).bind fun _ => .pure _).bind fun _ => .pure _
  | lorentz m =>
    exact (OnlyOob.addRaw _ _ _ _ (((OnlyOob.cwise _ _ _).bind fun _ => .cwise _ _ _).bind fun _ => (OnlyOob.insertLoop _ _ _ _ _).bind fun _ => .pure _)
      fun _ => (OnlyOob.insertLoop _ _ _ _ _).bind fun _ => .pure _).bind fun _ => .pure _

/-! ### Arrays of one length -/

theorem RawDebye.beta_even (m : RawDebye K) (dt : K) (h : m.dEps.length = m.tau.length) :
    m.beta dt = .ok (m.zip.poles.map (·.beta dt)) := by
  obtain ⟨e, a, b⟩ := m
  simp only at h
  unfold RawDebye.beta cwise RawDebye.zip
  simp only [List.length_map, h, if_true, Except.ok_bind, List.length_zipWith, min_self]
  congr 1
  induction a generalizing b with
  | nil => rfl
  | cons x a ih => cases b with
    | nil => rfl
    | cons y b => simp only [List.map_cons, List.zipWith_cons_cons]; rw [ih b (by simpa using h)]; rfl

theorem RawDrude.beta_even (m : RawDrude K) (dt : K) (h : m.omega.length = m.gamma.length) :
    m.beta dt = .ok (m.zip.poles.map (·.beta dt)) := by
  obtain ⟨e, a, b⟩ := m
  simp only at h
  unfold RawDrude.beta cwise RawDrude.zip
  simp only [List.length_map, h, if_true]
  congr 1
  induction a generalizing b with
  | nil => rfl
  | cons x a ih => cases b with
    | nil => rfl
    | cons y b => simp only [List.map_cons, List.zipWith_cons_cons]; rw [ih b (by simpa using h)]; rfl

theorem RawLorentz.delta_even (m : RawLorentz K) (dt : K) (h : m.omega.length = m.dEps.length) (h' : m.omega.length = m.gamma.length) :
    m.delta dt = .ok (m.zip.poles.map (·.delta dt)) := by
  obtain ⟨e, w, d, c⟩ := m
  simp only at h h'
  unfold RawLorentz.delta cwise RawLorentz.zip
  simp only [List.length_map, ← h, ← h', if_true, Except.ok_bind, List.length_zipWith, min_self]
  congr 1
  induction w generalizing d c with
  | nil => cases d <;> cases c <;> rfl
  | cons x w ih => cases d with
    | nil => cases h
    | cons y d => cases c with
      | nil => cases h'
      | cons z c =>
        simp only [List.map_cons, List.zipWith_cons_cons, List.zip_cons_cons]
        rw [ih d c (by simpa using h) (by simpa using h')]
        rfl

theorem RawKind.Ca_even (k : RawKind K) (dt : K) (h : k.Even) : k.Ca dt = .ok (k.zip.Ca dt) := by
  cases k with
  | debye m => rfl
  | drude m => show (m.beta dt >>= fun _ => _) = _; rw [m.beta_even dt h]; rfl
  | lorentz m => show (m.delta dt >>= fun _ => _) = _; rw [m.delta_even dt h.1 h.2]; rfl

theorem RawKind.Cb_even (k : RawKind K) (dt : K) (h : k.Even) : k.Cb dt = .ok (k.zip.Cb dt) := by
  cases k with
  | debye m => show (m.beta dt >>= fun _ => _) = _; rw [m.beta_even dt h]; rfl
  | drude m => show (m.beta dt >>= fun _ => _) = _; rw [m.beta_even dt h]; rfl
  | lorentz m => show (m.delta dt >>= fun _ => _) = _; rw [m.delta_even dt h.1 h.2]; rfl

theorem paintRaw_even (g : Grid K) (o : Object K) (name : String) (k : RawKind K) (f : Flds K) (h : k.Even) :
    paintRaw g o k f = paintObject g { o with mat := ⟨name, k.zip⟩ } f := by
  have : ∀ i j f, setRaw k g.dt i j f = setMat k.zip g.dt i j f := by
    intro i j f
    unfold setRaw setMat
    rw [k.Ca_even g.dt h, k.Cb_even g.dt h]
    cases k <;> rfl
  unfold paintRaw paintObject
  simp only [this]
  rfl

theorem addRaw_eq {P : Type} (name : String) (fresh : M P) (new : P) (ins ins' : P → M P) (l : List (String × P)) (h : fresh = ins' new)
    (hi : ∀ p, ins p = ins' p) : addRaw name fresh ins l = addPol name new ins' l := by
  unfold addRaw addPol
  cases mapFind name l with
  | none => simp only [h]
  | some p => simp only [hi]

theorem RawDebye.fresh_even (g : Grid K) (m : RawDebye K) (o o' : Object K) (h : m.dEps.length = m.tau.length)
    (ho : ∀ n v b, insertLoop g n v o b = insertLoop g n v o' b) : m.fresh g o = (DebyePol.make g m.zip).insert g o' := by
  have hl : m.zip.poles.length = m.dEps.length := by simp [RawDebye.zip, ← h]
  unfold RawDebye.fresh DebyePol.insert DebyePol.make
  rw [m.beta_even g.dt h, Except.ok_bind]
  simp only [hl, ho]

theorem RawDrude.fresh_even (g : Grid K) (m : RawDrude K) (o o' : Object K) (h : m.omega.length = m.gamma.length)
    (ho : ∀ n v b, insertLoop g n v o b = insertLoop g n v o' b) : m.fresh g o = (DrudePol.make g m.zip).insert g o' := by
  have hl : m.zip.poles.length = m.omega.length := by simp [RawDrude.zip, ← h]
  unfold RawDrude.fresh DrudePol.insert DrudePol.make
  rw [m.beta_even g.dt h, Except.ok_bind]
  simp only [hl, ho]

theorem RawLorentz.fresh_even (g : Grid K) (m : RawLorentz K) (o o' : Object K) (h : m.omega.length = m.dEps.length)
    (h' : m.omega.length = m.gamma.length) (ho : ∀ n v b, insertLoop g n v o b = insertLoop g n v o' b) :
    m.fresh g o = (LorentzPol.make g m.zip).insert g o' := by
  have hl : m.zip.poles.length = m.omega.length := by simp [RawLorentz.zip, ← h, ← h']
  unfold RawLorentz.fresh LorentzPol.insert LorentzPol.make
  rw [m.delta_even g.dt h h', Except.ok_bind]
  simp only [hl, ho]

/-! ### Arrays of different lengths -/

theorem cwise_uneven (op : K → K → K) (a b : List K) (h : a.length ≠ b.length) : cwise op a b = .error (.ub .oob) := if_neg h

theorem RawDebye.beta_uneven (m : RawDebye K) (dt : K) (h : m.dEps.length ≠ m.tau.length) : m.beta dt = .error (.ub .oob) := by
  unfold RawDebye.beta
  rw [cwise_uneven _ _ _ (by simpa using h)]; rfl

theorem RawDrude.beta_uneven (m : RawDrude K) (dt : K) (h : m.omega.length ≠ m.gamma.length) : m.beta dt = .error (.ub .oob) := by
  unfold RawDrude.beta
  rw [cwise_uneven _ _ _ (by simpa using h)]

theorem RawLorentz.delta_uneven (m : RawLorentz K) (dt : K) (h : ¬(m.omega.length = m.dEps.length ∧ m.omega.length = m.gamma.length)) :
    m.delta dt = .error (.ub .oob) := by
  unfold RawLorentz.delta
  by_cases h1 : m.omega.length = m.dEps.length
  · have h2 : m.omega.length ≠ m.gamma.length := fun h2 => h ⟨h1, h2⟩
    unfold cwise
    simp [← h1, h2]
  · rw [cwise_uneven _ _ _ (by simpa using Ne.symm h1)]; rfl

theorem RawKind.Cb_uneven (k : RawKind K) (dt : K) (h : ¬k.Even) : k.Cb dt = .error (.ub .oob) := by
  cases k with
  | debye m => show (m.beta dt >>= fun _ => _) = _; rw [m.beta_uneven dt h]; rfl
  | drude m => show (m.beta dt >>= fun _ => _) = _; rw [m.beta_uneven dt h]; rfl
  | lorentz m => show (m.delta dt >>= fun _ => _) = _; rw [m.delta_uneven dt h]; rfl

theorem setRaw_uneven (k : RawKind K) (dt : K) (i j : ℤ) (f : Flds K) (h : ¬k.Even) : setRaw k dt i j f = .error (.ub .oob) := by
  refine (OnlyOob.setRaw k dt i j f).fails fun a e => ?_
  unfold setRaw at e
  obtain ⟨_, _, e⟩ := (Except.bind_ok ..).mp e
  obtain ⟨_, _, e⟩ := (Except.bind_ok ..).mp e
  rw [k.Cb_uneven dt h] at e
  cases e

end Qbox
