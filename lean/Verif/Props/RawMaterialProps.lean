import Verif.Lemmas.RawMaterials

/-!
# C88: materials whose parameter arrays have different lengths
-/

set_option linter.unusedSectionVars false

namespace Qbox.Props
open Scalar
variable {K : Type} [Scalar K]

/-- What a user may expect of a constructor that is given arrays of different lengths: it throws. -/
def Refused {α : Type} (x : M α) : Prop := ∃ m, x = .error (.exn m)

/-- **C88** (part that holds). If the arrays of the material have one length, inserting the object does what it does for the list of poles, pole `i` made
of the `i`-th entries. All that is proved of materials given as lists of poles holds of them. -/
theorem C88_partial (c : Core K) (o : Object K) (name : String) (k : RawKind K) (h : k.Even) :
    c.insertRaw o name k = c.insertObject { o with mat := ⟨name, k.zip⟩ } := by
  unfold Core.insertRaw Core.insertObject
  rw [paintRaw_even c.g o name k c.f h]
  cases k with
  | debye m =>
    simp only [RawKind.zip]
    congr 1; funext f
    rw [addRaw_eq name _ (DebyePol.make c.g m.zip) (fun P => P.insert c.g o) (fun P => P.insert c.g { o with mat := ⟨name, .debye m.zip⟩ }) _
      (m.fresh_even c.g o _ h fun _ _ _ => rfl) fun _ => rfl]
  | drude m =>
    simp only [RawKind.zip]
    congr 1; funext f
    rw [addRaw_eq name _ (DrudePol.make c.g m.zip) (fun P => P.insert c.g o) (fun P => P.insert c.g { o with mat := ⟨name, .drude m.zip⟩ }) _
      (m.fresh_even c.g o _ h fun _ _ _ => rfl) fun _ => rfl]
  | lorentz m =>
    simp only [RawKind.zip]
    congr 1; funext f
    rw [addRaw_eq name _ (LorentzPol.make c.g m.zip) (fun P => P.insert c.g o) (fun P => P.insert c.g { o with mat := ⟨name, .lorentz m.zip⟩ }) _
      (m.fresh_even c.g o _ h.1 h.2 fun _ _ _ => rfl) fun _ => rfl]

/-- The entries of the list of poles are those of the arrays, in their order, and none is lost. -/
theorem C88_poles (m : RawLorentz K) (h : (RawKind.lorentz m).Even) :
    m.zip.poles.map (·.omega) = m.omega ∧ m.zip.poles.map (·.dEps) = m.dEps ∧ m.zip.poles.map (·.gamma) = m.gamma := by
  obtain ⟨e, w, d, c⟩ := m
  obtain ⟨h1, h2⟩ := h
  simp only at h1 h2
  unfold RawLorentz.zip
  simp only
  induction w generalizing d c with
  | nil => cases d <;> cases c <;> first | (cases h1; done) | (cases h2; done) | exact ⟨rfl, rfl, rfl⟩
  | cons x w ih => cases d with
    | nil => cases h1
    | cons y d => cases c with
      | nil => cases h2
      | cons z c =>
        obtain ⟨i1, i2, i3⟩ := ih d c (by simpa using h1) (by simpa using h2)
        simp only [List.zip_cons_cons, List.zipWith_cons_cons, List.map_cons, i1, i2, i3, and_self]

/-- No material is ever refused: inserting an object of a dispersive material throws nothing, whatever the arrays. -/
theorem C88_never_refused (c : Core K) (o : Object K) (name : String) (k : RawKind K) : ¬Refused (c.insertRaw o name k) := by
  rintro ⟨m, h⟩
  cases OnlyOob.insertRaw c o name k _ h

/-- Arrays of different lengths: if the name of the material is new, inserting the object is always undefined behaviour, even if it covers no node. -/
theorem C88_new_name (c : Core K) (o : Object K) (name : String) (k : RawKind K) (h : ¬k.Even)
    (hn : mapFind name c.debye = none ∧ mapFind name c.drude = none ∧ mapFind name c.lorentz = none) :
    c.insertRaw o name k = .error (.ub .oob) := by
  refine (OnlyOob.insertRaw c o name k).fails fun c' e => ?_
  unfold Core.insertRaw at e
  obtain ⟨f, _, e⟩ := (Except.bind_ok ..).mp e
  cases k with
  | debye m =>
    simp only [addRaw, hn.1, RawDebye.fresh, m.beta_uneven c.g.dt h, Except.error_bind] at e
    cases e
  | drude m =>
    simp only [addRaw, hn.2.1, RawDrude.fresh, m.beta_uneven c.g.dt h, Except.error_bind] at e
    cases e
  | lorentz m =>
    simp only [addRaw, hn.2.2, RawLorentz.fresh, m.delta_uneven c.g.dt h, Except.error_bind] at e
    cases e

/-- Arrays of different lengths: whatever the name, inserting an object that covers a node of the domain is undefined behaviour. -/
theorem C88_covering (c : Core K) (o : Object K) (name : String) (k : RawKind K) (h : ¬k.Even) (i j : ℤ)
    (hi : (objBox c.g o).a.x ≤ i ∧ i ≤ (objBox c.g o).b.x) (hj : (objBox c.g o).a.y ≤ j ∧ j ≤ (objBox c.g o).b.y)
    (hin : o.inside (c.g.toReal ⟨i, j⟩) = true) :
    c.insertRaw o name k = .error (.ub .oob) := by
  refine (OnlyOob.insertRaw c o name k).fails fun c' e => ?_
  unfold Core.insertRaw at e
  obtain ⟨f, e, _⟩ := (Except.bind_ok ..).mp e
  unfold paintRaw at e
  refine Nan.forRange_hit (fun _ => False) i hi.1 (by omega) (fun s s' e => ?_) (fun _ _ _ _ _ _ q => q) _ _ e
  refine Nan.forRange_hit (fun _ => False) j hj.1 (by omega) (fun s s' e => ?_) (fun _ _ _ _ _ _ q => q) _ _ e
  simp only [hin, if_true, setRaw_uneven k c.g.dt i j s h] at e
  cases e

/-- **C88** is false: for every domain without materials and every object there is a material with arrays of different lengths that is not refused. -/
theorem C88_false (c : Core K) (o : Object K) (hn : c.debye = [] ∧ c.drude = [] ∧ c.lorentz = []) :
    ∃ k : RawKind K, ¬k.Even ∧ ¬Refused (c.insertRaw o "m" k) ∧ c.insertRaw o "m" k = .error (.ub .oob) := by
  have he : ¬(RawKind.debye (⟨1, [1, 1], [1]⟩ : RawDebye K)).Even := by unfold RawKind.Even; simp
  refine ⟨.debye ⟨1, [1, 1], [1]⟩, he, C88_never_refused _ _ _ _, C88_new_name _ _ _ _ he ?_⟩
  rw [hn.1, hn.2.1, hn.2.2]
  exact ⟨rfl, rfl, rfl⟩

/-! ### `drude_lorentz` -/

/-- With arrays of one length `drude_lorentz` makes what it makes of the lists of poles. -/
theorem C88_joined (d : RawDrude K) (l : RawLorentz K) (hd : (RawKind.drude d).Even) (hl : (RawKind.lorentz l).Even) :
    ∃ r, rawDrudeLorentz d l = .ok r ∧ (RawKind.lorentz r).Even ∧ r.zip = drudeLorentz d.zip l.zip := by
  obtain ⟨e, w, c⟩ := d
  obtain ⟨e', w', d', c'⟩ := l
  obtain ⟨h1, h2⟩ := hl
  change w.length = c.length at hd
  simp only at h1 h2
  refine ⟨⟨e, w.map (fun _ => lit1e20) ++ w', w.map (fun x => npow x 2 / npow lit1e20 2) ++ d', c.map (fun x => x / ofInt 2) ++ c'⟩, ?_, ?_, ?_⟩
  · unfold rawDrudeLorentz comma
    simp only [List.length_map, ← hd, ← h1, ← h2, if_true, Except.ok_bind]
    rfl
  · exact ⟨by simp [h1], by simp [hd, h2]⟩
  · unfold RawLorentz.zip drudeLorentz RawDrude.zip
    simp only
    congr 1
    induction w generalizing c with
    | nil => cases c with
      | nil => rfl
      | cons _ _ => cases hd
    | cons x w ih => cases c with
      | nil => cases hd
      | cons y c =>
        simp only [List.map_cons, List.cons_append, List.zip_cons_cons, List.zipWith_cons_cons]
        rw [ih c (by simpa using hd)]

/-- What `drude_lorentz` needs is less: that the lengths match in sum. -/
theorem C88_joined_iff (d : RawDrude K) (l : RawLorentz K) :
    (∃ r, rawDrudeLorentz d l = .ok r) ↔
      l.dEps.length = l.omega.length ∧ d.gamma.length + l.gamma.length = d.omega.length + l.omega.length := by
  unfold rawDrudeLorentz comma
  simp only [List.length_map, if_true, Except.ok_bind, Nat.add_left_cancel_iff]
  by_cases h1 : l.dEps.length = l.omega.length
  · by_cases h2 : d.gamma.length + l.gamma.length = d.omega.length + l.omega.length
    · simp only [h1, h2, if_true, Except.ok_bind, and_self, iff_true]
      exact ⟨_, rfl⟩
    · simp only [h1, h2, if_true, if_false, Except.ok_bind, Except.error_bind, and_false, iff_false]
      rintro ⟨_, h⟩; cases h
  · simp only [h1, if_false, Except.error_bind, false_and, iff_false]
    rintro ⟨_, h⟩; cases h

/-- So two materials that could not be used alone are joined without a word, and the damping of the second Lorentz pole is the surplus entry of the Drude
material. -/
theorem C88_mispaired (w c1 c2 w' d' : K) :
    ∃ (d : RawDrude K) (l : RawLorentz K) (r : RawLorentz K), ¬(RawKind.drude d).Even ∧ ¬(RawKind.lorentz l).Even ∧
      d.gamma = [c1, c2] ∧ l.gamma = [] ∧ l.omega = [w'] ∧ l.dEps = [d'] ∧
      rawDrudeLorentz d l = .ok r ∧ (RawKind.lorentz r).Even ∧
      r.zip.poles = [⟨lit1e20, npow w 2 / npow lit1e20 2, c1 / ofInt 2⟩, ⟨w', d', c2 / ofInt 2⟩] := by
  refine ⟨⟨1, [w], [c1, c2]⟩, ⟨1, [w'], [d'], []⟩, _, ?_, ?_, rfl, rfl, rfl, rfl, rfl, ?_, rfl⟩
  · unfold RawKind.Even; simp
  · unfold RawKind.Even; simp
  · unfold RawKind.Even; simp

end Qbox.Props
