import Verif.Lemmas.NumberStep
import Verif.Lemmas.Std

/-!
# Whole programs in an arithmetic with infinities and NaN
-/

namespace Qbox
open Scalar Spec Spec.Xr

set_option linter.unusedSectionVars false
set_option linter.unusedSimpArgs false

namespace Num

/-- The state is the state of exact arithmetic, with numbers in all places that the program reads. -/
structure CoreNum (c' : Core Xr) (c : Core ℝ) : Prop where
  g : c'.g = grid c.g
  tStep : c'.tStep = c.tStep
  t : c'.t = fin c.t
  f : c'.f = flds c.f
  sc : c'.sc = scal c.sc
  pml : PmlNum c'.pml c.pml
  prevE : c'.prevE = c.prevE.map ten
  prev2E : c'.prev2E = c.prev2E.map ten
  debye : c'.debye = pmap debyePol c.debye
  drude : c'.drude = pmap drudePol c.drude
  lorentz : c'.lorentz = pmap lorentzPol c.lorentz
  tfsf : Option.Rel TfNum c'.tfsf c.tfsf

/-- What the updates need to know about the numbers. -/
structure Sound (c : Core ℝ) : Prop where
  dx : 0 < c.g.dx
  dt : 0 < c.g.dt
  sc : c.sc.Plain c.g.dx
  par : c.pml.par.dx = c.g.dx
  debye : ∀ p ∈ c.debye, SoundKind (.debye p.2.mat)
  drude : ∀ p ∈ c.drude, SoundKind (.drude p.2.mat)
  lorentz : ∀ p ∈ c.lorentz, SoundKind (.lorentz p.2.mat)

theorem assignIf_map (o v : Option (Tensor ℝ)) : assignIf (o.map ten) (v.map ten) = (assignIf o v).map ten := by cases o <;> rfl

theorem orInit_map (o : Option (Tensor ℝ)) (v : Tensor ℝ) : orInit (o.map ten) (ten v) = (orInit o v).map ten := by cases o <;> rfl

theorem optD_num {o' : Option (Tfsf Xr)} {o : Option (Tfsf ℝ)} (h : Option.Rel TfNum o' o) (Ez : Tensor ℝ) :
    RM (U ten) (optUpdateD o' (ten Ez)) (optUpdateD o Ez) := by
  cases h with
  | none => exact RM.ok rfl
  | some h => exact tfD_num h Ez

theorem optH_num {o' : Option (Tfsf Xr)} {o : Option (Tfsf ℝ)} (h : Option.Rel TfNum o' o) (p : HPair ℝ) :
    RM (U hpair) (optUpdateH o' (hpair p)) (optUpdateH o p) := by
  cases h with
  | none => exact RM.ok rfl
  | some h => exact tfH_num h p

theorem optPulse_num {o' : Option (Tfsf Xr)} {o : Option (Tfsf ℝ)} (h : Option.Rel TfNum o' o) :
    RM (Option.Rel TfNum) (optPulse o') (optPulse o) := by
  cases h with
  | none => exact RM.ok .none
  | some h => exact (tfPulse_num h).bind fun _ _ _ h => RM.pure (.some h)

theorem pml_par_E {p : Pml ℝ} {Hx Hy Cb Ez : Tensor ℝ} {r} (h : p.updateE Hx Hy Cb Ez = .ok r) : r.1.par = p.par := by
  obtain ⟨_, -, h⟩ := (Except.bind_ok ..).mp h
  obtain ⟨_, -, h⟩ := (Except.bind_ok ..).mp h
  cases h; rfl

theorem pml_par_H {p : Pml ℝ} {Ez Db Hx Hy : Tensor ℝ} {r} (h : p.updateH Ez Db Hx Hy = .ok r) : r.1.par = p.par := by
  obtain ⟨_, -, h⟩ := (Except.bind_ok ..).mp h
  obtain ⟨_, -, h⟩ := (Except.bind_ok ..).mp h
  cases h; rfl

theorem stageE_num {c' : Core Xr} {c : Core ℝ} (h : CoreNum c' c) (hs : Sound c) :
    RM (fun d' d => CoreNum d' d ∧ Sound d) c'.stageE c.stageE := by
  obtain ⟨h1, h2, h3, h4, h5, h6, h7, h8, h9, h10, h11, h12⟩ := h
  have hd : c.pml.par.dx ≠ 0 := by rw [hs.par]; exact hs.dx.ne'
  unfold Core.stageE
  rw [h1, h4, h5, h7, h8, h9, h10, h11]
  have e1 : (some (flds c.f).Ez) = (some c.f.Ez).map ten := rfl
  simp only [e1, assignIf_map]
  refine (ezLoop_num _ _ _ _ hs.dx.ne' hs.sc).bindU fun E1 _ => (updateE_num h6 hd _ _ _ _).bind ?_
  rintro ⟨p', E2'⟩ ⟨p, E2⟩ hp ⟨hpn, e2⟩
  dsimp only at e2 hpn ⊢
  subst e2
  refine (mapUpdateJ_num debyePol (fun P => SoundKind (.debye P.mat)) (fun P Ez hP => debyeJ_num hs.dt hP _ Ez) _ _ hs.debye).bindU
    fun r1 hr1 => ?_
  refine (mapUpdateJ_num drudePol (fun P => SoundKind (.drude P.mat)) (fun P Ez hP => drudeJ_num hs.dt hP _ Ez) _ _ hs.drude).bindU
    fun r2 hr2 => ?_
  refine (mapUpdateJ_num lorentzPol (fun P => SoundKind (.lorentz P.mat)) (fun P Ez hP => lorentzJ_num hs.dt hP _ Ez) _ _ hs.lorentz).bindU
    fun r3 hr3 => ?_
  refine (optD_num h12 _).bindU fun E6 _ => RM.pure ⟨⟨rfl, ?_, ?_, rfl, rfl, hpn, rfl, rfl, rfl, rfl, rfl, h12⟩, hs.dx, hs.dt, hs.sc, ?_, ?_, ?_, ?_⟩
  · show c'.tStep + 1 = c.tStep + 1
    rw [h2]
  · show c'.t + fin c.g.dt = fin (c.t + c.g.dt)
    rw [h3, add_fin]
  · show p.par.dx = c.g.dx
    rw [pml_par_E hp]; exact hs.par
  · exact mapUpdateJ_keep (fun P => SoundKind (.debye P.mat)) (fun P Ez r hr hP => by rw [debyeJ_mat hr]; exact hP) _ _ _ hr1 hs.debye
  · exact mapUpdateJ_keep (fun P => SoundKind (.drude P.mat)) (fun P Ez r hr hP => by rw [drudeJ_mat hr]; exact hP) _ _ _ hr2 hs.drude
  · exact mapUpdateJ_keep (fun P => SoundKind (.lorentz P.mat)) (fun P Ez r hr hP => by rw [lorentzJ_mat hr]; exact hP) _ _ _ hr3 hs.lorentz

theorem stageH_num {c' : Core Xr} {c : Core ℝ} (h : CoreNum c' c) (hs : Sound c) :
    RM (fun d' d => CoreNum d' d ∧ Sound d) c'.stageH c.stageH := by
  obtain ⟨h1, h2, h3, h4, h5, h6, h7, h8, h9, h10, h11, h12⟩ := h
  have hd : c.pml.par.dx ≠ 0 := by rw [hs.par]; exact hs.dx.ne'
  unfold Core.stageH
  rw [h1, h4, h5]
  refine (optPulse_num h12).bind fun t' t _ ht => (hLoop_num _ _ _ _ hs.dx.ne' hs.sc).bindU fun p _ =>
    (updateH_num h6 hd _ _ _ _).bind ?_
  rintro ⟨p', X', Y'⟩ ⟨p, X, Y⟩ hp ⟨hpn, e2, e3⟩
  dsimp only at e2 e3 hpn ⊢
  subst e2 e3
  refine (optH_num ht ⟨X, Y⟩).bindU fun q _ => RM.pure ⟨⟨rfl, h2, h3, rfl, rfl, hpn, h7, h8, h9, h10, h11, ht⟩, hs.dx, hs.dt, hs.sc, ?_,
    hs.debye, hs.drude, hs.lorentz⟩
  show p.par.dx = c.g.dx
  rw [pml_par_H hp]; exact hs.par

theorem update_num {c' : Core Xr} {c : Core ℝ} (h : CoreNum c' c) (hs : Sound c) {l' : List (Source Xr)} {l : List (Source ℝ)}
    (hl : List.Forall₂ SrcNum l' l) :
    RM (fun r' r => CoreNum r'.1 r.1 ∧ Sound r.1 ∧ List.Forall₂ SrcNum r'.2 r.2) (c'.update l') (c.update l) := by
  unfold Core.update
  refine (stageE_num h hs).bind ?_
  rintro d' d _ ⟨h1, h2⟩
  have hp := pulseAll_num h2.dx.ne' d.t hl d.f
  rw [← h1.g, ← h1.t, ← h1.f] at hp
  refine hp.bind ?_
  rintro ⟨m', f'⟩ ⟨m, f⟩ _ ⟨hm, e⟩
  dsimp only at e hm ⊢
  subst e
  refine (stageH_num (c' := { d' with f := flds f }) (c := { d with f := f })
    ⟨h1.g, h1.tStep, h1.t, rfl, h1.sc, h1.pml, h1.prevE, h1.prev2E, h1.debye, h1.drude, h1.lorentz, h1.tfsf⟩
    ⟨h2.dx, h2.dt, h2.sc, h2.par, h2.debye, h2.drude, h2.lorentz⟩).bind ?_
  rintro e' e _ ⟨h3, h4⟩
  exact RM.pure ⟨h3, h4, hm⟩

theorem run_num : ∀ (n : ℕ) {c' : Core Xr} {c : Core ℝ} (_ : CoreNum c' c) (_ : Sound c) {l' : List (Source Xr)} {l : List (Source ℝ)}
    (_ : List.Forall₂ SrcNum l' l),
    RM (fun r' r => CoreNum r'.1 r.1 ∧ Sound r.1 ∧ List.Forall₂ SrcNum r'.2 r.2) (c'.run n l') (c.run n l) := by
  intro n
  induction n with
  | zero => intro c' c h hs l' l hl; exact RM.ok ⟨h, hs, hl⟩
  | succ n ih =>
    intro c' c h hs l' l hl
    refine (update_num h hs hl).bind ?_
    rintro ⟨d', m'⟩ ⟨d, m⟩ _ ⟨h1, h2, h3⟩
    exact ih h1 h2 h3

theorem make_num {g : Grid ℝ} (hl : Lawful g) (hT : g.T = 0 ∨ 2 ≤ g.T) (hx : g.T ≤ g.Nx) (hy : g.T ≤ g.Ny) :
    RM (fun d' d => CoreNum d' d ∧ Sound d ∧ d.g = g) (Core.make (grid g)) (Core.make g) := by
  have hdt : 0 < g.dt := by rw [hl.dt]; have := hl.dx; positivity
  unfold Core.make
  refine (clearMaterials_num hdt ⟨.const g.Nx g.Ny 0, .const g.Nx g.Ny 0, .const g.Nx g.Ny 0, .const g.Nx g.Ny 0, .const g.Nx g.Ny 0,
    .const g.Nx g.Ny 0, .const g.Nx g.Ny 0⟩).bindU fun f _ => (pml_make_num hl.dx hT).bind fun p' p hp hpn => ?_
  have hpar : p.par = PmlPar.default g := by
    obtain ⟨_, -, h⟩ := (Except.bind_ok ..).mp hp
    cases h; rfl
  rw [hpn.par, hpar]
  refine (scaling_num hT _ _).bindU fun sc hsc => RM.pure ⟨⟨rfl, rfl, rfl, rfl, rfl, hpn, rfl, rfl, rfl, rfl, rfl, .none⟩, ⟨hl.dx, hdt,
    PmlPar.scaling_plain g hx hy hsc, ?_, ?_, ?_, ?_⟩, rfl⟩
  · show p.par.dx = g.dx
    rw [hpar]; rfl
  · intro p hp; cases hp
  · intro p hp; cases hp
  · intro p hp; cases hp

theorem addPol_keep {P : Type} {name : String} {fresh : P} {ins : P → M P} {l l' : List (String × P)} (Q : P → Prop)
    (h : addPol name fresh ins l = .ok l') (hf : Q fresh) (hi : ∀ p q, ins p = .ok q → Q p → Q q) (hl : ∀ p ∈ l, Q p.2) :
    ∀ p ∈ l', Q p.2 := by
  unfold addPol at h
  cases hm : mapFind name l with
  | none =>
    rw [hm] at h
    obtain ⟨p, h1, h⟩ := (Except.bind_ok ..).mp h
    cases h
    intro q hq
    rcases mem_mapInsert hq with hq | hq
    · rw [hq]; exact hi _ _ h1 hf
    · exact hl _ hq
  | some a =>
    rw [hm] at h
    obtain ⟨p, h1, h⟩ := (Except.bind_ok ..).mp h
    cases h
    intro q hq
    rcases mem_mapSet hq with hq | hq
    · rw [hq]; exact hi _ _ h1 (hl _ (mapFind_mem hm))
    · exact hl _ hq

theorem insertObject_num {c' : Core Xr} {c : Core ℝ} (h : CoreNum c' c) (hs : Sound c) (hl : Lawful c.g) {o' : Object Xr} {o : Object ℝ}
    (ho : FinObj o' o) (hk : SoundKind o.mat.kind) :
    RM (fun d' d => CoreNum d' d ∧ Sound d ∧ d.g = c.g) (c'.insertObject o') (c.insertObject o) := by
  obtain ⟨g', s', t', f', sc', p', pE', p2', db', dr', lo', tf'⟩ := c'
  obtain ⟨h1, h2, h3, h4, h5, h6, h7, h8, h9, h10, h11, h12⟩ := h
  dsimp only at h1 h2 h3 h4 h5 h6 h7 h8 h9 h10 h11 h12
  subst h1 h2 h3 h4 h5 h7 h8 h9 h10 h11
  unfold Core.insertObject
  refine (paintObject_num hl ho hk c.f).bindU fun f _ => ?_
  rw [ho.kind, ho.name]
  cases hm : o.mat.kind with
  | simple m =>
    exact RM.pure ⟨⟨rfl, rfl, rfl, rfl, rfl, h6, rfl, rfl, rfl, rfl, rfl, h12⟩, ⟨hs.dx, hs.dt, hs.sc, hs.par, hs.debye, hs.drude, hs.lorentz⟩, rfl⟩
  | debye m =>
    rw [hm] at hk
    dsimp only [finKind]
    rw [debyePol_make]
    refine (addPol_num debyePol o.mat.name (DebyePol.make c.g m) c.debye (fun P => SoundKind (.debye P.mat)) hk hs.debye
      (fun P hP => debyeInsert_num hs.dt hP ho)).bindU fun l hl' => RM.pure ⟨⟨rfl, rfl, rfl, rfl, rfl, h6, orInit_map .., rfl, rfl, rfl, rfl, h12⟩,
      ⟨hs.dx, hs.dt, hs.sc, hs.par, ?_, hs.drude, hs.lorentz⟩, rfl⟩
    exact addPol_keep (fun P => SoundKind (.debye P.mat)) hl' hk (by
      intro p q hq hp
      obtain ⟨_, -, hq⟩ := (Except.bind_ok ..).mp hq
      cases hq; exact hp) hs.debye
  | drude m =>
    rw [hm] at hk
    dsimp only [finKind]
    rw [drudePol_make]
    refine (addPol_num drudePol o.mat.name (DrudePol.make c.g m) c.drude (fun P => SoundKind (.drude P.mat)) hk hs.drude
      (fun P hP => drudeInsert_num hs.dt hP ho)).bindU fun l hl' => RM.pure ⟨⟨rfl, rfl, rfl, rfl, rfl, h6, orInit_map .., rfl, rfl, rfl, rfl, h12⟩,
      ⟨hs.dx, hs.dt, hs.sc, hs.par, hs.debye, ?_, hs.lorentz⟩, rfl⟩
    exact addPol_keep (fun P => SoundKind (.drude P.mat)) hl' hk (by
      intro p q hq hp
      obtain ⟨_, -, hq⟩ := (Except.bind_ok ..).mp hq
      cases hq; exact hp) hs.drude
  | lorentz m =>
    rw [hm] at hk
    dsimp only [finKind]
    rw [lorentzPol_make]
    refine (addPol_num lorentzPol o.mat.name (LorentzPol.make c.g m) c.lorentz (fun P => SoundKind (.lorentz P.mat)) hk hs.lorentz
      (fun P hP => lorentzInsert_num hs.dt hP ho)).bindU fun l hl' =>
      RM.pure ⟨⟨rfl, rfl, rfl, rfl, rfl, h6, orInit_map .., orInit_map .., rfl, rfl, rfl, h12⟩,
      ⟨hs.dx, hs.dt, hs.sc, hs.par, hs.debye, hs.drude, ?_⟩, rfl⟩
    exact addPol_keep (fun P => SoundKind (.lorentz P.mat)) hl' hk (by
      intro p q hq hp
      obtain ⟨_, -, hq⟩ := (Except.bind_ok ..).mp hq
      cases hq; exact hp) hs.lorentz

theorem tfMake_num {g : Grid ℝ} (hd : g.dx ≠ 0) {w' : Vol Xr × TimeProfile Xr} {w : Vol ℝ × TimeProfile ℝ} (h : FinWave w' w) :
    TfNum (Tfsf.make (grid g) w'.2 w'.1 (grid g).dt) (Tfsf.make g w.2 w.1 g.dt) := by
  have ev : (grid g).toGridV w'.1 = g.toGridV w.1 := by
    unfold Grid.toGridV
    rw [h.a, h.b, toGrid_num hd, toGrid_num hd]
  have ec : (1 : Xr) / (1 + 0 * (grid g).dt) = fin (1 / (1 + 0 * g.dt)) := by
    show (fin 1 / (fin 1 + fin 0 * fin g.dt) : Xr) = _
    rw [mul_fin, add_fin, div_fin (by simp)]
  have tp := FinSignal.tp h.signal
  unfold Tfsf.make
  simp only [ev, ec]
  refine ⟨rfl, rfl, rfl, rfl, rfl, tp, ?_, rfl, rfl, rfl, rfl, rfl, rfl, rfl, rfl, rfl, rfl, rfl, rfl⟩
  dsimp only
  rw [tp.dft]
  cases w.2.dft with
  | none => rfl
  | some d =>
    simp only [Option.map_some]
    have e : (dft d).freq = d.freq.map fin := rfl
    rw [e, dft_make, dft_add, dft_add]

theorem setTfsf_num {c' : Core Xr} {c : Core ℝ} (h : CoreNum c' c) (hs : Sound c) {w' : Vol Xr × TimeProfile Xr}
    {w : Vol ℝ × TimeProfile ℝ} (hw : FinWave w' w) : CoreNum (c'.setTfsf w'.1 w'.2) (c.setTfsf w.1 w.2) ∧ Sound (c.setTfsf w.1 w.2) := by
  obtain ⟨g', s', t', f', sc', p', pE', p2', db', dr', lo', tf'⟩ := c'
  obtain ⟨h1, h2, h3, h4, h5, h6, h7, h8, h9, h10, h11, h12⟩ := h
  dsimp only at h1 h2 h3 h4 h5 h6 h7 h8 h9 h10 h11 h12
  subst h1 h2 h3 h4 h5 h7 h8 h9 h10 h11
  exact ⟨⟨rfl, rfl, rfl, rfl, rfl, h6, rfl, rfl, rfl, rfl, rfl, .some (tfMake_num hs.dx.ne' hw)⟩, hs.dx, hs.dt, hs.sc, hs.par, hs.debye,
    hs.drude, hs.lorentz⟩

/-- The whole program. -/
theorem program_num {g : Grid ℝ} (hl : Lawful g) (hT : g.T = 0 ∨ 2 ≤ g.T) (hx : g.T ≤ g.Nx) (hy : g.T ≤ g.Ny)
    {objs' : List (Object Xr)} {objs : List (Object ℝ)} (ho : List.Forall₂ FinObj objs' objs) (hk : ∀ o ∈ objs, SoundKind o.mat.kind)
    {wave' : Option (Vol Xr × TimeProfile Xr)} {wave : Option (Vol ℝ × TimeProfile ℝ)} (hw : Option.Rel FinWave wave' wave)
    {srcs' : List (Source Xr)} {srcs : List (Source ℝ)} (hs : List.Forall₂ FinSource srcs' srcs) (n : ℕ) :
    RM CoreNum (program (grid g) objs' wave' srcs' n) (program g objs wave srcs n) := by
  unfold program
  refine (make_num hl hT hx hy).bind ?_
  rintro c' c _ ⟨h1, h2, h3⟩
  have ho' : List.Forall₂ (fun o' o => FinObj o' o ∧ SoundKind o.mat.kind) objs' objs := by
    induction ho with
    | nil => exact .nil
    | cons h _ ih => exact .cons ⟨h, hk _ (by simp)⟩ (ih fun o hm => hk o (by simp [hm]))
  refine RM.bind (RM.forList (R := fun d' d => CoreNum d' d ∧ Sound d ∧ d.g = g) ho' ?_ c' c ⟨h1, h2, h3⟩) ?_
  · rintro o' o d' d ⟨q1, q2⟩ ⟨q3, q4, q5⟩
    refine (insertObject_num q3 q4 (q5 ▸ hl) q1 q2).mono ?_
    rintro e' e ⟨r1, r2, r3⟩
    exact ⟨r1, r2, r3.trans q5⟩
  rintro d' d _ ⟨q1, q2, q3⟩
  have hs' : List.Forall₂ SrcNum srcs' srcs := hs.imp fun _ _ h => FinSource.src h
  cases hw with
  | none => exact (run_num n q1 q2 hs').bind fun r' r _ h => RM.pure h.1
  | some hw =>
    obtain ⟨q4, q5⟩ := setTfsf_num q1 q2 hw
    exact (run_num n q4 q5 hs').bind fun r' r _ h => RM.pure h.1

end Num

end Qbox
