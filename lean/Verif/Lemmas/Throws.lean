import Verif.Model.Sim
import Verif.Lemmas.Loops

/-! # Which exceptions can be thrown -/

set_option linter.unusedSectionVars false

namespace Qbox
open Scalar

/-- Every exception thrown by `x` carries a message in `P`. -/
def Throws (P : String → Prop) {α : Type} (x : M α) : Prop := ∀ m, x = .error (.exn m) → P m

namespace Throws
variable {P : String → Prop} {α β : Type} {K : Type} [Scalar K]

theorem ok (a : α) : Throws P (.ok a : M α) := fun _ h => by cases h
theorem pure (a : α) : Throws P (Pure.pure a : M α) := fun _ h => by cases h
theorem ub (u : UB) : Throws P (.error (.ub u) : M α) := fun _ h => by cases h
theorem exn {m : String} (h : P m) : Throws P (.error (.exn m) : M α) := fun _ e => by cases e; exact h

theorem bind {x : M α} {f : α → M β} (hx : Throws P x) (hf : ∀ a, Throws P (f a)) : Throws P (x >>= f) := by
  intro m h
  cases x with
  | error e => exact hx m (by rw [Except.error_bind] at h; cases h; rfl)
  | ok a => exact hf a m h

theorem forList {σ ι : Type} {l : List ι} {s : σ} {body : ι → σ → M σ} (h : ∀ i s, Throws P (body i s)) : Throws P (forList l s body) := by
  unfold Qbox.forList
  induction l generalizing s with
  | nil => exact Throws.pure s
  | cons i l ih => rw [List.foldlM_cons]; exact (h i s).bind fun _ => ih

theorem forRange {σ : Type} {lo hi : ℤ} {s : σ} {body : ℤ → σ → M σ} (h : ∀ i s, Throws P (body i s)) : Throws P (forRange lo hi s body) := by
  unfold Qbox.forRange
  generalize intRange lo hi = l
  induction l generalizing s with
  | nil => exact Throws.pure s
  | cons i l ih => rw [List.foldlM_cons]; exact (h i s).bind fun _ => ih

theorem arr_rd (a : Arr K) (i : ℤ) : Throws P (a.rd i) := by
  unfold Arr.rd; split <;> first | exact ok _ | exact ub _
theorem arr_wr (a : Arr K) (i : ℤ) (v : K) : Throws P (a.wr i v) := by
  unfold Arr.wr; split <;> first | exact ok _ | exact ub _
theorem rd (a : Tensor K) (i j : ℤ) : Throws P (a.rd i j) := by
  unfold Tensor.rd; split <;> first | exact ok _ | exact ub _
theorem wr (a : Tensor K) (i j : ℤ) (v : K) : Throws P (a.wr i j v) := by
  unfold Tensor.wr; split <;> first | exact ok _ | exact ub _
theorem rd3 (a : Tensor3 K) (i j k : ℤ) : Throws P (a.rd i j k) := by
  unfold Tensor3.rd; split <;> first | exact ok _ | exact ub _
theorem wr3 (a : Tensor3 K) (i j k : ℤ) (v : K) : Throws P (a.wr i j k v) := by
  unfold Tensor3.wr; split <;> first | exact ok _ | exact ub _

theorem mapM' {step : α → M α} (h : ∀ a, Throws P (step a)) : ∀ l, Throws P (mapM' step l)
  | [] => ok _
  | a :: l => by unfold Qbox.mapM'; exact (h a).bind fun _ => (mapM' h l).bind fun _ => pure _

end Throws

/-- Step through a program. -/
macro "throws_tac" : tactic => `(tactic| repeat' first
  | with_reducible intro _
  | with_reducible apply Throws.bind
  | with_reducible exact Throws.ok _ | with_reducible exact Throws.pure _ | with_reducible exact Throws.ub _
  | with_reducible exact Throws.arr_rd _ _ | with_reducible exact Throws.arr_wr _ _ _
  | with_reducible exact Throws.rd _ _ _ | with_reducible exact Throws.wr _ _ _ _
  | with_reducible exact Throws.rd3 _ _ _ _ | with_reducible exact Throws.wr3 _ _ _ _ _
  | with_reducible assumption
  | with_reducible apply Throws.forRange | with_reducible apply Throws.forList | with_reducible apply Throws.mapM'
  | split | dsimp only)

section
variable {P : String → Prop} {K : Type} [Scalar K]

theorem Throws.ezLoop (Nx Ny : ℤ) (f : Flds K) (s : Scaling K) : Throws P (ezLoop Nx Ny f s) := by
  unfold Qbox.ezLoop Qbox.ezBody; throws_tac

theorem Throws.hLoop (Nx Ny : ℤ) (f : Flds K) (s : Scaling K) : Throws P (hLoop Nx Ny f s) := by
  unfold Qbox.hLoop Qbox.hBody; throws_tac

theorem Throws.pmlE (p : Pml K) (Hx Hy Cb Ez : Tensor K) : Throws P (p.updateE Hx Hy Cb Ez) := by
  unfold Pml.updateE pmlEyBody pmlExBody; throws_tac

theorem Throws.pmlH (p : Pml K) (Ez Db Hx Hy : Tensor K) : Throws P (p.updateH Ez Db Hx Hy) := by
  unfold Pml.updateH pmlHyBody pmlHxBody; throws_tac

theorem Throws.deref {α : Type} (o : Option α) : Throws P (derefOpt o) := by
  unfold derefOpt; throws_tac

theorem Throws.debye (g : Grid K) (p : DebyePol K) (e : Option (Tensor K)) (Ez : Tensor K) : Throws P (p.updateJ g e Ez) := by
  have := Throws.deref (P := P) e
  unfold DebyePol.updateJ debyeBody; throws_tac

theorem Throws.drude (g : Grid K) (p : DrudePol K) (e : Option (Tensor K)) (Ez : Tensor K) : Throws P (p.updateJ g e Ez) := by
  have := Throws.deref (P := P) e
  unfold DrudePol.updateJ drudeBody; throws_tac

theorem Throws.lorentz (g : Grid K) (p : LorentzPol K) (e : Option (Tensor K)) (Ez : Tensor K) : Throws P (p.updateJ g e Ez) := by
  have := Throws.deref (P := P) e
  unfold LorentzPol.updateJ lorentzBody; throws_tac

theorem Throws.mapJ {α : Type} {upd : α → Tensor K → M (α × Tensor K)} (h : ∀ a Ez, Throws P (upd a Ez)) :
    ∀ (l : List (String × α)) (Ez : Tensor K), Throws P (mapUpdateJ upd l Ez)
  | [], _ => Throws.ok _
  | (n, a) :: l, Ez => by
    unfold mapUpdateJ
    exact (h a Ez).bind fun _ => (Throws.mapJ h l _).bind fun _ => Throws.pure _

theorem Throws.addTo (a : Tensor K) (i j : ℤ) (v : K) : Throws P (a.addTo i j v) := by
  unfold Tensor.addTo; throws_tac

theorem Throws.optD (o : Option (Tfsf K)) (Ez : Tensor K) : Throws P (optUpdateD o Ez) := by
  unfold optUpdateD Tfsf.updateD Tensor.addTo; throws_tac

theorem Throws.optH (o : Option (Tfsf K)) (h : HPair K) : Throws P (optUpdateH o h) := by
  unfold optUpdateH Tfsf.updateH Tensor.addTo; throws_tac

theorem Throws.accLoop {Q σ : Type} [DecidableEq Q] (freq : List K) (t : K) {g : String → Q → σ → M (K × σ)} (h : ∀ n p s, Throws P (g n p s)) :
    ∀ (l : List (String × Acc K Q)) (m : σ), Throws P (accLoop freq t g l m)
  | [], _ => Throws.ok _
  | (n, a) :: l, m => by
    unfold Qbox.accLoop
    have := Throws.accLoop freq t h l
    refine Throws.bind (Throws.forList fun p s => ?_) fun _ => (this _).bind fun _ => Throws.pure _
    unfold accPoint
    exact (h _ _ _).bind fun _ => Throws.pure _

theorem Throws.dft {Q σ : Type} [DecidableEq Q] (d : Dft K Q) {g : String → Q → σ → M (K × σ)} (h : ∀ n p s, Throws P (g n p s)) (t : K) (m : σ) :
    Throws P (d.update g t m) := by
  unfold Dft.update
  split
  · exact Throws.ok _
  · exact (Throws.accLoop d.freq t h _ _).bind fun _ => Throws.pure _

theorem Throws.response (tp : TimeProfile K) (t : K) : Throws P (tp.response t) := by
  unfold TimeProfile.response
  split
  · exact Throws.ok _
  · exact (Throws.dft _ (fun _ _ _ => Throws.ok _) _ _).bind fun _ => Throws.pure _

theorem Throws.pulseT (w : Tfsf K) : Throws P w.pulse := by
  have h1 : ∀ (Ez Hx : Arr K) (p t : K) (o : Option (Dft K Unit)), Throws P (tfsfFourier Ez Hx p t o) := by
    intro Ez Hx p t o
    have := fun (d : Dft K Unit) (E H : K) (t : K) (m : Unit) =>
      Throws.dft (P := P) d (g := tfsfSample E H) (fun _ _ _ => by unfold tfsfSample; throws_tac) t m
    unfold tfsfFourier
    split
    · exact Throws.ok _
    · refine Throws.bind (Throws.arr_rd _ _) fun _ => Throws.bind (Throws.arr_rd _ _) fun _ => Throws.bind (Throws.arr_rd _ _) fun _ => ?_
      exact (this _ _ _ _ _).bind fun _ => Throws.pure _
  have h2 := Throws.response (P := P) w.tp (w.t + w.dt)
  unfold Tfsf.pulse lineEBody lineHBody
  throws_tac
  exact h1 _ _ _ _ _

theorem Throws.optP (o : Option (Tfsf K)) : Throws P (optPulse o) := by
  unfold optPulse
  split
  · exact Throws.ok _
  · exact (Throws.pulseT _).bind fun _ => Throws.pure _

/-- Advancing the electric field throws nothing. -/
theorem Throws.stageE (c : Core K) : Throws P c.stageE := by
  unfold Core.stageE
  dsimp only
  exact (Throws.ezLoop _ _ _ _).bind fun _ => (Throws.pmlE _ _ _ _ _).bind fun _ =>
    (Throws.mapJ (fun _ _ => Throws.debye _ _ _ _) _ _).bind fun _ => (Throws.mapJ (fun _ _ => Throws.drude _ _ _ _) _ _).bind fun _ =>
    (Throws.mapJ (fun _ _ => Throws.lorentz _ _ _ _) _ _).bind fun _ => (Throws.optD _ _).bind fun _ => Throws.pure _

/-- Advancing the magnetic field throws nothing. -/
theorem Throws.stageH (c : Core K) : Throws P c.stageH := by
  unfold Core.stageH
  exact (Throws.optP _).bind fun _ => (Throws.hLoop _ _ _ _).bind fun _ => (Throws.pmlH _ _ _ _ _).bind fun _ =>
    (Throws.optH _ _).bind fun _ => Throws.pure _

theorem Throws.isurf (h : P surfMsg) (a b : V2 ℤ) (sg : Sgn) : Throws P (ISurf.make a b sg) := by
  unfold ISurf.make
  dsimp only
  repeat' split
  all_goals first | exact Throws.ok _ | exact Throws.ub _ | exact Throws.exn h

theorem Throws.get (h : P fieldMsg) (f : Flds K) (C : Fields) : Throws P (f.get C) := by
  unfold Flds.get; split <;> first | exact Throws.ok _ | exact Throws.exn h

theorem Throws.addAt (h : P fieldMsg) (f : Flds K) (C : Fields) (i j : ℤ) (v : K) : Throws P (f.addAt C i j v) := by
  have := Throws.exn (α := Flds K) h
  unfold Flds.addAt; throws_tac

theorem Throws.line (h : P fieldMsg) (C : Fields) (b tg : V2 ℤ) (amp : K) : ∀ (n : ℕ) (p : V2 ℤ) (f : Flds K), Throws P (lineLoop C b tg amp n p f)
  | 0, _, _ => Throws.ub _
  | n + 1, p, f => by
    unfold lineLoop
    split
    · exact Throws.ok _
    · exact (Throws.addAt h _ _ _ _ _).bind fun _ => Throws.line h C b tg amp n _ _

theorem Throws.source (h1 : P fieldMsg) (h2 : P surfMsg) (g : Grid K) (t : K) (s : Source K) (f : Flds K) : Throws P (s.pulse g t f).2 := by
  unfold Source.pulse
  split
  · split
    · rename_i e
      have := Throws.response (P := P) s.tp t
      rw [e] at this
      exact fun m hm => this m (by cases hm; rfl)
    · exact Throws.addAt h1 _ _ _ _ _
  · split
    · rename_i e
      have := Throws.isurf h2
      unfold Grid.toGridS at e
      exact fun m hm => this _ _ _ m (by rw [e]; cases hm; rfl)
    · split
      · rename_i e
        have := Throws.response (P := P) s.tp t
        rw [e] at this
        exact fun m hm => this m (by cases hm; rfl)
      · exact Throws.line h1 _ _ _ _ _ _ _

theorem Throws.pulseTry (h1 : P fieldMsg) (h2 : P surfMsg) (g : Grid K) (t : K) : ∀ (l : List (Source K)) (f : Flds K) (m : String),
    (pulseTry g t l f).err = some (.exn m) → P m
  | [], _, _, h => by cases h
  | s :: l, f, m, h => by
    have hs := Throws.source h1 h2 g t s f
    unfold Qbox.pulseTry at h
    split at h
    · rename_i e he
      rw [he] at hs
      simp only [Option.some.injEq] at h
      subst h
      exact hs m rfl
    · exact Throws.pulseTry h1 h2 g t l _ m h

theorem Throws.interp (h : P fieldMsg) (g : Grid K) (f : Flds K) (C : Fields) (p : V2 K) : Throws P (f.interpolate g C p) := by
  unfold Flds.interpolate bilinear
  refine (Throws.get h f C).bind fun _ => ?_
  throws_tac

theorem Throws.surfMon (h1 : P fieldMsg) (h2 : P surfMsg) (g : Grid K) (f : Flds K) (t : K) (m : SurfMon K) : Throws P (m.update g f t) := by
  unfold SurfMon.update Grid.toGridS
  refine (Throws.isurf h2 _ _ _).bind fun is => Throws.bind (Throws.dft _ (fun c i p => ?_) _ _) fun _ => Throws.pure _
  have := Throws.interp h1 g f .Ez (surfPoint g m.surf is i)
  have := Throws.interp h1 g f .Hx (surfPoint g m.surf is i)
  have := Throws.interp h1 g f .Hy (surfPoint g m.surf is i)
  unfold surfSample; throws_tac

theorem Throws.cylMon (h1 : P fieldMsg) (g : Grid K) (f : Flds K) (t : K) (m : CylMon K) : Throws P (m.update g f t) := by
  unfold CylMon.update
  refine Throws.bind (Throws.dft _ (fun c i p => ?_) _ _) fun _ => Throws.pure _
  have := Throws.interp h1 g f .Ez (m.surf.position (cylTheta m.length i))
  have := Throws.interp h1 g f .Hx (m.surf.position (cylTheta m.length i))
  have := Throws.interp h1 g f .Hy (m.surf.position (cylTheta m.length i))
  unfold cylSample; throws_tac

theorem Throws.volMon (g : Grid K) (f : Flds K) (t : K) (m : VolMon K) : Throws P (m.update g f t) := by
  unfold VolMon.update
  refine Throws.bind (Throws.dft _ (fun c i p => ?_) _ _) fun _ => Throws.pure _
  unfold volSample; throws_tac

theorem Throws.pointMon (f : Flds K) (t : K) (m : PointMon K) : Throws P (m.update f t) := by
  unfold PointMon.update PointMon.updateWith
  refine Throws.bind (Throws.dft _ (fun c i p => ?_) _ _) fun _ => Throws.pure _
  unfold pointSample; throws_tac

/-- A monitor throws at most the exception of a surface that is not parallel to an axis. -/
theorem Throws.monitor (h1 : P fieldMsg) (h2 : P surfMsg) (g : Grid K) (f : Flds K) (t : K) (m : Monitor K) : Throws P (m.update g f t) := by
  cases m <;> unfold Monitor.update
  · exact (Throws.surfMon h1 h2 _ _ _ _).bind fun _ => Throws.pure _
  · refine Throws.bind ?_ fun _ => Throws.pure _
    unfold BoxMon.update
    exact (Throws.mapM' (fun _ => Throws.surfMon h1 h2 _ _ _ _) _).bind fun _ => Throws.pure _
  · exact (Throws.volMon _ _ _ _).bind fun _ => Throws.pure _
  · exact (Throws.pointMon _ _ _).bind fun _ => Throws.pure _
  · exact (Throws.cylMon h1 _ _ _ _).bind fun _ => Throws.pure _

theorem Throws.setMat (k : MatKind K) (dt : K) (i j : ℤ) (f : Flds K) : Throws P (setMat k dt i j f) := by
  unfold Qbox.setMat; throws_tac

theorem Throws.clearMaterials (g : Grid K) (f : Flds K) : Throws P (clearMaterials g f) := by
  unfold Qbox.clearMaterials
  exact Throws.forRange fun _ _ => Throws.forRange fun _ _ => Throws.setMat _ _ _ _ _

theorem Throws.paint (g : Grid K) (o : Object K) (f : Flds K) : Throws P (paintObject g o f) := by
  unfold paintObject
  refine Throws.forRange fun _ _ => Throws.forRange fun _ _ => ?_
  split
  · exact Throws.setMat _ _ _ _ _
  · exact Throws.ok _

theorem Throws.insertLoop (g : Grid K) (np : ℤ) (v : Arr K) (o : Object K) (b : Tensor3 K) : Throws P (insertLoop g np v o b) := by
  unfold Qbox.insertLoop; throws_tac

theorem Throws.addPol {α : Type} (name : String) (fresh : α) {ins : α → M α} (h : ∀ a, Throws P (ins a)) (l : List (String × α)) :
    Throws P (addPol name fresh ins l) := by
  unfold Qbox.addPol
  split
  · exact (h _).bind fun _ => Throws.pure _
  · exact (h _).bind fun _ => Throws.pure _

theorem Throws.atInsert {α : Type} (hm : P "map::at") (name : String) {ins : α → M α} (h : ∀ a, Throws P (ins a)) (l : List (String × α)) :
    Throws P (atInsert name ins l) := by
  unfold Qbox.atInsert
  split
  · exact Throws.exn hm
  · exact (h _).bind fun _ => Throws.pure _

theorem Throws.insDebye (g : Grid K) (p : DebyePol K) (o : Object K) : Throws P (p.insert g o) := by
  unfold DebyePol.insert; exact (Throws.insertLoop _ _ _ _ _).bind fun _ => Throws.pure _
theorem Throws.insDrude (g : Grid K) (p : DrudePol K) (o : Object K) : Throws P (p.insert g o) := by
  unfold DrudePol.insert; exact (Throws.insertLoop _ _ _ _ _).bind fun _ => Throws.pure _
theorem Throws.insLorentz (g : Grid K) (p : LorentzPol K) (o : Object K) : Throws P (p.insert g o) := by
  unfold LorentzPol.insert; exact (Throws.insertLoop _ _ _ _ _).bind fun _ => Throws.pure _

theorem Throws.insertObject (c : Core K) (o : Object K) : Throws P (c.insertObject o) := by
  unfold Core.insertObject
  refine (Throws.paint _ _ _).bind fun _ => ?_
  split
  · exact Throws.pure _
  · exact (Throws.addPol _ _ (fun _ => Throws.insDebye _ _ _) _).bind fun _ => Throws.pure _
  · exact (Throws.addPol _ _ (fun _ => Throws.insDrude _ _ _) _).bind fun _ => Throws.pure _
  · exact (Throws.addPol _ _ (fun _ => Throws.insLorentz _ _ _) _).bind fun _ => Throws.pure _

theorem Throws.updateGrid (hm : P "map::at") (c : Core K) (l : List (Object K)) : Throws P (c.updateMaterialGrid l) := by
  unfold Core.updateMaterialGrid
  refine (Throws.clearMaterials _ _).bind fun _ => Throws.forList fun o c => (Throws.paint _ _ _).bind fun _ => ?_
  unfold Core.updatePolGrid
  split
  · exact Throws.ok _
  · exact (Throws.atInsert hm _ (fun _ => Throws.insDebye _ _ _) _).bind fun _ => Throws.pure _
  · exact (Throws.atInsert hm _ (fun _ => Throws.insDrude _ _ _) _).bind fun _ => Throws.pure _
  · exact (Throws.atInsert hm _ (fun _ => Throws.insLorentz _ _ _) _).bind fun _ => Throws.pure _

theorem Throws.surfSetF (h : P surfMsg) (g : Grid K) (m : SurfMon K) : Throws P (m.setF g) := by
  unfold SurfMon.setF Grid.toGridS
  exact (Throws.isurf h _ _ _).bind fun _ => Throws.pure _

theorem Throws.setF (h : P surfMsg) (g : Grid K) (m : Monitor K) : Throws P (m.setF g) := by
  cases m <;> unfold Monitor.setF
  · exact (Throws.surfSetF h _ _).bind fun _ => Throws.pure _
  · refine Throws.bind ?_ fun _ => Throws.pure _
    unfold BoxMon.setF
    exact (Throws.mapM' (fun _ => Throws.surfSetF h _ _) _).bind fun _ => Throws.pure _
  · exact Throws.ok _
  · exact Throws.ok _
  · exact Throws.ok _

theorem Throws.openGroup (h : P "HDF5 error") (F : File K) (n : String) : Throws P (F.openGroup n) := by
  unfold File.openGroup h5Fault
  have := Throws.exn (α := File K) h
  throws_tac

theorem Throws.create (h : P "HDF5 error") (F : File K) (k : Option String × Fields) (r : Row K) : Throws P (F.create k r) := by
  unfold File.create h5Fault
  have := Throws.exn (α := File K) h
  throws_tac

theorem Throws.tmonSetF (h : P "HDF5 error") (F : File K) (m : TMon K) : Throws P (m.setF F) := by
  unfold TMon.setF
  split
  · exact Throws.exn h
  · exact Throws.openGroup h _ _

theorem Throws.collect {α : Type} {read : α → M K} (h : ∀ a, Throws P (read a)) : ∀ l, Throws P (collect read l)
  | [] => Throws.ok _
  | a :: l => by unfold Qbox.collect; exact (h a).bind fun _ => (Throws.collect h l).bind fun _ => Throws.pure _

theorem Throws.snapshot (h : P surfMsg) (g : Grid K) (a : Tensor K) (s : TShape K) : Throws P (s.snapshot g a) := by
  cases s <;> unfold TShape.snapshot
  · exact (Throws.rd _ _ _).bind fun _ => Throws.pure _
  · unfold Grid.toGridS
    exact (Throws.isurf h _ _ _).bind fun _ => (Throws.collect (fun _ => Throws.rd _ _ _) _).bind fun _ => Throws.pure _
  · exact (Throws.collect (fun _ => Throws.rd _ _ _) _).bind fun _ => Throws.pure _

theorem Throws.writeImpl (h1 : P fieldMsg) (h2 : P surfMsg) (h3 : P "HDF5 error") (g : Grid K) (f : Flds K) (A : Fields) (m : TMon K)
    (F : File K) : Throws P (m.writeImpl g f A F) := by
  unfold TMon.writeImpl
  refine (Throws.get h1 _ _).bind fun _ => (Throws.snapshot h2 _ _ _).bind fun _ => ?_
  split
  · exact Throws.pure _
  · exact (Throws.openGroup h3 _ _).bind fun _ => (Throws.create h3 _ _ _).bind fun _ => Throws.pure _

theorem Throws.writeT (h1 : P fieldMsg) (h2 : P surfMsg) (h3 : P "HDF5 error") (g : Grid K) (f : Flds K) (m : TMon K)
    (F : File K) : Throws P (m.write g f F) := by
  have := Throws.writeImpl h1 h2 h3 g f
  unfold TMon.write TMon.writeA TMon.writeE TMon.writeH
  split
  · exact this _ _ _
  · exact (this _ _ _).bind fun _ => this _ _ _
  · exact (this _ _ _).bind fun _ => (this _ _ _).bind fun _ => this _ _ _
  · exact this _ _ _

theorem Throws.writeReady (h1 : P fieldMsg) (h2 : P surfMsg) (h3 : P "HDF5 error") (g : Grid K) (f : Flds K) :
    ∀ (l : List (TMon K)) (F : File K), Throws P (writeReady g f l F)
  | [], _ => Throws.ok _
  | m :: l, F => by
    have hm : Throws P (m.writeIfReady g f F) := by
      have hc : Throws P m.outFreq.check := by unfold Every.check; throws_tac
      unfold TMon.writeIfReady
      refine hc.bind fun q => ?_
      dsimp only
      split
      · exact Throws.writeT h1 h2 h3 _ _ _ _
      · exact Throws.pure _
    unfold Qbox.writeReady
    exact hm.bind fun _ => (Throws.writeReady h1 h2 h3 g f l _).bind fun _ => Throws.pure _

theorem Throws.fileWrite (h1 : P fieldMsg) (h3 : P "HDF5 error") (f : Flds K) (C : Fields) (F : File K) : Throws P (F.writeField f C) := by
  unfold File.writeField
  refine (Throws.get h1 _ _).bind fun _ => ?_
  split
  · exact Throws.pure _
  · exact Throws.create h3 _ _ _

theorem Throws.dftSub {Q : Type} [DecidableEq Q] (h : P "map::at") (d o : Dft K Q) : Throws P (d.sub o) := by
  unfold Dft.sub
  refine Throws.bind ?_ fun _ => Throws.pure _
  generalize d.freq.length = nf
  generalize d.acc = l
  induction l with
  | nil => exact Throws.ok _
  | cons x l ih =>
    have hg : Throws P (o.get x.1) := by
      unfold Dft.get
      split
      · exact Throws.ok _
      · exact Throws.exn h
    unfold accSub
    refine hg.bind fun _ => ?_
    split
    · exact Throws.bind ih fun _ => Throws.pure _
    · exact Throws.ub _

theorem Throws.monSub (h : P "map::at") (m o : Monitor K) : Throws P (m.sub o) := by
  have hs : ∀ a b : SurfMon K, Throws P (a.sub b) := fun a b => by
    unfold SurfMon.sub; exact (Throws.dftSub h _ _).bind fun _ => Throws.pure _
  have hb : ∀ l k : List (SurfMon K), Throws P (subFaces l k) := by
    intro l
    induction l with
    | nil => intro k; unfold subFaces; exact Throws.ok _
    | cons a l ih =>
      intro k
      cases k with
      | nil => unfold subFaces; exact Throws.ok _
      | cons b k => unfold subFaces; exact (hs _ _).bind fun _ => (ih _).bind fun _ => Throws.pure _
  unfold Monitor.sub
  split
  case h_10 => exact Throws.ok _
  case h_1 => exact (hs _ _).bind fun _ => Throws.pure _
  case h_4 =>
    refine Throws.bind ?_ fun _ => Throws.pure _
    unfold BoxMon.sub; exact (hb _ _).bind fun _ => Throws.pure _
  all_goals exact (Throws.dftSub h _ _).bind fun _ => Throws.pure _

end

end Qbox
