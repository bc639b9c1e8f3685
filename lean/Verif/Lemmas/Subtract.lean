import Verif.Lemmas.NoUB
import Verif.Lemmas.SimKeep
import Verif.Spec.SubtractSpec

/-! # Subtracting monitors -/

namespace Qbox
open Scalar Spec

variable {K : Type} [Scalar K]

/-! ## No undefined behaviour between monitors of the same shape -/

theorem Dft.get_ok_iff {P : Type} {d : Dft K P} {n : String} {a : Acc K P} : d.get n = .ok a ↔ accFind n d.acc = some a := by
  unfold Dft.get
  cases accFind n d.acc <;> simp

theorem Meets.noUB {P : Type} [DecidableEq P] {d o : Dft K P} (h : Meets d o) : NoUB (d.sub o) :=
  Dft.sub_noUB d o fun n a b ha hb => h n a b ha (Dft.get_ok_iff.mp hb)

theorem subFaces_noUB : ∀ (l k : List (SurfMon K)), (∀ q ∈ l.zip k, Meets q.1.fourier q.2.fourier) → NoUB (subFaces l k)
  | [], _, _ => by simp only [subFaces]; exact NoUB.ok _
  | _ :: _, [], _ => by simp only [subFaces]; exact NoUB.ok _
  | m :: l, o :: k, h => by
    unfold subFaces
    exact ((Meets.noUB (h (m, o) (by simp))).bind fun _ _ => NoUB.pure _).bind fun _ _ =>
      (subFaces_noUB l k fun q hq => h q (by simp [hq])).bind fun _ _ => NoUB.pure _

theorem Monitor.sub_noUB {m o : Monitor K} (h : Subtractable m o) : NoUB (m.sub o) := by
  cases m <;> cases o <;>
    first
      | exact NoUB.ok _
      | exact ((Meets.noUB h).bind fun _ _ => NoUB.pure _).bind fun _ _ => NoUB.pure _
      | exact (Meets.noUB h).bind fun _ _ => NoUB.pure _
      | exact ((subFaces_noUB _ _ h).bind fun _ _ => NoUB.pure _).bind fun _ _ => NoUB.pure _

/-! ## The shape of a monitor does not change -/

/-- The same components, positions and frequencies. -/
def Dft.Same {P : Type} (d e : Dft K P) : Prop := d.layout = e.layout ∧ d.freq = e.freq

theorem Dft.Same.refl {P : Type} (d : Dft K P) : d.Same d := ⟨rfl, rfl⟩

theorem Dft.Same.trans {P : Type} {d e f : Dft K P} (h : d.Same e) (h' : e.Same f) : d.Same f := ⟨h.1.trans h'.1, h.2.trans h'.2⟩

theorem Dft.Same.meets {P : Type} {d e o : Dft K P} (h : d.Same e) (hm : Meets d o) : Meets e o := by
  intro n a b ha hb
  have : (n, a.pos) ∈ d.layout := by rw [h.1]; exact List.mem_map_of_mem (f := fun a => (a.1, a.2.pos)) ha
  obtain ⟨⟨n', a'⟩, h1, h2⟩ := List.mem_map.mp this
  obtain ⟨h3, h4⟩ := Prod.mk.inj h2
  simp only at h3 h4
  subst h3
  obtain ⟨e1, e2⟩ := hm n' a' b h1 hb
  exact ⟨by rw [← h4]; exact e1, by rw [← h.2]; exact e2⟩

theorem Dft.sub_same {P : Type} [DecidableEq P] {d o e : Dft K P} (h : d.sub o = .ok e) : d.Same e := by
  refine ⟨(Dft.sub_layout h).symm, ?_⟩
  unfold Dft.sub at h
  obtain ⟨l, -, h⟩ := (Except.bind_ok ..).mp h
  cases h; rfl

theorem Dft.subLeft_same {P : Type} (d o : Dft K P) : d.Same (d.subLeft o) := ⟨(Dft.subLeft_layout d o).symm, rfl⟩

theorem Dft.update_same {P σ : Type} [DecidableEq P] {d : Dft K P} {g : String → P → σ → M (K × σ)} {t : K} {m : σ} {r : Dft K P × σ}
    (h : d.update g t m = .ok r) : d.Same r.1 := ⟨(Dft.update_layout h).1.symm, (Dft.update_layout h).2.symm⟩

/-- Two monitors of the same kind and shape. -/
def Monitor.Same : Monitor K → Monitor K → Prop
  | .surf m, .surf k => m.fourier.Same k.fourier
  | .box m, .box k => List.Forall₂ (fun a b : SurfMon K => a.fourier.Same b.fourier) m.faces k.faces ∧ m.fourier.Same k.fourier
  | .vol m, .vol k => m.fourier.Same k.fourier
  | .point m, .point k => m.fourier.Same k.fourier
  | .cyl m, .cyl k => m.fourier.Same k.fourier
  | _, _ => False

theorem Monitor.Same.refl (m : Monitor K) : m.Same m := by
  cases m
  case box => exact ⟨List.forall₂_same.mpr fun _ _ => .refl _, .refl _⟩
  all_goals exact Dft.Same.refl _

theorem faces_trans {l k r : List (SurfMon K)} (h : List.Forall₂ (fun a b : SurfMon K => a.fourier.Same b.fourier) l k) :
    List.Forall₂ (fun a b : SurfMon K => a.fourier.Same b.fourier) k r → List.Forall₂ (fun a b : SurfMon K => a.fourier.Same b.fourier) l r := by
  induction h generalizing r with
  | nil => intro h; cases h; exact .nil
  | cons h1 _ ih =>
    intro h
    cases h with
    | cons h2 h3 => exact .cons (h1.trans h2) (ih h3)

theorem Monitor.Same.trans {m k r : Monitor K} (h : m.Same k) (h' : k.Same r) : m.Same r := by
  cases m <;> cases k <;> first | exact h.elim | skip
  all_goals cases r <;> first | exact h'.elim | skip
  case box => exact ⟨faces_trans h.1 h'.1, h.2.trans h'.2⟩
  all_goals exact Dft.Same.trans h h'

theorem faces_meet {l k r : List (SurfMon K)} (h : List.Forall₂ (fun a b : SurfMon K => a.fourier.Same b.fourier) l k)
    (hm : ∀ q ∈ l.zip r, Meets q.1.fourier q.2.fourier) : ∀ q ∈ k.zip r, Meets q.1.fourier q.2.fourier := by
  induction h generalizing r with
  | nil => simp
  | cons h1 _ ih =>
    cases r with
    | nil => simp
    | cons o r =>
      intro q hq
      rw [List.zip_cons_cons] at hq
      rcases List.mem_cons.mp hq with rfl | hq
      · exact h1.meets (hm (_, o) (by simp))
      · exact ih (fun q hq => hm q (by simp [hq])) q hq

theorem Monitor.Same.subtractable {m k o : Monitor K} (h : m.Same k) (hm : Subtractable m o) : Subtractable k o := by
  cases m <;> cases k <;> first | exact h.elim | skip
  all_goals cases o <;> first | trivial | exact Dft.Same.meets h hm | exact faces_meet h.1 hm

theorem SurfMon.sub_same {m o m' : SurfMon K} (h : m.sub o = .ok m') : m.fourier.Same m'.fourier := by
  unfold SurfMon.sub at h
  obtain ⟨d, h1, h⟩ := (Except.bind_ok ..).mp h
  cases h
  exact Dft.sub_same h1

theorem subFaces_same : ∀ (l k l' : List (SurfMon K)), subFaces l k = .ok l' → List.Forall₂ (fun a b : SurfMon K => a.fourier.Same b.fourier) l l'
  | [], _, l', he => by simp only [subFaces] at he; cases he; exact .nil
  | _ :: _, [], l', he => by simp only [subFaces] at he; cases he; exact List.forall₂_same.mpr fun _ _ => .refl _
  | m :: l, o :: k, l', he => by
    unfold subFaces at he
    obtain ⟨a, h1, he⟩ := (Except.bind_ok ..).mp he
    obtain ⟨b, h2, he⟩ := (Except.bind_ok ..).mp he
    cases he
    exact .cons (SurfMon.sub_same h1) (subFaces_same l k b h2)

theorem subFacesLeft_same : ∀ (l k : List (SurfMon K)), List.Forall₂ (fun a b : SurfMon K => a.fourier.Same b.fourier) l (subFacesLeft l k)
  | [], _ => by simp only [subFacesLeft]; exact .nil
  | _ :: _, [] => by simp only [subFacesLeft]; exact List.forall₂_same.mpr fun _ _ => .refl _
  | m :: l, o :: k => by
    unfold subFacesLeft
    split
    · rename_i h; exact .cons (SurfMon.sub_same h) (subFacesLeft_same l k)
    · exact .cons (Dft.subLeft_same _ _) (List.forall₂_same.mpr fun _ _ => .refl _)

theorem Monitor.sub_same {m o m' : Monitor K} (h : m.sub o = .ok m') : m.Same m' := by
  unfold Monitor.sub at h
  split at h
  case h_10 => cases h; exact .refl _
  case h_1 =>
    obtain ⟨k, h1, h⟩ := (Except.bind_ok ..).mp h
    cases h
    exact SurfMon.sub_same h1
  case h_4 =>
    obtain ⟨k, h1, h⟩ := (Except.bind_ok ..).mp h
    cases h
    unfold BoxMon.sub at h1
    obtain ⟨l, h2, h1⟩ := (Except.bind_ok ..).mp h1
    cases h1
    exact ⟨subFaces_same _ _ _ h2, .refl _⟩
  all_goals
    obtain ⟨k, h1, h⟩ := (Except.bind_ok ..).mp h
    cases h
    exact Dft.sub_same h1

theorem Monitor.subLeft_same (m o : Monitor K) : m.Same (m.subLeft o) := by
  unfold Monitor.subLeft
  split
  case h_10 => exact .refl _
  case h_4 => exact ⟨subFacesLeft_same _ _, .refl _⟩
  all_goals exact Dft.subLeft_same _ _

theorem SurfMon.update_same {g : Grid K} {f : Flds K} {t : K} {m m' : SurfMon K} (h : m.update g f t = .ok m') : m.fourier.Same m'.fourier := by
  unfold SurfMon.update at h
  obtain ⟨is, -, h⟩ := (Except.bind_ok ..).mp h
  obtain ⟨q, h1, h⟩ := (Except.bind_ok ..).mp h
  cases h
  exact Dft.update_same h1

theorem mapM'_forall₂ {α : Type} {step : α → M α} {R : α → α → Prop} (h : ∀ a b, step a = .ok b → R a b) : ∀ (l l' : List α),
    mapM' step l = .ok l' → List.Forall₂ R l l'
  | [], l', e => by cases e; exact .nil
  | a :: l, l', e => by
    unfold mapM' at e
    obtain ⟨b, h1, e⟩ := (Except.bind_ok ..).mp e
    obtain ⟨k, h2, e⟩ := (Except.bind_ok ..).mp e
    cases e
    exact .cons (h a b h1) (mapM'_forall₂ h l k h2)

theorem BoxMon.update_same {g : Grid K} {f : Flds K} {t : K} {m m' : BoxMon K} (h : m.update g f t = .ok m') : (Monitor.box m).Same (.box m') := by
  unfold BoxMon.update at h
  obtain ⟨l, h2, h⟩ := (Except.bind_ok ..).mp h
  have := Except.ok.inj h
  subst this
  exact ⟨mapM'_forall₂ (R := fun a b : SurfMon K => a.fourier.Same b.fourier) (fun a b e => SurfMon.update_same e) _ _ h2, .refl _⟩

theorem VolMon.update_same {g : Grid K} {f : Flds K} {t : K} {m m' : VolMon K} (h : m.update g f t = .ok m') : m.fourier.Same m'.fourier := by
  unfold VolMon.update at h
  obtain ⟨q, h2, h⟩ := (Except.bind_ok ..).mp h
  have := Except.ok.inj h
  subst this
  exact Dft.update_same h2

theorem PointMon.update_same {f : Flds K} {t : K} {m m' : PointMon K} (h : m.update f t = .ok m') : m.fourier.Same m'.fourier := by
  unfold PointMon.update PointMon.updateWith at h
  obtain ⟨q, h2, h⟩ := (Except.bind_ok ..).mp h
  have := Except.ok.inj h
  subst this
  exact Dft.update_same h2

theorem CylMon.update_same {g : Grid K} {f : Flds K} {t : K} {m m' : CylMon K} (h : m.update g f t = .ok m') : m.fourier.Same m'.fourier := by
  unfold CylMon.update at h
  obtain ⟨q, h2, h⟩ := (Except.bind_ok ..).mp h
  have := Except.ok.inj h
  subst this
  exact Dft.update_same h2

theorem Monitor.update_same {g : Grid K} {f : Flds K} {t : K} {m m' : Monitor K} (h : m.update g f t = .ok m') : m.Same m' := by
  unfold Monitor.update at h
  cases m <;> simp only [Except.bind_ok] at h <;> (obtain ⟨k, h1, h⟩ := h; have := Except.ok.inj h; subst this)
  case surf => exact SurfMon.update_same h1
  case box => exact BoxMon.update_same h1
  case vol => exact VolMon.update_same h1
  case point => exact PointMon.update_same h1
  case cyl => exact CylMon.update_same h1

/-! ## Histories -/

/-- The monitors of the simulation have the shape of those in the list. -/
def Sim.Kept (ms : List (Monitor K)) (s : Sim K) : Prop := List.Forall₂ Monitor.Same ms s.mons

theorem Sim.Kept.congr {ms : List (Monitor K)} {s s' : Sim K} (h : s.Kept ms) (e : s'.mons = s.mons) : s'.Kept ms := by
  unfold Sim.Kept; rw [e]; exact h

theorem forall₂_same_trans {l k r : List (Monitor K)} (h : List.Forall₂ Monitor.Same l k) :
    List.Forall₂ Monitor.Same k r → List.Forall₂ Monitor.Same l r := by
  induction h generalizing r with
  | nil => intro h; cases h; exact .nil
  | cons h1 _ ih =>
    intro h
    cases h with
    | cons h2 h3 => exact .cons (h1.trans h2) (ih h3)

theorem forall₂_set {l k : List (Monitor K)} (h : List.Forall₂ Monitor.Same l k) : ∀ (i : ℕ) (m m' : Monitor K), k[i]? = some m → m.Same m' →
    List.Forall₂ Monitor.Same l (k.set i m') := by
  induction h with
  | nil => intro i m m' hm; simp at hm
  | cons h1 h2 ih =>
    intro i m m' hm hs
    cases i with
    | zero =>
      simp only [List.getElem?_cons_zero, Option.some.injEq] at hm
      subst hm
      exact .cons (h1.trans hs) h2
    | succ i => exact .cons h1 (ih i m m' (by simpa using hm) hs)

theorem forall₂_get {l k : List (Monitor K)} (h : List.Forall₂ Monitor.Same l k) : ∀ (i : ℕ) (m : Monitor K), k[i]? = some m →
    ∃ m0, l[i]? = some m0 ∧ m0.Same m := by
  induction h with
  | nil => intro i m hm; simp at hm
  | cons h1 h2 ih =>
    intro i m hm
    cases i with
    | zero =>
      simp only [List.getElem?_cons_zero, Option.some.injEq] at hm
      subst hm
      exact ⟨_, rfl, h1⟩
    | succ i => exact ih i m (by simpa using hm)

theorem Sim.Kept.update (now : ℕ → ℝ) {ms : List (Monitor K)} {s : Sim K} (h : s.Kept ms) : (s.update now).All (Sim.Kept ms) := by
  unfold Sim.update
  refine tryM_all (h.congr rfl) fun ck _ => tryM_all (h.congr rfl) fun c _ => ?_
  dsimp only
  refine tryM_all (h.congr rfl) fun _ _ => tryM_all (h.congr rfl) fun ck _ => tryM_all (h.congr rfl) fun ck _ => tryM_all (h.congr rfl) fun mons hm => ?_
  have h' : List.Forall₂ Monitor.Same ms mons := forall₂_same_trans h (mapM'_forall₂ (R := Monitor.Same) (fun a b e => Monitor.update_same e) _ _ hm)
  refine tryM_all h' fun ck _ => tryM_all h' fun ck _ => tryM_all h' fun c _ => tryM_all h' fun ck _ => tryM_all h' fun q _ => ?_
  exact h'

theorem Sim.Kept.writeField (now : ℕ → ℝ) (C : Fields) {ms : List (Monitor K)} {s : Sim K} (h : s.Kept ms) :
    (s.writeField now C).All (Sim.Kept ms) := by
  unfold Sim.writeField
  exact tryM_all h fun ck _ => tryM_all (h.congr rfl) fun F _ => tryM_all (h.congr rfl) fun ck _ => h.congr rfl

theorem Sim.Kept.step (now : ℕ → ℝ) {g : Grid K} {ms : List (Monitor K)} (op : Op K) (l : List (Op K)) (hm : Matched g ms (op :: l)) {s : Sim K}
    (hg : s.core.g = g) (h : s.Kept ms) : (s.step now op).All fun s' => ∃ ms', Matched g ms' l ∧ s'.Kept ms' := by
  have lift : ∀ {r : Res (Sim K)}, Matched g ms l → r.All (Sim.Kept ms) → r.All fun s' => ∃ ms', Matched g ms' l ∧ s'.Kept ms' :=
    fun hl hr => hr.imp fun s' hs' => ⟨ms, hl, hs'⟩
  cases op with
  | update => exact lift hm (h.update now)
  | addObject o =>
    refine lift hm ?_
    unfold Sim.step
    dsimp only
    split <;> exact tryM_all (h.congr rfl) fun c _ => h.congr rfl
  | addSource x => exact ⟨ms, hm, h⟩
  | addMonitor m =>
    unfold Matched at hm
    show Res.All _ (tryM (m.setF s.core.g) s _)
    rw [hg]
    unfold tryM
    cases e : m.setF g with
    | ok m' => rw [e] at hm; exact ⟨ms ++ [m'], hm, List.rel_append h (.cons (.refl _) .nil)⟩
    | error u =>
      rw [e] at hm
      cases u with
      | exn t => exact ⟨ms, hm, h⟩
      | ub u => trivial
  | addTimeMonitor m => exact lift hm (tryM_all h fun F _ => h.congr rfl)
  | clearFields => exact ⟨ms, hm, h⟩
  | clearMaterials => exact lift hm (tryM_all h fun F _ => h.congr rfl)
  | updateMaterialGrid => exact lift hm (tryM_all h fun F _ => h.congr rfl)
  | removeMonitors => exact ⟨[], hm, .nil⟩
  | setTfsf vol tp => exact ⟨ms, hm, h⟩
  | writeField C => exact lift hm (h.writeField now C)
  | writeE => exact lift hm (h.writeField now .Ez)
  | writeH => exact lift hm ((h.writeField now .Hx).andThen fun s1 h1 => h1.writeField now .Hy)
  | writeMonitor => exact lift hm (tryM_all h fun ck _ => tryM_all (h.congr rfl) fun ck2 _ => h.congr rfl)
  | pose i p => exact ⟨ms, hm, h⟩
  | writeTimeMonitor i =>
    refine lift hm ?_
    unfold Sim.step
    cases hti : s.tmons[i]? with
    | none => simp only [hti]; exact h
    | some m => simp only [hti]; exact tryM_all (h.congr rfl) fun q _ => h.congr rfl
  | subtract i o =>
    refine lift hm.2 ?_
    unfold Sim.step
    cases hti : s.mons[i]? with
    | none => simp only [hti]; exact h
    | some m =>
      simp only [hti]
      exact tryM_all (forall₂_set h i m _ hti (Monitor.subLeft_same m o)) fun m' hm' => forall₂_set h i m _ hti (Monitor.sub_same hm')

theorem Sim.Kept.sub_noUB {g : Grid K} {ms : List (Monitor K)} {i : ℕ} {o : Monitor K} {l : List (Op K)} (hm : Matched g ms (.subtract i o :: l))
    {s : Sim K} (h : s.Kept ms) {m : Monitor K} (hi : s.mons[i]? = some m) : NoUB (m.sub o) := by
  obtain ⟨m0, h0, hs⟩ := forall₂_get h i m hi
  exact Monitor.sub_noUB (hs.subtractable (hm.1 m0 h0))

end Qbox
