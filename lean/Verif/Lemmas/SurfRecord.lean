import Verif.Lemmas.AvgRecord

/-! # Histories of surface and cylinder monitors -/

namespace Qbox
open Scalar Spec

set_option linter.unusedSectionVars false

variable {K : Type} [Scalar K]

/-- Updates of a surface monitor, one after the other; each comes with the fields and the time it finds. -/
def SurfMon.runs (g : Grid K) : List (Flds K × K) → SurfMon K → M (SurfMon K)
  | [], m => .ok m
  | (f, t) :: l, m => do
    let m ← m.update g f t
    SurfMon.runs g l m

/-- Updates of a cylinder monitor, one after the other. -/
def CylMon.runs (g : Grid K) : List (Flds K × K) → CylMon K → M (CylMon K)
  | [], m => .ok m
  | (f, t) :: l, m => do
    let m ← m.update g f t
    CylMon.runs g l m

/-- What a surface monitor reads. -/
def surfReads (g : Grid K) (surf : Surf K) (is : ISurf) (q : Flds K × K) : (ℤ → M K) × (String → ℤ → M K) × K :=
  (fun i => q.1.interpolate g .Ez (surfPoint g surf is i),
   fun x i => if x = "Hx" then q.1.interpolate g .Hx (surfPoint g surf is i)
     else if x = "Hy" then q.1.interpolate g .Hy (surfPoint g surf is i) else .error (.ub .noReturn), q.2)

/-- What a cylinder monitor reads. -/
def cylReads (g : Grid K) (surf : CylSurf K) (n : ℤ) (q : Flds K × K) : (ℤ → M K) × (String → ℤ → M K) × K :=
  (fun i => q.1.interpolate g .Ez (surf.position (cylTheta n i)),
   fun x i =>
    if x = "Hp" then do
      let hx ← q.1.interpolate g .Hx (surf.position (cylTheta n i))
      let hy ← q.1.interpolate g .Hy (surf.position (cylTheta n i))
      pure (V2.dot ⟨hx, hy⟩ (surf.tangent (cylTheta n i)))
    else if x = "Hr" then do
      let hx ← q.1.interpolate g .Hx (surf.position (cylTheta n i))
      let hy ← q.1.interpolate g .Hy (surf.position (cylTheta n i))
      pure (V2.dot ⟨hx, hy⟩ (surf.normal (cylTheta n i)))
    else .error (.ub .noReturn), q.2)

theorem surfSample_avg (g : Grid K) (surf : Surf K) (is : ISurf) (q : Flds K × K) :
    surfSample g q.1 surf is = avgSample (surfReads g surf is q).1 (surfReads g surf is q).2.1 := by
  funext comp i prev
  unfold surfSample avgSample surfReads
  by_cases h1 : comp = "Ez"
  · simp only [h1, if_true]
  · by_cases h2 : comp = "Hx"
    · simp only [h1, h2, if_true, if_false]
    · by_cases h3 : comp = "Hy"
      · simp only [h1, h2, if_false, if_pos h3]
      · simp only [h1, h2, h3, if_false, Except.error_bind]

theorem cylSample_avg (g : Grid K) (surf : CylSurf K) (n : ℤ) (q : Flds K × K) :
    cylSample g q.1 surf n = avgSample (cylReads g surf n q).1 (cylReads g surf n q).2.1 := by
  funext comp i prev
  unfold cylSample avgSample cylReads
  by_cases h1 : comp = "Ez"
  · simp only [h1, if_true]
  · by_cases h2 : comp = "Hp"
    · simp only [h1, if_false, if_pos h2, bind_assoc, Except.pure_eq, Except.ok_bind]
    · by_cases h3 : comp = "Hr"
      · simp only [h1, h2, if_false, if_pos h3, bind_assoc, Except.pure_eq, Except.ok_bind]
      · simp only [h1, h2, h3, if_false, Except.error_bind]

theorem surfRuns_avg (g : Grid K) (is : ISurf) : ∀ (l : List (Flds K × K)) (m : SurfMon K), g.toGridS m.surf = .ok is →
    SurfMon.runs g l m = (avgRun m.fourier m.prevE (l.map (surfReads g m.surf is))).map
      (fun r => { m with fourier := r.1, prevE := r.2 })
  | [], m, h => rfl
  | q :: l, m, h => by
    simp only [SurfMon.runs, List.map_cons]
    unfold SurfMon.update avgRun
    simp only [h, Except.ok_bind, surfSample_avg g m.surf is q]
    change _ = Except.map _ (m.fourier.update (avgSample (surfReads g m.surf is q).1 (surfReads g m.surf is q).2.1) q.2 m.prevE >>= _)
    cases m.fourier.update (avgSample (surfReads g m.surf is q).1 (surfReads g m.surf is q).2.1) q.2 m.prevE with
    | error e => rfl
    | ok r =>
      simp only [Except.ok_bind, Except.pure_eq]
      exact surfRuns_avg g is l _ h

theorem cylRuns_avg (g : Grid K) : ∀ (l : List (Flds K × K)) (m : CylMon K),
    CylMon.runs g l m = (avgRun m.fourier m.prevE (l.map (cylReads g m.surf m.length))).map
      (fun r => { m with fourier := r.1, prevE := r.2 })
  | [], m => rfl
  | q :: l, m => by
    simp only [CylMon.runs, List.map_cons]
    unfold CylMon.update avgRun
    simp only [cylSample_avg g m.surf m.length q]
    change _ = Except.map _ (m.fourier.update (avgSample (cylReads g m.surf m.length q).1 (cylReads g m.surf m.length q).2.1) q.2 m.prevE >>= _)
    cases m.fourier.update (avgSample (cylReads g m.surf m.length q).1 (cylReads g m.surf m.length q).2.1) q.2 m.prevE with
    | error e => rfl
    | ok r =>
      simp only [Except.ok_bind, Except.pure_eq]
      exact cylRuns_avg g l _

/-- The name lists used by the monitors are strictly sorted. -/
theorem addAll_acc {P : Type} (freq : List K) (pos : List P) (names : List String) (h : names ∈ ([["Ez"], ["Hx"], ["Hy"], ["Ez", "Hx", "Hy"],
    ["Ez", "Hy"], ["Ez", "Hx"], ["Ez", "Hp", "Hr"], ["Ez", "Hp"], []] : List (List String))) :
    ((Dft.make freq : Dft K P).addAll pos names).acc = names.map (fun n => (n, ⟨pos, fun _ _ => 0, fun _ _ => 0⟩)) ∧
    ((Dft.make freq : Dft K P).addAll pos names).freq = freq ∧ ((Dft.make freq : Dft K P).addAll pos names).t = 0 ∧ names.Nodup := by
  have s1 : ¬ ("Hx" < "Ez") := by decide
  have s2 : ¬ ("Hy" < "Ez") := by decide
  have s3 : ¬ ("Hp" < "Ez") := by decide
  have s4 : ¬ ("Hr" < "Ez") := by decide
  have s5 : ¬ ("Hy" < "Hx") := by decide
  have s6 : ¬ ("Hr" < "Hp") := by decide
  simp only [List.mem_cons, List.not_mem_nil, or_false] at h
  rcases h with rfl | rfl | rfl | rfl | rfl | rfl | rfl | rfl | rfl <;>
    simp [Dft.addAll, Dft.add, Dft.make, accAdd, s1, s2, s3, s4, s5, s6]

theorem surfKeys_mem (tag : DftTag) (is : ISurf) : surfKeys tag is ∈ ([["Ez"], ["Hx"], ["Hy"], ["Ez", "Hx", "Hy"],
    ["Ez", "Hy"], ["Ez", "Hx"], ["Ez", "Hp", "Hr"], ["Ez", "Hp"], []] : List (List String)) := by
  cases tag
  case tangent => by_cases h : is.dim.x = 0 <;> simp [surfKeys, h]
  all_goals simp [surfKeys]

theorem cylKeys_mem (tag : DftTag) : cylKeys tag ∈ ([["Ez"], ["Hx"], ["Hy"], ["Ez", "Hx", "Hy"],
    ["Ez", "Hy"], ["Ez", "Hx"], ["Ez", "Hp", "Hr"], ["Ez", "Hp"], []] : List (List String)) := by
  cases tag <;> simp [cylKeys]

theorem accFind_blank {P : Type} {names : List String} {b : Acc K P} {x : String} (h : x ∈ names) :
    accFind x (names.map (fun n => (n, b))) = some b := by
  induction names with
  | nil => simp at h
  | cons m l ih =>
    simp only [List.map_cons, accFind]
    by_cases e : m = x
    · simp [e]
    · simp only [e, if_false]
      simp only [List.mem_cons] at h
      exact ih (h.resolve_left fun h' => e h'.symm)

theorem line_addAll (freq : List K) (n : ℤ) (names : List String) (h : names ∈ ([["Ez"], ["Hx"], ["Hy"], ["Ez", "Hx", "Hy"],
    ["Ez", "Hy"], ["Ez", "Hx"], ["Ez", "Hp", "Hr"], ["Ez", "Hp"], []] : List (List String))) :
    Line ((Dft.make freq : Dft K ℤ).addAll (intRange 0 n) names) n names := by
  obtain ⟨h1, -, -, h4⟩ := addAll_acc freq (intRange 0 n) names h
  refine ⟨?_, h4, ?_⟩
  · rw [h1, List.map_map]; exact List.map_id _
  · intro q hq
    rw [h1, List.mem_map] at hq
    obtain ⟨_, _, rfl⟩ := hq
    rfl

/-- A blank line monitor after any number of updates. -/
theorem line_record (freq : List K) (n : ℤ) (names : List String) (hk : names ∈ ([["Ez"], ["Hx"], ["Hy"], ["Ez", "Hx", "Hy"],
    ["Ez", "Hy"], ["Ez", "Hx"], ["Ez", "Hp", "Hr"], ["Ez", "Hp"], []] : List (List String)))
    (rd : Flds K × K → (ℤ → M K) × (String → ℤ → M K) × K) (l : List (Flds K × K)) (ss : List (Snap K))
    (h : List.Forall₂ (fun q s => Finds n names (rd q) s) l ss) :
    ∃ d prev, avgRun ((Dft.make freq : Dft K ℤ).addAll (intRange 0 n) names) (.const n 0) (l.map rd) = .ok (d, prev) ∧
      d.freq = freq ∧ ∀ x ∈ names, ∃ a, d.get x = .ok a ∧ a.pos = intRange 0 n ∧ Holds a freq x (averaged 0 (fun _ => 0) ss) := by
  obtain ⟨h1, h2, h3, h4⟩ := addAll_acc freq (intRange 0 n) _ hk
  have h' : List.Forall₂ (Finds n names) (l.map rd) ss := by
    clear h1 h2 h3 h4
    induction h with
    | nil => exact .nil
    | cons h _ ih => exact .cons h ih
  obtain ⟨d, prev, k1, k2, k3⟩ := avgRun_holds n names _ (line_addAll freq _ _ hk) (.const n 0) rfl
    (fun x hx => by rw [h1]; exact accFind_blank hx) _ ss h'
  rw [h2, h3] at k3
  exact ⟨d, prev, k1, k2.trans h2, k3⟩

theorem surf_setF (g : Grid K) (name : String) (surf : Surf K) (tag : DftTag) (freq : List K) (is : ISurf) (hi : g.toGridS surf = .ok is)
    (n : ℤ) (hn : is.dim.inorm = n) : (SurfMon.make name surf tag freq).setF g = .ok ⟨name, surf, tag, n, .const n 0,
      (Dft.make freq : Dft K ℤ).addAll (intRange 0 n) (surfKeys tag is)⟩ := by
  unfold SurfMon.setF SurfMon.make
  simp only [hi, Except.ok_bind, Except.pure_eq, hn]

/-- What a surface monitor holds after any number of updates. -/
theorem surf_record (g : Grid K) (name : String) (surf : Surf K) (tag : DftTag) (freq : List K) (is : ISurf) (hi : g.toGridS surf = .ok is)
    (n : ℤ) (hn : is.dim.inorm = n) (l : List (Flds K × K)) (ss : List (Snap K))
    (h : List.Forall₂ (fun q s => Finds n (surfKeys tag is) (surfReads g surf is q) s) l ss) :
    ∃ m1 m, (SurfMon.make name surf tag freq).setF g = .ok m1 ∧ SurfMon.runs g l m1 = .ok m ∧
      m.surf = surf ∧ m.length = n ∧ m.tag = tag ∧ m.name = name ∧ m.fourier.freq = freq ∧
      ∀ x ∈ surfKeys tag is, ∃ a, m.fourier.get x = .ok a ∧ a.pos = intRange 0 n ∧ Holds a freq x (averaged 0 (fun _ => 0) ss) := by
  obtain ⟨d, prev, k1, k2, k3⟩ := line_record freq n _ (surfKeys_mem tag is) (surfReads g surf is) l ss h
  have hs := surf_setF g name surf tag freq is hi n hn
  refine ⟨_, { name := name, surf := surf, tag := tag, length := n, prevE := prev, fourier := d }, hs, ?_, rfl, rfl, rfl, rfl, k2, k3⟩
  have e := surfRuns_avg g is l ⟨name, surf, tag, n, .const n 0, (Dft.make freq : Dft K ℤ).addAll (intRange 0 n) (surfKeys tag is)⟩ hi
  simp only at e
  rw [k1] at e
  simpa only [Except.map] using e

/-- What a cylinder monitor holds after any number of updates. -/
theorem cyl_record (g : Grid K) (name : String) (surf : CylSurf K) (tag : DftTag) (freq : List K) (n : ℤ)
    (hn : ceilI (ofInt 2 * Scalar.pi * surf.radius / g.dx) = n) (l : List (Flds K × K)) (ss : List (Snap K))
    (h : List.Forall₂ (fun q s => Finds n (cylKeys tag) (cylReads g surf n q) s) l ss) :
    ∃ m, CylMon.runs g l ((CylMon.make name surf tag freq).setF g) = .ok m ∧
      m.surf = surf ∧ m.length = n ∧ m.tag = tag ∧ m.name = name ∧ m.fourier.freq = freq ∧
      ∀ x ∈ cylKeys tag, ∃ a, m.fourier.get x = .ok a ∧ a.pos = intRange 0 n ∧ Holds a freq x (averaged 0 (fun _ => 0) ss) := by
  obtain ⟨d, prev, k1, k2, k3⟩ := line_record freq n _ (cylKeys_mem tag) (cylReads g surf n) l ss h
  have hs : (CylMon.make name surf tag freq).setF g = ⟨name, surf, tag, n, .const n 0,
      (Dft.make freq : Dft K ℤ).addAll (intRange 0 n) (cylKeys tag)⟩ := by
    unfold CylMon.setF CylMon.make
    simp only [hn]
  refine ⟨{ name := name, surf := surf, tag := tag, length := n, prevE := prev, fourier := d }, ?_, rfl, rfl, rfl, rfl, k2, k3⟩
  have e := cylRuns_avg g l ⟨name, surf, tag, n, .const n 0, (Dft.make freq : Dft K ℤ).addAll (intRange 0 n) (cylKeys tag)⟩
  simp only at e
  rw [k1] at e
  rw [hs]
  simpa only [Except.map] using e

end Qbox
