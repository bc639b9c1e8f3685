import Verif.Lemmas.FileKeep
import Verif.Lemmas.SimCore

/-! # Where the calls write, and that they carry out the calls of the simulation -/

namespace Qbox
open Scalar Spec

set_option linter.unusedSectionVars false

variable {K : Type} [Scalar K]

/-! ## Paths of the entries -/

theorem Material.entries_path {m : Material K} {e : Path × H5Obj K} (h : e ∈ m.entries) :
    e = (["materials"], .group) ∨ e = (["materials", m.name], .group) ∨
    ∃ x ∈ m.kind.params, e = (["materials", m.name, x.1], x.2) := by
  simp only [Material.entries, List.mem_cons, List.mem_map, Material.path] at h
  rcases h with h | h | ⟨x, hx, h⟩
  · exact .inl h
  · exact .inr (.inl h)
  · exact .inr (.inr ⟨x, hx, h.symm⟩)

/-- The first component of the path of an object. -/
def objRoot (dyn : Bool) : String := if dyn then "dynamic_objects" else "objects"

theorem Object.entries_path {dyn : Bool} {o : Object K} {e : Path × H5Obj K} (h : e ∈ o.entries dyn) :
    (e.2 = .group ∧ (e.1 = [objRoot dyn] ∨ e.1 = [objRoot dyn, o.geom.group] ∨ e.1 = [objRoot dyn, o.geom.group, o.name])) ∨
    (e.2 ≠ .group ∧ ∃ x, e.1 = [objRoot dyn, o.geom.group, o.name, x]) := by
  simp only [Object.entries, Object.groups, groups3, Object.path, List.mem_append, List.mem_cons, List.mem_map,
    List.not_mem_nil, or_false] at h
  rcases h with ((((h | h | h) | (h | h)) | ⟨x, -, h⟩) | (h | h | h)) | h
  · left; subst h; exact ⟨rfl, .inl rfl⟩
  · left; subst h; exact ⟨rfl, .inr (.inl rfl)⟩
  · left; subst h; exact ⟨rfl, .inr (.inr rfl)⟩
  · right; subst h; exact ⟨by dsimp only; split <;> simp, _, rfl⟩
  · right; subst h; exact ⟨by dsimp only; split <;> simp, _, rfl⟩
  · right; subst h; exact ⟨by simp, _, rfl⟩
  · left; subst h; exact ⟨rfl, .inl rfl⟩
  · left; subst h; exact ⟨rfl, .inr (.inl rfl)⟩
  · left; subst h; exact ⟨rfl, .inr (.inr rfl)⟩
  · right; subst h; exact ⟨by simp, _, rfl⟩

/-- All paths of a list of entries begin with `r`. -/
def Rooted (r : String) (es : List (Path × H5Obj K)) : Prop := ∀ e ∈ es, ∃ l, e.1 = r :: l

theorem Rooted.append {r : String} {a b : List (Path × H5Obj K)} (ha : Rooted r a) (hb : Rooted r b) : Rooted r (a ++ b) :=
  fun e he => (List.mem_append.mp he).elim (ha e) (hb e)

theorem Rooted.nil {r : String} : Rooted r ([] : List (Path × H5Obj K)) := fun _ h => by simp at h

theorem Rooted.cons {r : String} {l : Path} {n : H5Obj K} {a : List (Path × H5Obj K)} (ha : Rooted r a) : Rooted r ((r :: l, n) :: a) :=
  fun e he => (List.mem_cons.mp he).elim (fun h => ⟨l, by rw [h]⟩) (ha e)

theorem Rooted.map {r : String} {α : Type} {l : List α} {f : α → Path × H5Obj K} (h : ∀ x ∈ l, ∃ q, (f x).1 = r :: q) : Rooted r (l.map f) :=
  fun e he => by
    obtain ⟨x, hx, rfl⟩ := List.mem_map.mp he
    exact h x hx

theorem Rooted.three {a b c : String} : Rooted a (groups3 a b c : List (Path × H5Obj K)) := .cons (.cons (.cons .nil))

theorem Material.entries_rooted (m : Material K) : Rooted "materials" m.entries :=
  .cons (.cons (.map fun _ _ => ⟨_, rfl⟩))

theorem Object.entries_rooted (dyn : Bool) (o : Object K) : Rooted (objRoot dyn) (o.entries dyn) :=
  .append (.append (.append (.append .three (.cons (.cons .nil))) (.map fun _ _ => ⟨_, rfl⟩)) .three) (.cons .nil)

theorem Source.entries_rooted (s : Source K) : Rooted "sources" s.entries := by
  refine .append (.append (.append .three (.map fun _ _ => ⟨_, rfl⟩)) .three) ?_
  cases hk : s.kind with
  | point C p => exact .cons .nil
  | line C p => exact .cons (.cons (.cons .nil))

theorem tfsfEntries_rooted (vol : Vol K) (tp : TimeProfile K) : Rooted "sources" (tfsfEntries vol tp) := by
  refine .append (.append (.cons (.cons .nil)) (.cons (.cons .nil))) ?_
  cases tp.dft with
  | none => exact .nil
  | some d => exact .cons .nil

theorem SurfMon.entries_rooted (m : SurfMon K) : Rooted "monitors" m.entries :=
  .append (.append .three (.cons (.cons (.cons .nil)))) (.cons .nil)

theorem Monitor.entries_rooted : ∀ m : Monitor K, Rooted "monitors" m.entries
  | .surf m => m.entries_rooted
  | .box m => by
    refine .append (.append (.append ?_ .three) (.cons (.cons .nil))) (.cons .nil)
    intro e he
    obtain ⟨x, -, hx⟩ := List.mem_flatMap.mp he
    exact x.entries_rooted e hx
  | .vol m => .append (.append .three (.cons (.cons .nil))) (.cons .nil)
  | .point m => .append (.append .three (.cons .nil)) (.cons .nil)
  | .cyl m => .append (.append .three (.cons (.cons .nil))) (.cons .nil)

theorem Monitor.spectra_rooted (m : Monitor K) : Rooted "monitors" m.spectra := by
  refine .append .three ?_
  cases m <;> exact .map fun _ _ => ⟨_, rfl⟩

/-! ## Frames -/

/-- Nothing is changed at the paths with `Q`. -/
def Same (Q : Path → Prop) (w w' : World K) : Prop := ∀ q, Q q → w'.tree.at q = w.tree.at q

theorem Same.refl {Q : Path → Prop} (w : World K) : Same Q w w := fun _ _ => rfl

theorem Same.trans {Q : Path → Prop} {a b c : World K} (h : Same Q a b) (h' : Same Q b c) : Same Q a c :=
  fun q hq => (h' q hq).trans (h q hq)

theorem World.write_same {Q : Path → Prop} {w0 w : World K} {es : List (Path × H5Obj K)} {k : World K → Res (World K)} (hw : Same Q w0 w)
    (he : ∀ e ∈ es, ¬ Q e.1)
    (h : Same Q w0 { w with tree := (w.tree.puts es).1 } → (k { w with tree := (w.tree.puts es).1 }).Each (Same Q w0)) :
    (w.write es k).Each (Same Q w0) := by
  have : Same Q w0 { w with tree := (w.tree.puts es).1 } :=
    hw.trans fun q hq => Tree.puts_ne es fun e hm e' => he e hm (e' ▸ hq)
  exact World.write_each (fun _ => this) (fun _ => h this)

theorem World.append_same {Q : Path → Prop} {w0 w : World K} {p : Path} {row : List K} {k : World K → Res (World K)} (hw : Same Q w0 w)
    (hp : ¬ Q p) (h : ∀ t, Same Q w0 { w with tree := t } → (k { w with tree := t }).Each (Same Q w0)) :
    (w.append p row k).Each (Same Q w0) := by
  refine World.append_each (fun _ => hw) fun t ht => h t (hw.trans fun q hq => ?_)
  exact (Tree.append_ok ht).2 q fun e => hp (e ▸ hq)

theorem World.lift_same {Q : Path → Prop} (w : World K) (r : Res (Sim K)) : (w.lift r).Each (Same Q w) := by
  cases r with
  | ok s => exact fun _ _ => rfl
  | threw m s => exact fun _ _ => rfl
  | ub u => trivial

/-- The parts of the file that a call can write to. -/
def Call.roots : Call K → List String
  | .op (.addObject _) => ["materials", "objects"]
  | .addDynamic _ => ["materials", "dynamic_objects"]
  | .op (.addSource _) => ["sources"]
  | .op (.setTfsf _ _) => ["sources"]
  | .tfsfFlux => ["sources"]
  | .op (.addMonitor _) => ["monitors"]
  | .writeSpectra _ => ["monitors"]
  | .report _ _ => ["monitors"]
  | .writeCurrent _ => ["dynamic_objects"]
  | .op _ => []

/-- A path outside these. -/
def Off (rs : List String) (q : Path) : Prop := ∀ r ∈ rs, ∀ l, q ≠ r :: l

theorem Rooted.off {r : String} {rs : List String} {es : List (Path × H5Obj K)} (h : Rooted r es) (hr : r ∈ rs) : ∀ e ∈ es, ¬ Off rs e.1 :=
  fun e he ho => by
    obtain ⟨l, hl⟩ := h e he
    exact ho r hr l hl

theorem World.addObject_same {Q : Path → Prop} (dyn : Bool) (o : Object K) (w : World K) (h1 : ∀ e ∈ o.mat.entries, ¬ Q e.1)
    (h2 : ∀ e ∈ o.entries dyn, ¬ Q e.1) : (w.addObject dyn o).Each (Same Q w) := by
  unfold World.addObject
  dsimp only
  have h0 : Same Q w (if !(w.sim.mats.contains o.mat.name) then { w with sim := { w.sim with mats := w.sim.mats ++ [o.mat.name] } } else w) := by
    split
    · exact fun _ _ => rfl
    · exact .refl w
  refine World.write_same h0 (fun e he => ?_) fun h3 => ?_
  · split at he
    · exact h1 e he
    · simp at he
  · exact tryM_each h3 fun c _ => World.write_same (fun q hq => h3 q hq) h2 fun h4 q hq => h4 q hq

/-- A call leaves the other parts of the file alone. -/
theorem World.step_off (now : ℕ → ℝ) (w : World K) (c : Call K) : (w.step now c).Each (Same (Off c.roots) w) := by
  have refl : Same (Off c.roots) w w := .refl w
  cases c with
  | op o =>
    cases o with
    | addObject o =>
      exact w.addObject_same false o (o.mat.entries_rooted.off (List.mem_cons_self ..))
        ((o.entries_rooted false).off (r := "objects") (List.mem_cons_of_mem _ (List.mem_cons_self ..)))
    | addSource x =>
      unfold World.step
      refine World.write_same refl (x.entries_rooted.off (List.mem_cons_self ..)) fun h => ?_
      exact fun q hq => h q hq
    | addMonitor m =>
      exact tryM_each refl fun m _ => World.write_same (es := m.entries) refl
        (m.entries_rooted.off (List.mem_cons_self ..)) fun h q hq => h q hq
    | setTfsf vol tp =>
      exact World.write_same (es := tfsfEntries vol tp) (fun q hq => refl q hq)
        ((tfsfEntries_rooted vol tp).off (List.mem_cons_self ..)) fun h q hq => h q hq
    | _ => unfold World.step; exact w.lift_same _
  | addDynamic o =>
    exact w.addObject_same true o (o.mat.entries_rooted.off (List.mem_cons_self ..))
      ((o.entries_rooted true).off (r := "dynamic_objects") (List.mem_cons_of_mem _ (List.mem_cons_self ..)))
  | writeCurrent i =>
    unfold World.step
    dsimp only
    split
    · next o _ _ =>
      unfold World.writeCurrent
      refine World.write_same refl ((Rooted.three (K := K)).off (r := "dynamic_objects") (List.mem_cons_self ..)) fun h1 => ?_
      refine World.append_same h1 (fun ho => ho "dynamic_objects" (List.mem_cons_self ..) _ rfl) fun t h2 => ?_
      exact World.append_same h2 (fun ho => ho "dynamic_objects" (List.mem_cons_self ..) _ rfl) fun t h3 => h3
    · exact refl
  | writeSpectra i =>
    unfold World.step
    dsimp only
    split
    · exact refl
    · next m _ => exact World.write_same refl (m.spectra_rooted.off (List.mem_cons_self ..)) fun h => h
  | report i r =>
    unfold World.step
    dsimp only
    split
    · exact refl
    · split
      · exact refl
      · next m _ _ _ _ =>
        exact tryM_each refl fun v _ => World.write_same refl
          ((Rooted.append .three (.cons .nil)).off (r := "monitors") (List.mem_cons_self ..)) fun h => h
  | tfsfFlux =>
    unfold World.step
    dsimp only
    split
    · exact refl
    · exact tryM_each refl fun v _ => World.write_same refl
        ((Rooted.cons (.cons .nil)).off (r := "sources") (List.mem_cons_self ..)) fun h => h

/-! ## The calls of the simulation -/

theorem World.addObject_sim {now : ℕ → ℝ} {dyn : Bool} {o : Object K} {w w' : World K} (h : w.addObject dyn o = .ok w') :
    w.sim.step now (.addObject o) = .ok w'.sim ∧ w'.dyn = w.dyn ++ [dyn] := by
  unfold World.addObject at h
  dsimp only at h
  unfold Sim.step
  dsimp only
  by_cases hm : o.mat.name ∈ w.sim.mats
  · have hc : w.sim.mats.contains o.mat.name = true := by simpa using hm
    simp only [hc, Bool.not_true, Bool.false_eq_true, if_false] at h
    obtain ⟨-, h⟩ := World.write_ok h
    obtain ⟨c, hi, h⟩ := tryM_ok h
    obtain ⟨-, h⟩ := World.write_ok h
    cases h
    rw [if_pos hm]
    exact ⟨by rw [hi]; rfl, rfl⟩
  · have hc : w.sim.mats.contains o.mat.name = false := by simpa using hm
    simp only [hc, Bool.not_false, if_true] at h
    obtain ⟨-, h⟩ := World.write_ok h
    obtain ⟨c, hi, h⟩ := tryM_ok h
    obtain ⟨-, h⟩ := World.write_ok h
    cases h
    rw [if_neg hm]
    exact ⟨by rw [hi]; rfl, rfl⟩

theorem World.lift_ok {w w' : World K} {r : Res (Sim K)} (h : w.lift r = .ok w') : r = .ok w'.sim ∧ w'.dyn = w.dyn := by
  cases r with
  | ok s => cases h; exact ⟨rfl, rfl⟩
  | threw => cases h
  | ub => cases h

/-- A call that ends normally does to the simulation what the call of the simulation does. -/
theorem World.step_sim {now : ℕ → ℝ} {c : Call K} {w w' : World K} (h : w.step now c = .ok w') :
    w.sim.runOk now (simOps [c]) = .ok w'.sim := by
  have one : ∀ {op : Op K} {s s' : Sim K}, s.step now op = .ok s' → s.runOk now [op] = .ok s' := by
    intro op s s' hs
    rw [Sim.runOk, hs]; rfl
  cases c with
  | op o =>
    refine one ?_
    cases o with
    | addObject o => exact (World.addObject_sim h).1
    | addSource x => unfold World.step at h; obtain ⟨-, h⟩ := World.write_ok h; cases h; rfl
    | addMonitor m =>
      obtain ⟨m', hm, h⟩ := tryM_ok h
      obtain ⟨-, h⟩ := World.write_ok h
      cases h
      unfold Sim.step; dsimp only; rw [hm]; rfl
    | setTfsf vol tp => obtain ⟨-, h⟩ := World.write_ok h; cases h; rfl
    | _ => unfold World.step at h; exact (World.lift_ok h).1
  | addDynamic o => exact one (World.addObject_sim h).1
  | writeCurrent i =>
    have : w'.sim = w.sim := by
      unfold World.step at h
      dsimp only at h
      split at h
      · obtain ⟨-, h⟩ := World.write_ok h
        obtain ⟨t, -, h⟩ := World.append_ok h
        obtain ⟨t, -, h⟩ := World.append_ok h
        cases h; rfl
      · cases h; rfl
    rw [this]; rfl
  | writeSpectra i =>
    have : w'.sim = w.sim := by
      unfold World.step at h
      dsimp only at h
      split at h
      · cases h; rfl
      · obtain ⟨-, h⟩ := World.write_ok h; cases h; rfl
    rw [this]; rfl
  | report i r =>
    have : w'.sim = w.sim := by
      unfold World.step at h
      dsimp only at h
      split at h
      · cases h; rfl
      · split at h
        · cases h; rfl
        · obtain ⟨v, -, h⟩ := tryM_ok h
          obtain ⟨-, h⟩ := World.write_ok h; cases h; rfl
    rw [this]; rfl
  | tfsfFlux =>
    have : w'.sim = w.sim := by
      unfold World.step at h
      dsimp only at h
      split at h
      · cases h; rfl
      · obtain ⟨v, -, h⟩ := tryM_ok h
        obtain ⟨-, h⟩ := World.write_ok h; cases h; rfl
    rw [this]; rfl

theorem Spec.simOps_append (a b : List (Call K)) : simOps (a ++ b) = simOps a ++ simOps b := by
  induction a with
  | nil => rfl
  | cons c l ih => cases c <;> simp [simOps, ih]

/-- A program in which no call throws is, on the simulation, the program of its calls on the simulation. -/
theorem World.runOk_sim {now : ℕ → ℝ} : ∀ {cs : List (Call K)} {w w' : World K}, w.runOk now cs = .ok w' →
    w.sim.runOk now (simOps cs) = .ok w'.sim
  | [], _, _, h => by cases h; rfl
  | c :: l, w, w', h => by
    unfold World.runOk at h
    cases hs : w.step now c with
    | ok w1 =>
      rw [hs] at h
      have e : simOps (c :: l) = simOps [c] ++ simOps l := Spec.simOps_append [c] l
      rw [e, Qbox.runOk_append, World.step_sim hs]
      exact World.runOk_sim h
    | threw m w1 => rw [hs] at h; cases h
    | ub u => rw [hs] at h; cases h

end Qbox
