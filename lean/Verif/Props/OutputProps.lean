import Verif.Lemmas.OutputStep
import Verif.Lemmas.Orderly
import Verif.Lemmas.SimCore
import Verif.Props.HistoryProps
import Verif.Props.EveryProps

/-! # C45, C46: what the output file holds -/

namespace Qbox.Props
open Qbox Scalar Spec

set_option linter.unusedSectionVars false

section
variable {K : Type} [Scalar K]

/-- The rows as found in the file: no data set while there are none. -/
def stored (rs : List (Row K)) : Option (List (Row K)) := if rs = [] then none else some rs

theorem stored_append (rs : List (Row K)) (r : Row K) : some ((stored rs).getD [] ++ [r]) = stored (rs ++ [r]) := by
  unfold stored
  split_ifs with c c2 c2
  · simp at c2
  · simp [c]
  · simp at c2
  · rfl

/-! ## `write_field` -/

theorem intRange_cons {lo hi : ℤ} (h : lo < hi) : intRange lo hi = lo :: intRange (lo + 1) hi := by
  unfold intRange
  obtain ⟨k, hk⟩ : ∃ k : ℕ, (hi - lo).toNat = k + 1 := ⟨(hi - lo).toNat - 1, by omega⟩
  have hk' : (hi - (lo + 1)).toNat = k := by omega
  rw [hk, hk', List.range_succ_eq_map, List.map_cons, List.map_map]
  simp only [Nat.cast_zero, add_zero, List.cons.injEq, true_and]
  refine List.map_congr_left fun x _ => ?_
  simp only [Function.comp]
  push_cast
  ring

theorem intRange_length (lo hi : ℤ) : (intRange lo hi).length = (hi - lo).toNat := by simp [intRange]

theorem intRange_getElem {lo hi j : ℤ} (h0 : 0 ≤ j) (h1 : lo + j < hi) : (intRange lo hi)[j.toNat]? = some (lo + j) := by
  unfold intRange
  rw [List.getElem?_map, List.getElem?_range (by omega)]
  simp [h0]

theorem flatten_entry {α : Type} (f : ℤ → ℤ → α) (ny : ℤ) : ∀ (n : ℕ) (i j : ℤ) (a : ℤ), 0 ≤ i → i < n → 0 ≤ j → j < ny →
    ((intRange a (a + n)).flatMap fun i => (intRange 0 ny).map fun j => f i j)[(i * ny + j).toNat]? = some (f (a + i) j)
  | 0, i, j, a, i0, i1, _, _ => by simp at i1; omega
  | n + 1, i, j, a, i0, i1, j0, j1 => by
    rw [intRange_cons (lo := a) (by push_cast; omega), List.flatMap_cons]
    have len : ((intRange 0 ny).map fun j => f a j).length = ny.toNat := by rw [List.length_map, intRange_length]; simp
    by_cases c : i = 0
    · subst c
      rw [List.getElem?_append_left (by rw [len]; omega), List.getElem?_map]
      have := intRange_getElem (lo := 0) j0 (by omega : 0 + j < ny)
      simp only [zero_mul, zero_add] at this ⊢
      rw [this]
      simp
    · have hpos : 0 ≤ (i - 1) * ny := mul_nonneg (by omega) (by omega)
      have e : i * ny = (i - 1) * ny + ny := by ring
      rw [List.getElem?_append_right (by rw [len]; omega), len]
      have := flatten_entry f ny n (i - 1) j (a + 1) (by omega) (by push_cast at i1; omega) j0 j1
      rw [show a + 1 + (i - 1) = a + i by ring, show a + 1 + (n : ℤ) = a + ((n + 1 : ℕ) : ℤ) by push_cast; ring] at this
      rw [← this]
      congr 1
      omega

theorem flatten_length {α : Type} (f : ℤ → ℤ → α) (ny : ℤ) (h : 0 ≤ ny) : ∀ (n : ℕ) (a : ℤ),
    (((intRange a (a + n)).flatMap fun i => (intRange 0 ny).map fun j => f i j).length : ℤ) = n * ny
  | 0, a => by simp [intRange]
  | n + 1, a => by
    rw [intRange_cons (lo := a) (by push_cast; omega), List.flatMap_cons, List.length_append, List.length_map, intRange_length]
    have := flatten_length f ny h n (a + 1)
    rw [show a + 1 + (n : ℤ) = a + ((n + 1 : ℕ) : ℤ) by push_cast; ring] at this
    push_cast at this ⊢
    rw [this, show (((ny - 0).toNat : ℕ) : ℤ) = ny by omega]
    ring

theorem row_full (T : Tensor K) (h1 : 0 ≤ T.nx) (h2 : 0 ≤ T.ny) : Full T.nx T.ny T T.row := by
  refine ⟨rfl, ?_, fun i j i0 i1 j0 j1 => ?_⟩
  · obtain ⟨n, hn⟩ := Int.eq_ofNat_of_zero_le h1
    have := flatten_length (fun i j => T.val i j) T.ny h2 n 0
    simp only [zero_add] at this
    unfold Tensor.row
    rw [hn]
    exact this
  · obtain ⟨n, hn⟩ := Int.eq_ofNat_of_zero_le h1
    have := flatten_entry (fun i j => T.val i j) T.ny n i j 0 i0 (by omega) j0 j1
    simp only [zero_add] at this
    unfold Tensor.row
    rw [hn]
    exact this

theorem fields_log (now : ℕ → ℝ) (C : Fields) : ∀ (ops : List (Op K)) (s s' : Sim K) (rs : List (Row K)), Tidy s.tmons s.file → (∀ op ∈ ops, Fresh op) →
    s.runOk now ops = .ok s' → s.file.rows (none, C) = stored rs →
    s'.file.rows (none, C) = stored (rs ++ (writes now C s ops).map Tensor.row)
  | [], s, s', rs, _, _, h, hr => by cases h; simpa [writes] using hr
  | op :: l, s, s', rs, ht, hfr, h, hr => by
    rw [Sim.runOk] at h
    cases e : s.step now op with
    | threw m s1 => simp only [e] at h; cases h
    | ub u => simp only [e] at h; cases h
    | ok s1 =>
      simp only [e] at h
      obtain ⟨t1, -, hf⟩ := step_output now op e ht (hfr op (by simp))
      have hf := hf C
      have ih := fun rs1 => fields_log now C l s1 s' rs1 t1 (fun o ho => hfr o (by simp [ho])) h
      unfold writes
      simp only [e]
      cases op with
      | writeField D =>
        simp only at hf ⊢
        split_ifs at hf ⊢ with c
        · rw [hr, stored_append] at hf
          rw [ih _ hf]; simp
        · rw [hr] at hf
          rw [ih _ hf]; simp
      | writeE =>
        simp only at hf ⊢
        split_ifs at hf ⊢ with c
        · rw [hr, stored_append] at hf
          rw [ih _ hf]; simp
        · rw [hr] at hf
          rw [ih _ hf]; simp
      | writeH =>
        simp only at hf ⊢
        split_ifs at hf ⊢ with c
        · rw [hr, stored_append] at hf
          rw [ih _ hf]; simp
        · rw [hr, stored_append] at hf
          rw [ih _ hf]; simp
        · rw [hr] at hf
          rw [ih _ hf]; simp
      | _ =>
        simp only at hf ⊢
        rw [hr] at hf
        rw [ih _ hf]; simp

end

/-- **C46**: after any program without exceptions the data set of a component holds, in order, the full field at each moment the program wrote it, and
nothing else; it does not exist if the program never wrote it. -/
theorem C46_fields {K : Type} [Scalar K] (now : ℕ → ℝ) (g : Grid K) (fn : String) (s0 s' : Sim K) (ops : List (Op K)) (hfr : ∀ op ∈ ops, Fresh op)
    (h0 : Sim.make now g fn = .ok s0) (h : s0.runOk now ops = .ok s') (C : Fields) :
    s'.file.rows (none, C) = stored ((writes now C s0 ops).map Tensor.row) := by
  have hm : s0.tmons = [] ∧ s0.file = ⟨[], []⟩ := by
    unfold Sim.make at h0
    obtain ⟨ck, -, h0⟩ := (Except.bind_ok ..).mp h0
    obtain ⟨c, -, h0⟩ := (Except.bind_ok ..).mp h0
    split_ifs at h0
    cases h0
    exact ⟨rfl, rfl⟩
  exact fields_log now C ops s0 s' [] (by rw [hm.1, hm.2]; exact ⟨by simp, by simp, fun _ _ _ => rfl⟩) hfr h (by rw [hm.2]; rfl)

/-- Along a program inside the domain all fields written have the size of the grid. -/
theorem writes_dims (now : ℕ → ℝ) (C : Fields) {g : Grid ℝ} (hw : g.Wide) (hd : 0 < g.dx) : ∀ (ops : List (Op ℝ)) (objs : List (Object ℝ)) (s : Sim ℝ),
    Inside False g objs ops → s.Safe False g objs → ∀ T ∈ writes now C s ops, T.Dim g.Nx g.Ny
  | [], _, _, _, _, T, hT => by simp [writes] at hT
  | op :: l, objs, s, hi, hs, T, hT => by
    have hgood := step_keeps now hw hd objs op l hi hs
    unfold writes at hT
    cases e : s.step now op with
    | threw m s1 => simp [e] at hT
    | ub u => simp [e] at hT
    | ok s1 =>
      simp only [e] at hT
      rw [e] at hgood
      obtain ⟨objs1, i1, s1s⟩ := hgood
      have hf : s.core.f.Dims g.Nx g.Ny := by have := hs.wf.f; rwa [hs.grid] at this
      have hcomp : (component s.core.f C).Dim g.Nx g.Ny := by cases C <;> first | exact hf.Ez | exact hf.Hx | exact hf.Hy
      rcases List.mem_append.mp hT with hT | hT
      · cases op with
        | writeField D => simp only at hT; split_ifs at hT <;> simp at hT; rw [hT]; exact hcomp
        | writeE => simp only at hT; split_ifs at hT <;> simp at hT; rw [hT]; exact hf.Ez
        | writeH => simp only at hT; split_ifs at hT <;> simp at hT <;> rw [hT]; exacts [hf.Hx, hf.Hy]
        | _ => simp at hT
      · exact writes_dims now C hw hd l objs1 s1 i1 s1s T hT

/-- **C46** with the rows spelt out: on a program inside the domain each row is the full field in row-major order. -/
theorem C46_snapshots (now : ℕ → ℝ) (g : Grid ℝ) (hw : g.Wide) (hx : 0 ≤ g.Nx) (hy : 0 ≤ g.Ny) (hd : 0 < g.dx) (fn : String) (hfn : fn ≠ "") (s0 s' : Sim ℝ) (ops : List (Op ℝ))
    (hi : Inside False g [] ops) (hfr : ∀ op ∈ ops, Fresh op) (h0 : Sim.make now g fn = .ok s0) (h : s0.runOk now ops = .ok s') (C : Fields) :
    ∃ rs, s'.file.rows (none, C) = stored rs ∧ List.Forall₂ (Full g.Nx g.Ny) (writes now C s0 ops) rs := by
  refine ⟨_, C46_fields now g fn s0 s' ops hfr h0 h C, ?_⟩
  obtain ⟨s, e, hs⟩ := make_safe now False g hw fn hfn
  rw [h0] at e
  cases e
  rw [List.forall₂_map_right_iff, List.forall₂_same]
  intro T hT
  obtain ⟨e1, e2⟩ := writes_dims now C hw hd ops [] s0 hi hs T hT
  have := row_full T (by rw [e1]; exact hx) (by rw [e2]; exact hy)
  rwa [e1, e2] at this

/-! ## Time monitors -/

section
variable {K : Type} [Scalar K]

/-- The counter after `c` checks. -/
def everyAt (r c : ℕ) : Every := if r = 0 then Every.make 0 else ⟨r, ((c % r : ℕ) : ℤ) + 1, false⟩

theorem everyAt_zero (r : ℕ) (h : r < 2 ^ 31) : everyAt r 0 = Every.make r := by
  unfold everyAt
  by_cases c : r = 0
  · subst c; rfl
  · simp only [Every.make, toInt32, if_pos h, Nat.zero_mod, c, decide_false]
    rfl

theorem everyAt_check (r c : ℕ) (h : r < 2 ^ 31) : (everyAt r c).check = .ok (decide (r ≠ 0 ∧ (c + 1) % r = 0), everyAt r (c + 1)) := by
  by_cases hr : r = 0
  · subst hr; rfl
  · have hlt := Nat.mod_lt c (Nat.pos_of_ne_zero hr)
    unfold everyAt
    simp only [if_neg hr]
    unfold Every.check
    have h1 : ((r : ℤ) = 0) = False := by simp [hr]
    have hmod : (c + 1) % r = if c % r + 1 = r then 0 else c % r + 1 := by
      rw [Nat.add_mod]
      by_cases h1r : r = 1
      · subst h1r; simp [Nat.mod_one]
      · rw [Nat.mod_eq_of_lt (by omega : 1 < r)]
        split_ifs with c1
        · rw [c1, Nat.mod_self]
        · exact Nat.mod_eq_of_lt (by omega)
    have ht : (((c % r : ℕ) : ℤ) + 1).tmod r = (((c % r + 1) % r : ℕ) : ℤ) := by
      rw [show (((c % r : ℕ) : ℤ) + 1) = ((c % r + 1 : ℕ) : ℤ) by push_cast; rfl]
      exact (Int.ofNat_tmod _ _).symm
    simp only [Bool.false_eq_true, if_false, h1, ht, hmod]
    by_cases c1 : c % r + 1 = r
    · simp [c1, hr]
    · have : (c % r + 1) % r = c % r + 1 := Nat.mod_eq_of_lt (by omega)
      have h3 : ¬ (((c % r : ℕ) : ℤ) + 1 = 2 ^ 31 - 1) := by omega
      have h4 : ¬ (((c % r + 1 : ℕ) : ℤ) = 0) := by omega
      simp only [this, c1, if_false, h3, h4, Nat.add_eq_zero_iff, one_ne_zero, and_false, decide_false]
      push_cast
      rfl

theorem runOk_grid (now : ℕ → ℝ) {op : Op K} {s s1 : Sim K} (e : s.step now op = .ok s1) : s1.core.g = s.core.g := by
  have := step_time now s op
  rw [e] at this
  exact this.1

theorem time_log (now : ℕ → ℝ) (i r : ℕ) (hr : r < 2 ^ 31) (A : Fields) : ∀ (ops : List (Op K)) (s s' : Sim K) (c : ℕ) (m : TMon K) (rs : List (Row K)),
    Tidy s.tmons s.file → (∀ op ∈ ops, Fresh op) → s.runOk now ops = .ok s' → s.tmons[i]? = some m → m.outFreq = everyAt r c →
    s.file.rows (some m.name, A) = stored rs →
    ∃ rs', (if A ∈ expand m.what then
        List.Forall₂ (fun f row => m.shape.snapshot s.core.g (component f A) = .ok row) (moments now i r c s ops) rs' else rs' = []) ∧
      s'.file.rows (some m.name, A) = stored (rs ++ rs')
  | [], s, s', c, m, rs, _, _, h, _, _, hrs => by
    cases h
    refine ⟨[], ?_, by simpa using hrs⟩
    split_ifs
    · exact .nil
    · rfl
  | op :: l, s, s', c, m, rs, ht, hfr, h, hm, he, hrs => by
    rw [Sim.runOk] at h
    cases e : s.step now op with
    | threw m s1 => simp only [e] at h; cases h
    | ub u => simp only [e] at h; cases h
    | ok s1 =>
      simp only [e] at h
      obtain ⟨t1, hmon, -⟩ := step_output now op e ht (hfr op (by simp))
      obtain ⟨m1, q1, q2, q3, q4, q5⟩ := hmon i m hm
      have hg := runOk_grid now e
      -- the rows after this call
      have fin : ∀ (c' : ℕ) (fo : Option (Flds K)), m1.outFreq = everyAt r c' → Eff s.core.g fo m s.file s1.file →
          ∃ rs', (if A ∈ expand m.what then
            List.Forall₂ (fun f row => m.shape.snapshot s.core.g (component f A) = .ok row) (fo.toList ++ moments now i r c' s1 l) rs' else rs' = []) ∧
            s'.file.rows (some m.name, A) = stored (rs ++ rs') := by
        intro c' fo hc heff
        have ih := fun rs1 hrs1 => time_log now i r hr A l s1 s' c' m1 rs1 t1 (fun o ho => hfr o (by simp [ho])) h q1 hc hrs1
        rw [q2, q3, q4, hg] at ih
        by_cases hA : A ∈ expand m.what
        · simp only [if_pos hA] at ih ⊢
          have := heff.1 A hA
          cases fo with
          | none =>
            obtain ⟨rs', u1, u2⟩ := ih rs (by rw [← hrs]; exact this)
            exact ⟨rs', by simpa using u1, u2⟩
          | some f =>
            obtain ⟨row, v1, v2⟩ := this
            rw [hrs, stored_append] at v2
            obtain ⟨rs', u1, u2⟩ := ih _ v2
            exact ⟨row :: rs', .cons v1 u1, by rw [u2]; simp⟩
        · simp only [if_neg hA] at ih ⊢
          obtain ⟨rs', rfl, u2⟩ := ih rs (by rw [← hrs]; exact heff.2 A hA)
          exact ⟨[], rfl, u2⟩
      unfold moments
      simp only [e]
      cases op with
      | update =>
        obtain ⟨b, hb, heff⟩ := q5
        rw [he, everyAt_check r c hr] at hb
        simp only [Except.ok.injEq, Prod.mk.injEq] at hb
        have := fin (c + 1) _ hb.2.symm heff
        rw [← hb.1] at this
        by_cases hc : r ≠ 0 ∧ (c + 1) % r = 0
        · simpa only [hc, decide_true, if_true, Option.toList, ne_eq, not_false_eq_true, and_self] using this
        · simpa only [hc, decide_false, Bool.false_eq_true, if_false, Option.toList] using this
      | writeTimeMonitor k =>
        have := fin c _ (q5.1.trans he) q5.2
        by_cases hc : k = i
        · simpa only [hc, if_true, Option.toList] using this
        · simpa only [hc, if_false, Option.toList] using this
      | _ => exact fin c none (q5.1.trans he) q5.2

theorem collect_vals {α : Type} {read : α → M K} {v : α → K} : ∀ {l : List α} {vs : List K}, (∀ a x, read a = .ok x → x = v a) →
    collect read l = .ok vs → vs = l.map v
  | [], vs, _, h => by cases h; rfl
  | a :: l, vs, hv, h => by
    rw [collect] at h
    obtain ⟨x, e1, h⟩ := (Except.bind_ok ..).mp h
    obtain ⟨xs, e2, h⟩ := (Except.bind_ok ..).mp h
    cases h
    rw [hv a x e1, collect_vals hv e2]
    rfl

theorem rd_val {T : Tensor K} {i j : ℤ} {x : K} (h : T.rd i j = .ok x) : x = T.val i j := by
  unfold Tensor.rd at h
  split_ifs at h
  exact (Except.ok.inj h).symm

/-- A snapshot shows the nodes of the monitor. -/
theorem snapshot_shows (g : Grid K) (T : Tensor K) (sh : TShape K) (ho : Ordered g sh) (r : Row K) (h : sh.snapshot g T = .ok r) : Shows g T sh r := by
  cases sh with
  | point p =>
    unfold TShape.snapshot at h
    obtain ⟨v, e, h⟩ := (Except.bind_ok ..).mp h
    cases h
    rw [rd_val e]
    exact .point p
  | surface s =>
    unfold TShape.snapshot at h
    obtain ⟨is, e, h⟩ := (Except.bind_ok ..).mp h
    obtain ⟨vs, e2, h⟩ := (Except.bind_ok ..).mp h
    cases h
    have e' : ISurf.make (g.toGrid s.a) (g.toGrid s.b) s.sg = .ok is := e
    obtain ⟨f1, f2, f3⟩ := C05_isurface_outcome (g.toGrid s.a) (g.toGrid s.b) s.sg
    have hcase : ((g.toGrid s.a).x = (g.toGrid s.b).x ∧ (g.toGrid s.a).y ≠ (g.toGrid s.b).y) ∨
        ((g.toGrid s.a).x ≠ (g.toGrid s.b).x ∧ (g.toGrid s.a).y = (g.toGrid s.b).y) := by
      by_cases c1 : (g.toGrid s.a).x = (g.toGrid s.b).x <;> by_cases c2 : (g.toGrid s.a).y = (g.toGrid s.b).y
      · rw [f2 (V2.ext c1 c2)] at e'; cases e'
      · exact Or.inl ⟨c1, c2⟩
      · exact Or.inr ⟨c1, c2⟩
      · rw [f1 ⟨c1, c2⟩] at e'; cases e'
    obtain ⟨is', q0, q1, -, -, -, q2, q3, q4⟩ := f3 hcase
    rw [e'] at q0
    cases q0
    obtain ⟨n, hn⟩ := Int.eq_ofNat_of_zero_le (show 0 ≤ is.dim.inorm by rw [q2]; positivity)
    rw [hn] at q3 ⊢
    have := Shows.surface (T := T) s n is.tangent q4 (congrArg V2.x q3) (congrArg V2.y q3)
    rw [collect_vals (v := fun i => T.val (is.a + V2.smul i is.tangent).x (is.a + V2.smul i is.tangent).y) (fun i x hx => rd_val hx) e2, hn]
    simpa [intRange, q1, V2.smul, Function.comp_def] using this
  | volume v =>
    unfold TShape.snapshot at h
    obtain ⟨vs, e2, h⟩ := (Except.bind_ok ..).mp h
    cases h
    obtain ⟨o1, o2⟩ := ho
    rw [collect_vals (v := fun q : ℤ × ℤ => T.val ((g.toGridV v).a + ⟨q.1, q.2⟩ : V2 ℤ).x ((g.toGridV v).a + ⟨q.1, q.2⟩ : V2 ℤ).y) (fun i x hx => rd_val hx) e2]
    have d1 : (g.toGridV v).dim.x + 1 = (g.toGrid v.b).x - (g.toGrid v.a).x + 1 := by
      show |(g.toGrid v.a).x - (g.toGrid v.b).x| + 1 = _
      rw [abs_sub_comm, abs_of_nonneg (by omega)]
    have d2 : (g.toGridV v).dim.y + 1 = (g.toGrid v.b).y - (g.toGrid v.a).y + 1 := by
      show |(g.toGrid v.a).y - (g.toGrid v.b).y| + 1 = _
      rw [abs_sub_comm, abs_of_nonneg (by omega)]
    have ex : ∀ a b : ℤ, intRange a (b + 1) = (intRange 0 (b - a + 1)).map (a + ·) := by
      intro a b
      simp [intRange, show b + 1 - a = b - a + 1 by ring]
    have := Shows.volume (g := g) (T := T) v
    rw [min_eq_left o1, max_eq_right o1, min_eq_left o2, max_eq_right o2, abs_of_nonneg (by omega), abs_of_nonneg (by omega),
      ex (g.toGrid v.a).x, ex (g.toGrid v.a).y] at this
    rw [d1, d2]
    have ha : (g.toGridV v).a = g.toGrid v.a := rfl
    simp only [pos2, ha, List.map_flatMap, List.map_map, List.flatMap_map, Function.comp_def, V2.add_x, V2.add_y] at this ⊢
    exact this

theorem tidy_run (now : ℕ → ℝ) : ∀ (ops : List (Op K)) (s s' : Sim K), Tidy s.tmons s.file → (∀ op ∈ ops, Fresh op) → s.runOk now ops = .ok s' →
    Tidy s'.tmons s'.file ∧ s'.core.g = s.core.g
  | [], s, s', ht, _, h => by cases h; exact ⟨ht, rfl⟩
  | op :: l, s, s', ht, hfr, h => by
    rw [Sim.runOk] at h
    cases e : s.step now op with
    | threw m s1 => simp only [e] at h; cases h
    | ub u => simp only [e] at h; cases h
    | ok s1 =>
      simp only [e] at h
      obtain ⟨t1, -, -⟩ := step_output now op e ht (hfr op (by simp))
      obtain ⟨q1, q2⟩ := tidy_run now l s1 s' t1 (fun o ho => hfr o (by simp [ho])) h
      exact ⟨q1, q2.trans (runOk_grid now e)⟩

end

/-- **C45**, for boxes given lower corner first: the data set of each component the monitor selects holds, in order, one row per write: the component on
the nodes of the monitor at that moment. A write happens at every `r`-th update after the monitor was added (never for `r = 0`) and at every call of
`write`. The file holds no other component for the monitor. Missing: boxes given with reversed corners, `C45_reversed_false`. -/
theorem C45_snapshots_partial {K : Type} [Scalar K] (now : ℕ → ℝ) (g : Grid K) (fn : String) (s0 s1 s' : Sim K) (ops1 ops2 : List (Op K))
    (name : String) (shape : TShape K) (what : Fields) (r : ℕ) (hr : r < 2 ^ 31) (ho : Ordered g shape)
    (hfr : ∀ op ∈ ops1 ++ ops2, Fresh op) (h0 : Sim.make now g fn = .ok s0) (h1 : s0.runOk now ops1 = .ok s1)
    (h2 : s1.runOk now (.addTimeMonitor ⟨name, shape, what, .make r, []⟩ :: ops2) = .ok s') :
    ∃ s2, s1.step now (.addTimeMonitor ⟨name, shape, what, .make r, []⟩) = .ok s2 ∧
      (∀ A ∈ expand what, ∃ rs, s'.file.rows (some name, A) = stored rs ∧
        List.Forall₂ (fun f row => Shows g (component f A) shape row) (moments now s1.tmons.length r 0 s2 ops2) rs) ∧
      ∀ A ∉ expand what, s'.file.rows (some name, A) = none := by
  have hm : s0.tmons = [] ∧ s0.file = ⟨[], []⟩ ∧ s0.core.g = g := by
    unfold Sim.make at h0
    obtain ⟨ck, -, h0⟩ := (Except.bind_ok ..).mp h0
    obtain ⟨c, e, h0⟩ := (Except.bind_ok ..).mp h0
    split_ifs at h0
    cases h0
    refine ⟨rfl, rfl, ?_⟩
    unfold Core.make at e
    obtain ⟨f, -, e⟩ := (Except.bind_ok ..).mp e
    obtain ⟨pml, -, e⟩ := (Except.bind_ok ..).mp e
    obtain ⟨sc, -, e⟩ := (Except.bind_ok ..).mp e
    cases e
    rfl
  have t0 : Tidy s0.tmons s0.file := by rw [hm.1, hm.2.1]; exact ⟨by simp, by simp, fun _ _ _ => rfl⟩
  obtain ⟨t1, g1⟩ := tidy_run now ops1 s0 s1 t0 (fun o ho => hfr o (by simp [ho])) h1
  rw [hm.2.2] at g1
  rw [Sim.runOk] at h2
  cases e : s1.step now (.addTimeMonitor ⟨name, shape, what, .make r, []⟩) with
  | threw m s1 => simp only [e] at h2; cases h2
  | ub u => simp only [e] at h2; cases h2
  | ok s2 =>
    simp only [e] at h2
    refine ⟨s2, rfl, ?_⟩
    obtain ⟨t2, -, -⟩ := step_output now _ e t1 rfl
    have g2 := (runOk_grid now e).trans g1
    unfold Sim.step at e
    obtain ⟨F, e1, e⟩ := tryM_ok e
    unfold TMon.setF at e1
    split_ifs at e1 with c
    obtain ⟨r1, r2, -⟩ := File.openGroup_rows e1
    cases e
    have log := fun A => time_log now s1.tmons.length r hr A ops2 _ s' 0 ⟨name, shape, what, .make r, []⟩ [] t2 (fun o ho => hfr o (by simp [ho])) h2
      (by simp) (everyAt_zero r hr).symm (by rw [r1]; exact t1.rest _ _ c)
    refine ⟨fun A hA => ?_, fun A hA => ?_⟩
    · obtain ⟨rs, l1, l2⟩ := log A
      rw [if_pos hA] at l1
      refine ⟨rs, l2, l1.imp fun f row hf => ?_⟩
      rw [g2] at hf
      exact snapshot_shows g _ shape ho row hf
    · obtain ⟨rs, l1, l2⟩ := log A
      rw [if_neg hA] at l1
      rw [l2, l1]
      rfl

/-- `n` updates after the monitor was added have written `n / r` rows. -/
theorem moments_updates {K : Type} [Scalar K] (now : ℕ → ℝ) (i r : ℕ) (hr : 0 < r) : ∀ (n c : ℕ) (s s' : Sim K),
    s.runOk now (List.replicate n .update) = .ok s' → c / r + (moments now i r c s (List.replicate n .update)).length = (c + n) / r
  | 0, c, s, s', _ => by simp [moments]
  | n + 1, c, s, s', h => by
    rw [List.replicate_succ] at h ⊢
    rw [Sim.runOk] at h
    cases e : s.step now .update with
    | threw m s1 => simp only [e] at h; cases h
    | ub u => simp only [e] at h; cases h
    | ok s1 =>
      simp only [e] at h
      have ih := moments_updates now i r hr n (c + 1) s1 s' h
      unfold moments
      simp only [e]
      have hd : (c + 1) / r = c / r + if r ∣ c + 1 then 1 else 0 := Nat.succ_div
      by_cases hc : (c + 1) % r = 0
      · rw [if_pos (Nat.dvd_of_mod_eq_zero hc)] at hd
        rw [if_pos ⟨by omega, hc⟩]
        rw [List.length_append, List.length_singleton, show c + (n + 1) = c + 1 + n by ring, ← ih]
        omega
      · rw [if_neg (fun hh => hc (Nat.mod_eq_zero_of_dvd hh))] at hd
        rw [if_neg (by tauto), List.nil_append, show c + (n + 1) = c + 1 + n by ring, ← ih]
        omega

/-- **C45**: a monitor writing every `r` updates holds `n / r` rows after `n` updates. -/
theorem C45_count {K : Type} [Scalar K] (now : ℕ → ℝ) (g : Grid K) (fn : String) (s0 s1 s' : Sim K) (ops : List (Op K)) (n : ℕ)
    (name : String) (shape : TShape K) (what : Fields) (r : ℕ) (hr : r < 2 ^ 31) (h1r : 0 < r) (ho : Ordered g shape)
    (hfr : ∀ op ∈ ops, Fresh op) (h0 : Sim.make now g fn = .ok s0) (h1 : s0.runOk now ops = .ok s1)
    (h2 : s1.runOk now (.addTimeMonitor ⟨name, shape, what, .make r, []⟩ :: List.replicate n .update) = .ok s') :
    ∀ A ∈ expand what, ∃ rs, s'.file.rows (some name, A) = stored rs ∧ rs.length = n / r := by
  obtain ⟨s2, e, hw, -⟩ := C45_snapshots_partial now g fn s0 s1 s' ops _ name shape what r hr ho (by
    intro op hop
    rcases List.mem_append.mp hop with hop | hop
    · exact hfr op hop
    · rw [(List.mem_replicate.mp hop).2]; trivial) h0 h1 h2
  intro A hA
  obtain ⟨rs, r1, r2⟩ := hw A hA
  refine ⟨rs, r1, ?_⟩
  rw [← r2.length_eq]
  rw [Sim.runOk] at h2
  simp only [e] at h2
  have := moments_updates now s1.tmons.length r h1r n 0 s2 s' h2
  simpa using this

/-- **C45** is false for a box given upper corner first: the row holds the nodes above the box. -/
theorem C45_reversed_false (T : Tensor ℝ) (hT : T.Dim 20 20) (hne : T.val 14 14 ≠ T.val 12 12) :
    ∃ r, (TShape.volume (Vol.make ⟨((12 : ℤ) : ℝ), ((12 : ℤ) : ℝ)⟩ ⟨((10 : ℤ) : ℝ), ((10 : ℤ) : ℝ)⟩)).snapshot gEx T = .ok r ∧
      ¬ Shows gEx T (.volume (Vol.make ⟨((12 : ℤ) : ℝ), ((12 : ℤ) : ℝ)⟩ ⟨((10 : ℤ) : ℝ), ((10 : ℤ) : ℝ)⟩)) r := by
  have n := gEx_node
  have hv : gEx.toGridV (Vol.make ⟨((12 : ℤ) : ℝ), ((12 : ℤ) : ℝ)⟩ ⟨((10 : ℤ) : ℝ), ((10 : ℤ) : ℝ)⟩) = ⟨⟨12, 12⟩, ⟨10, 10⟩, ⟨2, 2⟩⟩ := by
    unfold Grid.toGridV Vol.make
    rw [n, n]; rfl
  obtain ⟨vs, hvs⟩ := collect_ok (read := fun q : ℤ × ℤ => T.rd (12 + q.1) (12 + q.2)) (pos2 3 3) (by
    intro q hq
    rw [mem_pos2] at hq
    exact Tensor.rd_in' hT (by omega) (by omega) (by omega) (by omega))
  refine ⟨⟨[3, 3], vs⟩, ?_, ?_⟩
  · unfold TShape.snapshot
    simp only [hv]
    show (collect (fun q : ℤ × ℤ => T.rd (12 + q.1) (12 + q.2)) (pos2 3 3) >>= _) = _
    rw [hvs]; rfl
  · intro hs
    have h1 := collect_vals (v := fun q : ℤ × ℤ => T.val (12 + q.1) (12 + q.2)) (fun i x hx => rd_val hx) hvs
    generalize hw : Vol.make (⟨((12 : ℤ) : ℝ), ((12 : ℤ) : ℝ)⟩ : V2 ℝ) ⟨((10 : ℤ) : ℝ), ((10 : ℤ) : ℝ)⟩ = v at hs
    generalize hr : (⟨[3, 3], vs⟩ : Row ℝ) = r at hs
    cases hs
    subst hw
    have h2 := congrArg Row.data hr
    simp only [Vol.make] at h2
    rw [n, n, h1] at h2
    have h3 := congrArg (fun l : List ℝ => l[8]?) h2
    have h4 : some (T.val 14 14) = some (T.val 12 12) := h3
    exact hne (Option.some.inj h4)

/-- ... and at the upper edge of the grid the write reads outside the array. -/
theorem C45_reversed_oob (T : Tensor ℝ) (hT : T.Dim 20 20) :
    (TShape.volume (Vol.make ⟨((19 : ℤ) : ℝ), ((19 : ℤ) : ℝ)⟩ ⟨((18 : ℤ) : ℝ), ((19 : ℤ) : ℝ)⟩)).snapshot gEx T = .error (.ub .oob) := by
  have n := gEx_node
  have hv : gEx.toGridV (Vol.make ⟨((19 : ℤ) : ℝ), ((19 : ℤ) : ℝ)⟩ ⟨((18 : ℤ) : ℝ), ((19 : ℤ) : ℝ)⟩) = ⟨⟨19, 19⟩, ⟨18, 19⟩, ⟨1, 0⟩⟩ := by
    unfold Grid.toGridV Vol.make
    rw [n, n]; rfl
  unfold TShape.snapshot
  simp only [hv]
  show (collect (fun q : ℤ × ℤ => T.rd (19 + q.1) (19 + q.2)) [(0, 0), (1, 0)] >>= _) = _
  have e1 : T.rd (19 + 0) (19 + 0) = .ok (T.val 19 19) := Tensor.rd_in (by norm_num) (by rw [hT.1]; norm_num) (by norm_num) (by rw [hT.2]; norm_num)
  have e2 : T.rd (19 + 1) (19 + 0) = .error (.ub .oob) := by
    unfold Tensor.rd
    rw [if_neg]
    rintro ⟨-, h, -⟩
    rw [hT.1] at h
    norm_num at h
  simp only [collect, e1, e2, Except.ok_bind, Except.error_bind]

/-! ## C57: programs inside the domain run to their end -/

theorem make_orderly (now : ℕ → ℝ) (g : Grid ℝ) (hg : g.Wide) (fn : String) (hf : fn ≠ "") :
    ∃ s0, Sim.make now g fn = .ok s0 ∧ s0.Safe False g [] ∧ Orderly g ["Ez", "Hx", "Hy"] s0 := by
  obtain ⟨s0, h0, hs⟩ := make_safe now False g hg fn hf
  refine ⟨s0, h0, hs, ?_⟩
  obtain ⟨s, e, -, -, -, -, -, -, -, -, -, -, ck⟩ := make_named now (g := g) (by have := hg.nx; omega) (by have := hg.ny; omega) hf
  rw [h0] at e
  cases e
  have hm : s0.tmons = [] ∧ s0.file = ⟨[], []⟩ := by
    unfold Sim.make at h0
    obtain ⟨ck, -, h0⟩ := (Except.bind_ok ..).mp h0
    obtain ⟨c, -, h0⟩ := (Except.bind_ok ..).mp h0
    split_ifs at h0
    cases h0
    exact ⟨rfl, rfl⟩
  refine ⟨by rw [hm.1, hm.2]; exact ⟨by simp, by simp, fun _ _ _ => rfl⟩, by rw [hm.2]; simp, ?_, ?_, ck.idle, by rw [hm.1]; simp⟩
  · intro A hA
    cases A <;> simp [comps, fieldName] at hA ⊢
  · intro A hA
    rw [hm.2] at hA
    exact absurd rfl hA

/-- **C57.** On a grid at least two nodes wider than the absorbing layer, every program that stays inside the domain, gives its time monitors names of
their own and writes single components runs to its end: no call throws. -/
theorem C57_completes (now : ℕ → ℝ) (g : Grid ℝ) (hg : g.Wide) (hd : 0 < g.dx) (fn : String) (hf : fn ≠ "") (ops : List (Op ℝ))
    (hi : Inside False g [] ops) (hp : Proper ["Ez", "Hx", "Hy"] ops) : ∃ s0 s, Sim.make now g fn = .ok s0 ∧ s0.runOk now ops = .ok s := by
  obtain ⟨s0, h0, hs, ho⟩ := make_orderly now g hg fn hf
  obtain ⟨s', -, -, e, -⟩ := runOk_orderly now hg hd ops [] _ s0 hi hs ho hp
  exact ⟨s0, s', h0, e⟩

/-- Names matter: the second of two time monitors with the same name throws. -/
theorem C57_name_taken {K : Type} [Scalar K] (now : ℕ → ℝ) (s s1 : Sim K) (m m' : TMon K) (h : m'.name = m.name)
    (e : s.step now (.addTimeMonitor m) = .ok s1) : ∃ msg, s1.step now (.addTimeMonitor m') = .threw msg s1 := by
  unfold Sim.step at e
  obtain ⟨F, e1, e⟩ := tryM_ok e
  cases e
  unfold TMon.setF at e1
  split_ifs at e1 with c
  obtain ⟨-, r2, -⟩ := File.openGroup_rows e1
  refine ⟨"HDF5 error", ?_⟩
  unfold Sim.step TMon.setF
  simp only [h, if_pos ((r2 m.name).mpr (Or.inr rfl))]
  rfl

/-! ## The hypotheses can be met -/

/-- A program with a source, an object and time monitors of each shape. -/
noncomputable def logged (s : Surf ℝ) : List (Op ℝ) :=
  [.addSource ⟨"a", .point .Ez ⟨(15 : ℤ), (10 : ℤ)⟩, .continuous 1⟩, .addObject (disc water 5 5), .update,
    .addTimeMonitor ⟨"v", .volume (Vol.make ⟨(2 : ℤ), (3 : ℤ)⟩ ⟨(7 : ℤ), (9 : ℤ)⟩), .E, .make 2, []⟩, .writeE,
    .addTimeMonitor ⟨"p", .point ⟨(0 : ℤ), (19 : ℤ)⟩, .H, .make 0, []⟩, .addTimeMonitor ⟨"s", .surface s, .all, .make 1, []⟩,
    .update, .update, .writeH, .writeTimeMonitor 1, .clearFields, .update, .writeField .Ez]

theorem logged_runs (now : ℕ → ℝ) : ∃ s, Inside False gEx [] (logged s) ∧ (∀ op ∈ logged s, Fresh op) ∧ ∃ s0 s', Sim.make now gEx "out" = .ok s0 ∧
    s0.runOk now (logged s) = .ok s' := by
  have n := gEx_node
  have i : ∀ i j : ℤ, 0 ≤ i → i < 20 → 0 ≤ j → j < 20 → InGrid gEx (gEx.toGrid ⟨(i : ℝ), (j : ℝ)⟩) := by
    intro i j h1 h2 h3 h4
    rw [n]
    exact ⟨h1, by rw [gEx_Nx]; exact h2, h3, by rw [gEx_Ny]; exact h4⟩
  obtain ⟨s, hs⟩ := boxFace_make (⟨((4 : ℤ) : ℝ), ((4 : ℤ) : ℝ)⟩ : V2 ℝ) ⟨((9 : ℤ) : ℝ), ((12 : ℤ) : ℝ)⟩ 0
  have hi : Inside False gEx [] (logged s) := by
    refine ⟨⟨by simp [Fields.IsComp], i 15 10 (by norm_num) (by norm_num) (by norm_num) (by norm_num)⟩,
      safe_of_clear gEx_lawful (disc_clear water (by norm_num) (by norm_num)), ⟨.volume _ _ (i 2 3 (by norm_num) (by norm_num) (by norm_num) (by norm_num))
        (i 7 9 (by norm_num) (by norm_num) (by norm_num) (by norm_num)) (by rw [n, n]; norm_num) (by rw [n, n]; norm_num), 2, by norm_num, by norm_num, rfl⟩,
      ⟨.point _ (i 0 19 (by norm_num) (by norm_num) (by norm_num) (by norm_num)), 0, by norm_num, by norm_num, rfl⟩,
      ⟨.surface _ _ _ _ hs ?_ (i 4 4 (by norm_num) (by norm_num) (by norm_num) (by norm_num)) (i 9 4 (by norm_num) (by norm_num) (by norm_num) (by norm_num)),
        1, by norm_num, by norm_num, rfl⟩, trivial⟩
    intro h
    have h : gEx.toGrid ⟨((4 : ℤ) : ℝ), ((4 : ℤ) : ℝ)⟩ = gEx.toGrid ⟨((9 : ℤ) : ℝ), ((4 : ℤ) : ℝ)⟩ := h
    rw [n, n] at h
    exact absurd (congrArg V2.x h) (by norm_num)
  refine ⟨s, hi, by simp [logged, Fresh], C57_completes now gEx gEx_wide (by rw [gEx_dx]; norm_num) "out" (by simp) _ hi ?_⟩
  simp [logged, Proper, comps]

theorem writes_length {K : Type} [Scalar K] (now : ℕ → ℝ) (C : Fields) : ∀ (ops : List (Op K)) (s s' : Sim K), s.runOk now ops = .ok s' →
    (writes now C s ops).length = ops.countP fun op => match op with
      | .writeField D => D == C
      | .writeE => C == .Ez
      | .writeH => C == .Hx || C == .Hy
      | _ => false
  | [], s, s', _ => rfl
  | op :: l, s, s', h => by
    rw [Sim.runOk] at h
    cases e : s.step now op with
    | threw m s1 => simp only [e] at h; cases h
    | ub u => simp only [e] at h; cases h
    | ok s1 =>
      simp only [e] at h
      unfold writes
      simp only [e]
      rw [List.length_append, writes_length now C l s1 s' h, List.countP_cons, add_comm]
      congr 1
      cases op <;> first | rfl | (cases C <;> rfl) | skip
      rename_i D
      simp only [beq_iff_eq]
      split_ifs <;> rfl

/-- The program writes `Ez` twice. -/
example (now : ℕ → ℝ) : ∃ s s0 s', Sim.make now gEx "out" = .ok s0 ∧ s0.runOk now (logged s) = .ok s' ∧
    ∃ rs, s'.file.rows (none, .Ez) = some rs ∧ rs.length = 2 := by
  obtain ⟨s, hi, hfr, s0, s', h0, h⟩ := logged_runs now
  refine ⟨s, s0, s', h0, h, ?_⟩
  have h1 := C46_fields now gEx "out" s0 s' (logged s) hfr h0 h .Ez
  have h2 := writes_length now .Ez _ s0 s' h
  have h3 : ((writes now .Ez s0 (logged s)).map Tensor.row).length = 2 := by rw [List.length_map, h2]; rfl
  refine ⟨_, ?_, h3⟩
  rw [h1]
  generalize (writes now Fields.Ez s0 (logged s)).map Tensor.row = rs at h3
  cases rs with
  | nil => cases h3
  | cons a l => rfl

/-- A monitor that writes every second update holds two rows after five updates. -/
example (now : ℕ → ℝ) : ∃ s0 s' rs, Sim.make now gEx "out" = .ok s0 ∧
    s0.runOk now (.addTimeMonitor ⟨"v", .volume (Vol.make ⟨(2 : ℤ), (3 : ℤ)⟩ ⟨(7 : ℤ), (9 : ℤ)⟩), .H, .make 2, []⟩ :: List.replicate 5 .update) = .ok s' ∧
    s'.file.rows (some "v", .Hy) = stored rs ∧ rs.length = 2 := by
  have n := gEx_node
  have i : ∀ i j : ℤ, 0 ≤ i → i < 20 → 0 ≤ j → j < 20 → InGrid gEx (gEx.toGrid ⟨(i : ℝ), (j : ℝ)⟩) := by
    intro i j h1 h2 h3 h4
    rw [n]
    exact ⟨h1, by rw [gEx_Nx]; exact h2, h3, by rw [gEx_Ny]; exact h4⟩
  have o1 : (gEx.toGrid ⟨((2 : ℤ) : ℝ), ((3 : ℤ) : ℝ)⟩).x ≤ (gEx.toGrid ⟨((7 : ℤ) : ℝ), ((9 : ℤ) : ℝ)⟩).x := by rw [n, n]; norm_num
  have o2 : (gEx.toGrid ⟨((2 : ℤ) : ℝ), ((3 : ℤ) : ℝ)⟩).y ≤ (gEx.toGrid ⟨((7 : ℤ) : ℝ), ((9 : ℤ) : ℝ)⟩).y := by rw [n, n]; norm_num
  obtain ⟨s0, s', h0, h⟩ := C57_completes now gEx gEx_wide (by rw [gEx_dx]; norm_num) "out" (by simp)
    (.addTimeMonitor ⟨"v", .volume (Vol.make ⟨(2 : ℤ), (3 : ℤ)⟩ ⟨(7 : ℤ), (9 : ℤ)⟩), .H, .make 2, []⟩ :: List.replicate 5 .update)
    ⟨⟨.volume _ _ (i 2 3 (by norm_num) (by norm_num) (by norm_num) (by norm_num)) (i 7 9 (by norm_num) (by norm_num) (by norm_num) (by norm_num)) o1 o2,
      2, by norm_num, by norm_num, rfl⟩, trivial⟩ (by simp [Proper, List.replicate])
  obtain ⟨rs, r1, r2⟩ := C45_count now gEx "out" s0 s0 s' [] 5 "v" (.volume (Vol.make ⟨(2 : ℤ), (3 : ℤ)⟩ ⟨(7 : ℤ), (9 : ℤ)⟩)) .H 2 (by norm_num) (by norm_num) ⟨o1, o2⟩ (by simp) h0 rfl h .Hy (by simp [expand])
  exact ⟨s0, s', rs, h0, h, r1, r2⟩

end Qbox.Props
