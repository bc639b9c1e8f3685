import Verif.Lemmas.Layout
import Mathlib.Algebra.BigOperators.Group.List.Basic
import Mathlib.Tactic.Abel

/-!
# C35, C37: running Fourier transforms
-/

namespace Qbox.Props
open Qbox Scalar Spec

set_option linter.unusedSectionVars false

variable {K P : Type} [Scalar K] [DecidableEq P]

/-- A transform of the frequencies `freq` that records the signals `names` at the positions `pos`. -/
def recorder (freq : List K) (names : List String) (pos : List P) : Dft K P :=
  names.foldl (fun d n => d.add n pos) (Dft.make freq)

/-- A transform whose accumulators are all zero, at the positions `pos`. -/
def Blank (pos : List P) (l : List (String × Acc K P)) : Prop := ∀ q ∈ l, q.2 = ⟨pos, fun _ _ => 0, fun _ _ => 0⟩

theorem accAdd_blank {n : String} {pos : List P} : ∀ {l : List (String × Acc K P)}, Blank pos l → Blank pos (accAdd n pos l)
  | [], _ => by intro q hq; simp only [accAdd, List.mem_singleton] at hq; rw [hq]
  | (m, a) :: l, h => by
    have ha := h (m, a) (by simp)
    simp only at ha
    have hl : Blank pos l := fun q hq => h q (by simp [hq])
    unfold accAdd
    split_ifs with c1 c2
    · intro q hq
      simp only [List.mem_cons] at hq
      rcases hq with rfl | hq
      · simp [ha]
      · exact hl q hq
    · intro q hq
      simp only [List.mem_cons] at hq
      rcases hq with rfl | rfl | hq
      · rfl
      · exact ha
      · exact hl q hq
    · intro q hq
      simp only [List.mem_cons] at hq
      rcases hq with rfl | hq
      · exact ha
      · exact accAdd_blank hl q hq

theorem accFind_add_self {n : String} {pos : List P} : ∀ (l : List (String × Acc K P)), (accFind n (accAdd n pos l)).isSome
  | [] => by simp [accAdd, accFind]
  | (m, a) :: l => by
    unfold accAdd
    split_ifs with c1 c2
    · simp [accFind, c1]
    · simp [accFind]
    · simp only [accFind, c1, if_false]; exact accFind_add_self l

theorem accFind_add_other {n m : String} {pos : List P} : ∀ (l : List (String × Acc K P)), (accFind n l).isSome →
    (accFind n (accAdd m pos l)).isSome
  | [], h => by simp [accFind] at h
  | (q, a) :: l, h => by
    unfold accAdd
    split_ifs with c1 c2
    · by_cases e : q = n
      · simp [accFind, e]
      · simp only [accFind, e, if_false] at h ⊢; exact h
    · by_cases e : m = n
      · simp [accFind, e]
      · simp only [accFind, e, if_false] at h ⊢; exact h
    · by_cases e : q = n
      · simp [accFind, e]
      · simp only [accFind, e, if_false] at h ⊢; exact accFind_add_other l h

theorem accFind_mem {n : String} {a : Acc K P} : ∀ {l : List (String × Acc K P)}, accFind n l = some a → (n, a) ∈ l
  | [], h => by simp [accFind] at h
  | (q, b) :: l, h => by
    unfold accFind at h
    split_ifs at h with c
    · simp only [Option.some.injEq] at h; subst c h; simp
    · exact List.mem_cons_of_mem _ (accFind_mem h)

theorem recorder_find (freq : List K) (names : List String) (pos : List P) :
    (recorder freq names pos).freq = freq ∧ (recorder freq names pos).t = 0 ∧ Blank pos (recorder freq names pos).acc ∧
      ∀ n ∈ names, accFind n (recorder freq names pos).acc = some ⟨pos, fun _ _ => 0, fun _ _ => 0⟩ := by
  have key : ∀ (names : List String) (d : Dft K P), Blank pos d.acc →
      (names.foldl (fun d n => d.add n pos) d).freq = d.freq ∧ (names.foldl (fun d n => d.add n pos) d).t = d.t ∧
      Blank pos (names.foldl (fun d n => d.add n pos) d).acc ∧
      ∀ n, n ∈ names ∨ (accFind n d.acc).isSome → (accFind n (names.foldl (fun d n => d.add n pos) d).acc).isSome := by
    intro names
    induction names with
    | nil => intro d hd; exact ⟨rfl, rfl, hd, fun n h => by simpa using h⟩
    | cons m names ih =>
      intro d hd
      obtain ⟨h1, h2, h3, h4⟩ := ih (d.add m pos) (accAdd_blank hd)
      refine ⟨h1, h2, h3, fun n h => h4 n ?_⟩
      rcases h with h | h
      · simp only [List.mem_cons] at h
        rcases h with rfl | h
        · exact Or.inr (accFind_add_self _)
        · exact Or.inl h
      · exact Or.inr (accFind_add_other _ h)
  obtain ⟨h1, h2, h3, h4⟩ := key names (Dft.make freq) (by intro q hq; simp [Dft.make] at hq)
  refine ⟨h1, h2, h3, fun n hn => ?_⟩
  obtain ⟨a, ha⟩ := Option.isSome_iff_exists.mp (h4 n (Or.inl hn))
  rw [show recorder freq names pos = names.foldl (fun d n => d.add n pos) (Dft.make freq) from rfl, ha]
  exact congrArg some (h3 _ (accFind_mem ha))

/-- **C35**, in any arithmetic: a transform fed a sequence of samples holds, for every signal, position and frequency, the
cosine and sine sums of the samples that count, added in order. A sample does not count when it has the time of the one before
it, or when it is the first and has time 0. -/
theorem C35_counted_sum (freq : List K) (names : List String) (pos : List P) (hp : pos.Nodup) (l : List (Sample K P)) :
    ∃ d, feed (recorder freq names pos) l = .ok d ∧ d.freq = freq ∧
      ∀ n ∈ names, ∃ a, d.get n = .ok a ∧ a.pos = pos ∧ Holds a freq n (counted 0 l) := by
  obtain ⟨h1, h2, h3, h4⟩ := recorder_find freq names pos
  obtain ⟨d, k1, k2, -, -, k3⟩ := feed_sum l (recorder freq names pos) (fun q hq => by rw [h3 q hq]; exact hp)
  refine ⟨d, k1, k2.trans h1, fun n hn => ?_⟩
  obtain ⟨a, a1, a2, a3⟩ := k3 n _ (h4 n hn)
  refine ⟨a, by rw [Dft.get, a1], a2, ⟨?_, ?_⟩⟩
  · intro p hp k hk
    have := (a3 p (by rw [a2] at hp; exact hp) k (by rw [h1]; exact hk)).1
    simp only [h1, h2] at this
    exact this
  · intro p hp k hk
    have := (a3 p (by rw [a2] at hp; exact hp) k (by rw [h1]; exact hk)).2
    simp only [h1, h2] at this
    exact this

/-- Successive times differ, and the first differs from `t0`. -/
def Apart (t0 : ℝ) : List (Sample ℝ P) → Prop
  | [] => True
  | s :: l => t0 ≠ s.t ∧ Apart s.t l

theorem counted_apart {t0 : ℝ} : ∀ {l : List (Sample ℝ P)}, Apart t0 l → counted t0 l = l
  | [], _ => rfl
  | s :: l, ⟨h1, h2⟩ => by
    have : eqb t0 s.t = false := by simpa using h1
    simp only [counted, this, Bool.false_eq_true, if_false, counted_apart h2]

theorem foldl_sum {α : Type} (f : α → ℝ) : ∀ (l : List α) (x : ℝ), l.foldl (fun x s => x + f s) x = x + (l.map f).sum
  | [], x => by simp
  | a :: l, x => by simp [foldl_sum f l, add_assoc]

/-- **C35**, weakened by `Apart 0`: the first sample must not be at time 0 (see `C35_time_zero_dropped`). In exact arithmetic the
transform of samples at successively different times holds `∑ g·cos(2πft)` and `∑ g·sin(2πft)` at every position and
frequency. -/
theorem C35_fourier_sum_partial (freq : List ℝ) (names : List String) (pos : List P) (hp : pos.Nodup) (l : List (Sample ℝ P))
    (hl : Apart 0 l) :
    ∃ d, feed (recorder freq names pos) l = .ok d ∧
      ∀ n ∈ names, ∃ a, d.get n = .ok a ∧ ∀ p ∈ pos, ∀ (k : ℕ) (h : k < freq.length),
        a.re p k = (l.map fun s => s.v n p * Real.cos (2 * Real.pi * freq[k] * s.t)).sum ∧
        a.im p k = (l.map fun s => s.v n p * Real.sin (2 * Real.pi * freq[k] * s.t)).sum := by
  obtain ⟨d, h1, -, h3⟩ := C35_counted_sum freq names pos hp l
  refine ⟨d, h1, fun n hn => ?_⟩
  obtain ⟨a, a1, a2, a3, a4⟩ := h3 n hn
  rw [counted_apart hl] at a3 a4
  refine ⟨a, a1, fun p hp k hk => ⟨?_, ?_⟩⟩
  · rw [a3 p (by rw [a2]; exact hp) k hk, cosSum, foldl_sum]
    simp
  · rw [a4 p (by rw [a2]; exact hp) k hk, sinSum, foldl_sum]
    simp

/-- **C35**: feeding the same time twice in a row counts once. -/
theorem C35_repeat_once (d : Dft ℝ P) (hn : ∀ q ∈ d.acc, q.2.pos.Nodup) (s s' : Sample ℝ P) (l : List (Sample ℝ P)) (h : s'.t = s.t) :
    feed d (s :: s' :: l) = feed d (s :: l) := by
  by_cases ht : eqb d.t s.t = true
  · have ht' : eqb d.t s'.t = true := by rw [h]; exact ht
    simp only [feed, Dft.update, ht, ht', if_true, Except.ok_bind]
  · have ht' : eqb d.t s.t = false := by simpa using ht
    rw [feed, feed, dftUpdate_pure d s.t s.v hn ht']
    simp only [Except.ok_bind]
    rw [feed]
    unfold Dft.update
    have : eqb s.t s'.t = true := by rw [h]; simp
    simp only [this, if_true, Except.ok_bind]

/-- The property C35 as stated does not hold when the first sample is at time 0: it is dropped, because a new transform starts at
time 0. -/
theorem C35_time_zero_dropped : ∃ (s : Sample ℝ Unit) (d : Dft ℝ Unit) (a : Acc ℝ Unit),
    feed (recorder [0] ["E"] [()]) [s] = .ok d ∧ d.get "E" = .ok a ∧
      s.v "E" () * Real.cos (2 * Real.pi * 0 * s.t) = 1 ∧ a.re () 0 = 0 := by
  refine ⟨⟨0, fun _ _ => 1⟩, recorder [0] ["E"] [()], ⟨[()], fun _ _ => 0, fun _ _ => 0⟩, ?_, ?_, by simp, rfl⟩
  · rw [feed]
    unfold Dft.update
    have : eqb (recorder ([0] : List ℝ) ["E"] [()]).t (0 : ℝ) = true := by simp [recorder, Dft.add, Dft.make]
    simp only [this, if_true, Except.ok_bind]
    rfl
  · rw [Dft.get, (recorder_find [0] ["E"] [()]).2.2.2 "E" (by simp)]

/-- A non-trivial case of C35: the samples of any signal at `m` steps of any positive length. -/
theorem apart_steps (v : ℕ → String → P → ℝ) {dt : ℝ} (h : 0 < dt) (m : ℕ) :
    Apart 0 ((List.range m).map fun i : ℕ => (⟨((i : ℝ) + 1) * dt, v i⟩ : Sample ℝ P)) := by
  have key : ∀ (m a : ℕ) (t0 : ℝ), t0 = a * dt → Apart t0 ((List.range' a m).map fun i : ℕ => (⟨((i : ℝ) + 1) * dt, v i⟩ : Sample ℝ P)) := by
    intro m
    induction m with
    | zero => intro a t0 _; trivial
    | succ m ih =>
      intro a t0 h0
      rw [List.range'_succ, List.map_cons]
      exact ⟨by simp only [h0]; intro e; nlinarith, ih (a + 1) _ (by push_cast; ring)⟩
  rw [List.range_eq_range']
  exact key m 0 0 (by simp)

example : Apart (P := Unit) 0 ((List.range 5).map fun i : ℕ => ⟨((i : ℝ) + 1) * (1 / 2), fun _ _ => Real.sin i⟩) :=
  apart_steps _ (by norm_num) 5

/-! ## C37 -/

/-- The difference of two signals sampled at the same times. -/
noncomputable def sampleDiff (s s' : Sample ℝ P) : Sample ℝ P := ⟨s.t, fun n p => s.v n p - s'.v n p⟩

theorem accSub_find {nf : ℕ} (o : Dft ℝ P) (hf : nf = o.freq.length) : ∀ (l : List (String × Acc ℝ P)),
    (∀ q ∈ l, ∃ b, accFind q.1 o.acc = some b ∧ q.2.pos = b.pos) →
    ∃ l', accSub nf o l = .ok l' ∧ ∀ n a, accFind n l = some a → ∃ b, accFind n o.acc = some b ∧ accFind n l' = some (a.sub b)
  | [], _ => ⟨[], rfl, fun n a h => by simp [accFind] at h⟩
  | (m, a) :: l, h => by
    obtain ⟨l', h1, h2⟩ := accSub_find o hf l (fun q hq => h q (by simp [hq]))
    obtain ⟨b, hb, hp⟩ := h (m, a) (by simp)
    simp only at hb hp
    refine ⟨(m, a.sub b) :: l', ?_, ?_⟩
    · rw [accSub, h1]
      simp only [Dft.get, hb, Except.ok_bind, Except.pure_eq]
      rw [if_pos ⟨hp, hf⟩]
    · intro n c hc
      by_cases e : m = n
      · subst e
        simp only [accFind, if_true, Option.some.injEq] at hc ⊢
        subst hc
        exact ⟨b, hb, rfl⟩
      · simp only [accFind, e, if_false] at hc ⊢
        exact h2 n c hc

theorem cosSum_diff (f : ℝ) (n : String) (p : P) : ∀ (l l' : List (Sample ℝ P)), List.Forall₂ (fun s s' => s.t = s'.t) l l' →
    ∀ x y, cosSum f n p x l - cosSum f n p y l' = cosSum f n p (x - y) (List.zipWith sampleDiff l l')
  | [], _, h, x, y => by cases h; simp [cosSum]
  | s :: l, _, h, x, y => by
    cases h with
    | cons h1 h2 =>
      rename_i s' l'
      have := cosSum_diff f n p l l' h2 (x + s.v n p * Scalar.cos (ofInt 2 * Scalar.pi * f * s.t))
        (y + s'.v n p * Scalar.cos (ofInt 2 * Scalar.pi * f * s'.t))
      simp only [cosSum, List.foldl_cons, List.zipWith_cons_cons, sampleDiff] at this ⊢
      rw [this]
      congr 1
      rw [h1]; ring

theorem sinSum_diff (f : ℝ) (n : String) (p : P) : ∀ (l l' : List (Sample ℝ P)), List.Forall₂ (fun s s' => s.t = s'.t) l l' →
    ∀ x y, sinSum f n p x l - sinSum f n p y l' = sinSum f n p (x - y) (List.zipWith sampleDiff l l')
  | [], _, h, x, y => by cases h; simp [sinSum]
  | s :: l, _, h, x, y => by
    cases h with
    | cons h1 h2 =>
      rename_i s' l'
      have := sinSum_diff f n p l l' h2 (x + s.v n p * Scalar.sin (ofInt 2 * Scalar.pi * f * s.t))
        (y + s'.v n p * Scalar.sin (ofInt 2 * Scalar.pi * f * s'.t))
      simp only [sinSum, List.foldl_cons, List.zipWith_cons_cons, sampleDiff] at this ⊢
      rw [this]
      congr 1
      rw [h1]; ring

theorem counted_diff : ∀ (l l' : List (Sample ℝ P)), List.Forall₂ (fun s s' => s.t = s'.t) l l' → ∀ t0,
    List.Forall₂ (fun s s' => s.t = s'.t) (counted t0 l) (counted t0 l') ∧
    counted t0 (List.zipWith sampleDiff l l') = List.zipWith sampleDiff (counted t0 l) (counted t0 l')
  | [], _, h, t0 => by cases h; exact ⟨.nil, rfl⟩
  | s :: l, _, h, t0 => by
    cases h with
    | cons h1 h2 =>
      rename_i s' l'
      simp only [counted, List.zipWith_cons_cons]
      rw [← h1]
      have e : (sampleDiff s s').t = s.t := rfl
      rw [e]
      split_ifs with c
      · exact counted_diff l l' h2 t0
      · obtain ⟨k1, k2⟩ := counted_diff l l' h2 s.t
        exact ⟨.cons h1 k1, by rw [k2]; rfl⟩

/-- **C37** (transforms). Two transforms of the same frequencies, signals and positions, fed at the same times: the difference
holds exactly the transform of the difference of the signals. -/
theorem C37_difference (freq : List ℝ) (names : List String) (pos : List P) (hp : pos.Nodup) (l l' : List (Sample ℝ P))
    (hl : List.Forall₂ (fun s s' => s.t = s'.t) l l') :
    ∃ d d' e, feed (recorder freq names pos) l = .ok d ∧ feed (recorder freq names pos) l' = .ok d' ∧ d.sub d' = .ok e ∧
      e.freq = freq ∧
      ∀ n ∈ names, ∃ a, e.get n = .ok a ∧ a.pos = pos ∧ Holds a freq n (counted 0 (List.zipWith sampleDiff l l')) := by
  obtain ⟨h1, h2, h3, h4⟩ := recorder_find freq names pos
  obtain ⟨d, k1, k2, k3⟩ := C35_counted_sum freq names pos hp l
  obtain ⟨d', k1', k2', k3'⟩ := C35_counted_sum freq names pos hp l'
  have kept : ∀ (l : List (Sample ℝ P)) (d d' : Dft ℝ P), feed d l = .ok d' → d'.layout = d.layout := by
    intro l
    induction l with
    | nil => intro d d' h; cases h; rfl
    | cons s l ih =>
      intro d d' h
      rw [feed] at h
      simp only [Except.bind_ok] at h
      obtain ⟨⟨d1, u⟩, q1, q2⟩ := h
      rw [ih _ _ q2]
      exact (Dft.update_layout q1).1
  have some_of : ∀ (x : List (String × Acc ℝ P)) (n : String), n ∈ x.map Prod.fst → ∃ b, accFind n x = some b ∧ (n, b) ∈ x := by
    intro x
    induction x with
    | nil => intro n h; simp at h
    | cons q x ih =>
      intro n h
      obtain ⟨m, a⟩ := q
      unfold accFind
      split_ifs with e
      · subst e; exact ⟨a, rfl, by simp⟩
      · simp only [List.map_cons, List.mem_cons] at h
        obtain ⟨b, b1, b2⟩ := ih n (h.resolve_left fun h => e h.symm)
        exact ⟨b, b1, by simp [b2]⟩
  have alike : ∀ (l : List (Sample ℝ P)) (d : Dft ℝ P), feed (recorder freq names pos) l = .ok d → ∀ q ∈ d.acc, q.2.pos = pos := by
    intro l d h q hq
    have h0 : (q.1, q.2.pos) ∈ d.layout := List.mem_map_of_mem (f := fun a => (a.1, a.2.pos)) hq
    rw [kept l _ _ h] at h0
    obtain ⟨r, r1, r2⟩ := List.mem_map.mp h0
    rw [← (Prod.mk.inj r2).2, h3 r r1]
  have keys : ∀ (l : List (Sample ℝ P)) (d : Dft ℝ P), feed (recorder freq names pos) l = .ok d →
      d.acc.map Prod.fst = (recorder freq names pos).acc.map Prod.fst := by
    intro l d h
    have := congrArg (List.map Prod.fst) (kept l _ _ h)
    simpa [Dft.layout, Function.comp_def] using this
  obtain ⟨e, e1, e2⟩ := accSub_find (nf := d.freq.length) d' (by rw [k2, k2']) d.acc (by
    intro q hq
    obtain ⟨b, b1, b2⟩ := some_of d'.acc q.1 (by rw [keys l' _ k1', ← keys l _ k1]; exact List.mem_map_of_mem hq)
    exact ⟨b, b1, by rw [alike l _ k1 q hq, alike l' _ k1' _ b2]⟩)
  refine ⟨d, d', { d with acc := e }, k1, k1', ?_, k2, fun n hn => ?_⟩
  · unfold Dft.sub
    rw [e1]; rfl
  · obtain ⟨a, a1, a2, a3, a4⟩ := k3 n hn
    obtain ⟨a', a1', a2', a3', a4'⟩ := k3' n hn
    have f1 : accFind n d.acc = some a := by
      unfold Dft.get at a1
      split at a1
      · rename_i x hx; cases a1; exact hx
      · cases a1
    have f2 : accFind n d'.acc = some a' := by
      unfold Dft.get at a1'
      split at a1'
      · rename_i x hx; cases a1'; exact hx
      · cases a1'
    obtain ⟨b, b1, b2⟩ := e2 n a f1
    rw [f2] at b1
    cases b1
    obtain ⟨c1, c2⟩ := counted_diff l l' hl 0
    refine ⟨a.sub a', by simp only [Dft.get, b2], a2, ⟨?_, ?_⟩⟩
    · intro p hp k hk
      show a.re p k - a'.re p k = _
      have hp' : p ∈ a.pos := hp
      rw [a3 p hp' k hk, a3' p (by rw [a2', ← a2]; exact hp') k hk, cosSum_diff _ _ _ _ _ c1, sub_zero, ← c2]
    · intro p hp k hk
      show a.im p k - a'.im p k = _
      have hp' : p ∈ a.pos := hp
      rw [a4 p hp' k hk, a4' p (by rw [a2', ← a2]; exact hp') k hk, sinSum_diff _ _ _ _ _ c1, sub_zero, ← c2]

/-- **C37** (transforms): subtracting a copy leaves zero. The keys of a `std::map` are distinct. -/
theorem C37_self (d : Dft ℝ P) (hn : (d.acc.map Prod.fst).Nodup) : ∃ e, d.sub d = .ok e ∧ ∀ n a, accFind n d.acc = some a →
    ∃ b, accFind n e.acc = some b ∧ b.pos = a.pos ∧ ∀ p k, b.re p k = 0 ∧ b.im p k = 0 := by
  obtain ⟨e, e1, e2⟩ := accSub_find d rfl d.acc (like_of_layout (d := d) (o := d) rfl rfl hn).2
  refine ⟨{ d with acc := e }, ?_, ?_⟩
  · unfold Dft.sub
    rw [e1]; rfl
  · intro n a ha
    obtain ⟨b, b1, b2⟩ := e2 n a ha
    rw [ha] at b1
    cases b1
    exact ⟨_, b2, rfl, fun p k => ⟨sub_self _, sub_self _⟩⟩

example : ((recorder [1, 2] ["Ez", "Hx", "Hy"] [(0 : ℤ), 1] : Dft ℝ ℤ).acc.map Prod.fst).Nodup := by
  simp [recorder, Dft.add, Dft.make, accAdd]

end Qbox.Props
