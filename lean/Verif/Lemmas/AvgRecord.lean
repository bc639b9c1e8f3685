import Verif.Model.Monitors
import Verif.Spec.RecordSpec
import Verif.Props.DftProps

/-! # Recording along a line, with the electric field averaged in time -/

namespace Qbox
open Scalar Spec

set_option linter.unusedSectionVars false

variable {K : Type} [Scalar K]

/-- The common form of the sampling functions of surface and cylinder monitors. -/
def avgSample (e : ℤ → M K) (h : String → ℤ → M K) (comp : String) (i : ℤ) (prevE : Arr K) : M (K × Arr K) :=
  if comp = "Ez" then do
    let tempE ← e i
    let E := (tempE + (← prevE.rd i)) / ofInt 2
    let prevE ← prevE.wr i tempE
    pure (E, prevE)
  else do
    let v ← h comp i
    pure (v, prevE)

/-- A transform along `n` points whose signal names are distinct. -/
structure Line {K : Type} (d : Dft K ℤ) (n : ℤ) (names : List String) : Prop where
  keys : d.acc.map Prod.fst = names
  nodup : names.Nodup
  pos : ∀ q ∈ d.acc, q.2.pos = intRange 0 n

theorem Line.posNodup {d : Dft K ℤ} {n : ℤ} {names : List String} (h : Line d n names) : ∀ q ∈ d.acc, q.2.pos.Nodup := fun q hq => by
  rw [h.pos q hq]; exact nodup_intRange _ _

theorem mem_sampleList {P : Type} {l : List (String × Acc K P)} {x : String} {p : P} :
    (x, p) ∈ sampleList l ↔ ∃ q ∈ l, q.1 = x ∧ p ∈ q.2.pos := by
  simp only [sampleList, List.mem_flatMap, List.mem_map, Prod.mk.injEq]
  constructor
  · rintro ⟨q, hq, y, hy, rfl, rfl⟩; exact ⟨q, hq, rfl, hy⟩
  · rintro ⟨q, hq, rfl, hy⟩; exact ⟨q, hq, p, hy, rfl, rfl⟩

theorem nodup_sampleList {P : Type} : ∀ {l : List (String × Acc K P)}, (l.map Prod.fst).Nodup → (∀ q ∈ l, q.2.pos.Nodup) →
    (sampleList l).Nodup
  | [], _, _ => by simp [sampleList]
  | (n, a) :: l, h, hp => by
    rw [List.map_cons, List.nodup_cons] at h
    have ih := nodup_sampleList h.2 (fun q hq => hp q (by simp [hq]))
    have e : sampleList ((n, a) :: l) = a.pos.map (fun p => (n, p)) ++ sampleList l := by simp [sampleList]
    rw [e, List.nodup_append]
    refine ⟨(hp (n, a) (by simp)).map (fun x y hxy => by simpa using hxy), ih, ?_⟩
    rintro x hx y hy rfl
    simp only [List.mem_map] at hx
    obtain ⟨p, -, rfl⟩ := hx
    obtain ⟨q, hq, h1, -⟩ := mem_sampleList.mp hy
    exact h.1 (List.mem_map.mpr ⟨q, hq, h1⟩)

theorem Line.mem {d : Dft K ℤ} {n : ℤ} {names : List String} (h : Line d n names) {x : String} {i : ℤ} :
    (x, i) ∈ sampleList d.acc ↔ x ∈ names ∧ 0 ≤ i ∧ i < n := by
  rw [mem_sampleList]
  constructor
  · rintro ⟨q, hq, rfl, hp⟩
    rw [h.pos q hq, mem_intRange] at hp
    exact ⟨by rw [← h.keys]; exact List.mem_map_of_mem hq, hp⟩
  · rintro ⟨hx, hi⟩
    rw [← h.keys, List.mem_map] at hx
    obtain ⟨q, hq, rfl⟩ := hx
    exact ⟨q, hq, rfl, by rw [h.pos q hq, mem_intRange]; exact hi⟩

/-- One update that counts. -/
theorem avg_update (d : Dft K ℤ) (n : ℤ) (names : List String) (hd : Line d n names) (e : ℤ → M K) (h : String → ℤ → M K) (s : Snap K)
    (he : ∀ i, 0 ≤ i → i < n → e i = .ok (s.e i)) (hh : ∀ x ∈ names, x ≠ "Ez" → ∀ i, 0 ≤ i → i < n → h x i = .ok (s.h x i))
    (prev : Arr K) (hp : prev.n = n) (ht : eqb d.t s.t = false) :
    ∃ d' prev', d.update (avgSample e h) s.t prev = .ok (d', prev') ∧
      feed d [⟨s.t, fun x i => if x = "Ez" then (s.e i + prev.val i) / ofInt 2 else s.h x i⟩] = .ok d' ∧
      Line d' n names ∧ d'.t = s.t ∧ d'.freq = d.freq ∧ prev'.n = n ∧ ("Ez" ∈ names → ∀ i, 0 ≤ i → i < n → prev'.val i = s.e i) := by
  have hnd : (sampleList d.acc).Nodup := nodup_sampleList (by rw [hd.keys]; exact hd.nodup) hd.posNodup
  obtain ⟨m', h1, h2⟩ := dftUpdate_sum d (avgSample e h) s.t
    (fun x i => if x = "Ez" then (s.e i + prev.val i) / ofInt 2 else s.h x i)
    (fun rest m => rest.Nodup ∧ (∀ x i, (x, i) ∈ rest → x ∈ names ∧ 0 ≤ i ∧ i < n) ∧ m.n = n ∧
      ∀ i, 0 ≤ i → i < n → (("Ez", i) ∈ rest → m.val i = prev.val i) ∧ ("Ez" ∈ names → ("Ez", i) ∉ rest → m.val i = s.e i))
    (by
      rintro x i rest m ⟨q1, q2, q3, q4⟩
      rw [List.nodup_cons] at q1
      obtain ⟨hx, hi0, hin⟩ := q2 x i (by simp)
      by_cases c : x = "Ez"
      · subst c
        have hv : m.val i = prev.val i := (q4 i hi0 hin).1 (by simp)
        refine ⟨m.setv (fun x => if x = i then s.e i else m.val x), ?_, q1.2, fun x j hx => q2 x j (by simp [hx]), q3, ?_⟩
        · unfold avgSample
          simp only [if_true, he i hi0 hin, Except.ok_bind]
          rw [Arr.rd_in hi0 (by rw [q3]; exact hin), Arr.wr_in hi0 (by rw [q3]; exact hin)]
          simp only [Except.ok_bind, Except.pure_eq, hv]
        · intro j hj0 hjn
          by_cases ej : j = i
          · subst ej
            exact ⟨fun hm => absurd hm q1.1, fun _ _ => by simp [Arr.setv]⟩
          · have hne : (m.setv (fun x => if x = i then s.e i else m.val x)).val j = m.val j := by simp [Arr.setv, ej]
            rw [hne]
            refine ⟨fun hm => (q4 j hj0 hjn).1 (by simp [hm]), fun hz hm => (q4 j hj0 hjn).2 hz ?_⟩
            simp [ej, hm]
      · refine ⟨m, ?_, q1.2, fun x j hx => q2 x j (by simp [hx]), q3, ?_⟩
        · unfold avgSample
          simp only [c, if_false, hh x hx c i hi0 hin, Except.ok_bind, Except.pure_eq]
        · intro j hj0 hjn
          refine ⟨fun hm => (q4 j hj0 hjn).1 (by simp [hm]), fun hz hm => (q4 j hj0 hjn).2 hz ?_⟩
          simp only [List.mem_cons, Prod.mk.injEq, not_or]
          exact ⟨fun hc => c hc.1.symm, hm⟩)
    prev hd.posNodup ht
    ⟨hnd, fun x i hx => hd.mem.mp hx, hp, fun i hi0 hin => ⟨fun _ => rfl, fun hz hm => absurd (hd.mem.mpr ⟨hz, hi0, hin⟩) hm⟩⟩
  refine ⟨_, m', h1, ?_, ⟨?_, hd.nodup, ?_⟩, rfl, rfl, h2.2.2.1, fun hz i hi0 hin => (h2.2.2.2 i hi0 hin).2 hz (by simp)⟩
  · simp only [feed]
    rw [dftUpdate_pure d s.t _ hd.posNodup ht]
    rfl
  · simp only [List.map_map]; exact hd.keys
  · intro q hq
    simp only [List.mem_map] at hq
    obtain ⟨q', hq', rfl⟩ := hq
    exact hd.pos q' hq'

/-- The updates of a line monitor, one after the other: `step k` gives what the sampling function of the update number `k` reads. -/
def avgRun (d : Dft K ℤ) (prev : Arr K) : List ((ℤ → M K) × (String → ℤ → M K) × K) → M (Dft K ℤ × Arr K)
  | [] => .ok (d, prev)
  | (e, h, t) :: l => do
    let (d, prev) ← d.update (avgSample e h) t prev
    avgRun d prev l

/-- The readings `r` find the snapshot `s` at the `n` points. -/
def Finds (n : ℤ) (names : List String) (r : (ℤ → M K) × (String → ℤ → M K) × K) (s : Snap K) : Prop :=
  r.2.2 = s.t ∧ (∀ i, 0 ≤ i → i < n → r.1 i = .ok (s.e i)) ∧
    ∀ x ∈ names, x ≠ "Ez" → ∀ i, 0 ≤ i → i < n → r.2.1 x i = .ok (s.h x i)

theorem averaged_congr (n : ℤ) (names : List String) : ∀ (l : List (Snap K)) (t0 : K) (p p' : ℤ → K),
    ("Ez" ∈ names → ∀ i, 0 ≤ i → i < n → p i = p' i) →
    List.Forall₂ (fun s s' : Sample K ℤ => s.t = s'.t ∧ ∀ x ∈ names, ∀ i, 0 ≤ i → i < n → s.v x i = s'.v x i) (averaged t0 p l) (averaged t0 p' l)
  | [], _, _, _, _ => .nil
  | s :: l, t0, p, p', h => by
    unfold averaged
    split_ifs with c
    · exact averaged_congr n names l t0 p p' h
    · refine .cons ⟨rfl, fun x hx i h0 h1 => ?_⟩ ?_
      · by_cases c : x = "Ez"
        · subst c; simp only [h hx i h0 h1]
        · simp only [c, if_false]
      · exact averaged_congr n names l s.t s.e s.e (fun _ _ _ _ => rfl)

/-- Running a line monitor is feeding the averaged samples. -/
theorem avgRun_feed (n : ℤ) (names : List String) : ∀ (rs : List ((ℤ → M K) × (String → ℤ → M K) × K)) (ss : List (Snap K)),
    List.Forall₂ (Finds n names) rs ss → ∀ (d : Dft K ℤ) (prev : Arr K), Line d n names → prev.n = n →
    ∃ d' prev' l, avgRun d prev rs = .ok (d', prev') ∧ feed d l = .ok d' ∧ Line d' n names ∧ d'.freq = d.freq ∧ prev'.n = n ∧
      List.Forall₂ (fun s s' : Sample K ℤ => s.t = s'.t ∧ ∀ x ∈ names, ∀ i, 0 ≤ i → i < n → s.v x i = s'.v x i) l (averaged d.t prev.val ss) := by
  intro rs ss h
  induction h with
  | nil => intro d prev hd hp; exact ⟨d, prev, [], rfl, rfl, hd, rfl, hp, .nil⟩
  | @cons r s rs ss hrs _ ih =>
    intro d prev hd hp
    obtain ⟨e, h, t⟩ := r
    obtain ⟨f1, f2, f3⟩ := hrs
    simp only at f1 f2 f3
    subst f1
    cases ht : eqb d.t s.t with
    | true =>
      obtain ⟨d', prev', l, h1, h2, h3, h4, h5, h6⟩ := ih d prev hd hp
      refine ⟨d', prev', l, ?_, h2, h3, h4, h5, ?_⟩
      · rw [avgRun]; unfold Dft.update; simp only [ht, if_true, Except.ok_bind]; exact h1
      · unfold averaged; simp only [ht, if_true]; exact h6
    | false =>
      obtain ⟨d1, prev1, k1, k2, k3, k4, k5, k6, k7⟩ := avg_update d n names hd e h s f2 f3 prev hp ht
      obtain ⟨d', prev', l, h1, h2, h3, h4, h5, h6⟩ := ih d1 prev1 k3 k6
      refine ⟨d', prev', ⟨s.t, fun x i => if x = "Ez" then (s.e i + prev.val i) / ofInt 2 else s.h x i⟩ :: l, ?_, ?_, h3, h4.trans k5, h5, ?_⟩
      · rw [avgRun, k1]; exact h1
      · simp only [feed, Except.bind_ok, Except.ok.injEq, exists_eq_right'] at k2 ⊢
        obtain ⟨x, hx, hx2⟩ := k2
        exact ⟨x, hx, by rw [hx2]; exact h2⟩
      · unfold averaged
        simp only [ht, Bool.false_eq_true, if_false]
        refine .cons ⟨rfl, fun _ _ _ _ _ => rfl⟩ ?_
        rw [k4] at h6
        have := averaged_congr n names ss s.t prev1.val s.e k7
        clear ih h1 h2
        revert this h6
        generalize averaged s.t prev1.val ss = A
        generalize averaged s.t s.e ss = B
        intro h6 this
        induction this generalizing l with
        | nil => cases h6; exact .nil
        | cons hab _ ih2 =>
          cases h6 with
          | cons hl hl' =>
            exact .cons ⟨hl.1.trans hab.1, fun x hx i h0 h1 => (hl.2 x hx i h0 h1).trans (hab.2 x hx i h0 h1)⟩ (ih2 _ hl')

theorem cosSum_congr {P : Type} (f : K) (x : String) (p : P) : ∀ {l l' : List (Sample K P)},
    List.Forall₂ (fun s s' => s.t = s'.t ∧ s.v x p = s'.v x p) l l' → ∀ a, cosSum f x p a l = cosSum f x p a l'
  | _, _, .nil, a => rfl
  | _, _, .cons h hl, a => by
    simp only [cosSum, List.foldl_cons] at *
    rw [h.1, h.2]
    exact cosSum_congr f x p hl _

theorem sinSum_congr {P : Type} (f : K) (x : String) (p : P) : ∀ {l l' : List (Sample K P)},
    List.Forall₂ (fun s s' => s.t = s'.t ∧ s.v x p = s'.v x p) l l' → ∀ a, sinSum f x p a l = sinSum f x p a l'
  | _, _, .nil, a => rfl
  | _, _, .cons h hl, a => by
    simp only [sinSum, List.foldl_cons] at *
    rw [h.1, h.2]
    exact sinSum_congr f x p hl _

/-- Consecutive samples of an averaged record have different times. -/
theorem counted_averaged : ∀ (l : List (Snap K)) (t0 : K) (p : ℤ → K), counted t0 (averaged t0 p l) = averaged t0 p l
  | [], _, _ => rfl
  | s :: l, t0, p => by
    unfold averaged
    split_ifs with c
    · exact counted_averaged l t0 p
    · simp only [counted, c, Bool.false_eq_true, if_false, counted_averaged l s.t s.e]

theorem counted_forall₂ {P : Type} {R : Sample K P → Sample K P → Prop} (hR : ∀ s s', R s s' → s.t = s'.t) :
    ∀ {l l' : List (Sample K P)}, List.Forall₂ R l l' → ∀ t0, List.Forall₂ R (counted t0 l) (counted t0 l')
  | _, _, .nil, _ => .nil
  | _, _, .cons (a := s) (b := s') h hl, t0 => by
    simp only [counted, hR s s' h]
    split_ifs with c
    · exact counted_forall₂ hR hl t0
    · exact .cons h (counted_forall₂ hR hl _)

/-- A monitor along `n` points that starts blank holds, after any number of updates, the Fourier sums of the averaged samples. -/
theorem avgRun_holds (n : ℤ) (names : List String) (d : Dft K ℤ) (hd : Line d n names) (prev : Arr K) (hp : prev.n = n)
    (hb : ∀ x ∈ names, accFind x d.acc = some ⟨intRange 0 n, fun _ _ => 0, fun _ _ => 0⟩)
    (rs : List ((ℤ → M K) × (String → ℤ → M K) × K)) (ss : List (Snap K)) (h : List.Forall₂ (Finds n names) rs ss) :
    ∃ d' prev', avgRun d prev rs = .ok (d', prev') ∧ d'.freq = d.freq ∧
      ∀ x ∈ names, ∃ a, d'.get x = .ok a ∧ a.pos = intRange 0 n ∧ Holds a d.freq x (averaged d.t prev.val ss) := by
  obtain ⟨d', prev', l, h1, h2, h3, h4, h5, h6⟩ := avgRun_feed n names rs ss h d prev hd hp
  obtain ⟨d'', k1, -, -, -, k5⟩ := feed_sum l d hd.posNodup
  rw [h2] at k1
  cases k1
  refine ⟨d', prev', h1, h4, fun x hx => ?_⟩
  obtain ⟨a, a1, a2, a3⟩ := k5 x _ (hb x hx)
  have hc := counted_forall₂ (R := fun s s' : Sample K ℤ => s.t = s'.t ∧ ∀ x ∈ names, ∀ i, 0 ≤ i → i < n → s.v x i = s'.v x i) (fun _ _ h => h.1) h6 d.t
  rw [counted_averaged] at hc
  refine ⟨a, by rw [Dft.get, a1], a2, ⟨?_, ?_⟩⟩
  · intro p hp k hk
    rw [a2] at hp
    rw [(a3 p hp k hk).1]
    rw [mem_intRange] at hp
    exact cosSum_congr _ _ _ (hc.imp fun s s' hs => ⟨hs.1, hs.2 x hx p hp.1 hp.2⟩) _
  · intro p hp k hk
    rw [a2] at hp
    rw [(a3 p hp k hk).2]
    rw [mem_intRange] at hp
    exact sinSum_congr _ _ _ (hc.imp fun s s' hs => ⟨hs.1, hs.2 x hx p hp.1 hp.2⟩) _

end Qbox
