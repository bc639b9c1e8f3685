import Verif.Lemmas.WF
import Verif.Lemmas.MatGrid
import Verif.Spec.DftSpec

/-! # Lemmas about the running transform -/

namespace Qbox
open Scalar Spec

set_option linter.unusedSectionVars false

variable {K P : Type} [Scalar K] [DecidableEq P]

/-- An accumulator with one sample added at the positions satisfying `S`. -/
def Acc.plus (a : Acc K P) (freq : List K) (t : K) (S : P → Prop) [DecidablePred S] (v : P → K) : Acc K P :=
  { a with
    re := fun q k => if S q ∧ 0 ≤ k ∧ k < freq.length then a.re q k + v q * dftCos freq t k else a.re q k,
    im := fun q k => if S q ∧ 0 ≤ k ∧ k < freq.length then a.im q k + v q * dftSin freq t k else a.im q k }

theorem accPoints_sum {σ : Type} (freq : List K) (t : K) (g : P → σ → M (K × σ)) (v : P → K) (Q : List P → σ → Prop)
    (hg : ∀ p l m, Q (p :: l) m → ∃ m', g p m = .ok (v p, m') ∧ Q l m') :
    ∀ (l : List P) (a : Acc K P) (m : σ), l.Nodup → Q l m →
      ∃ m', forList l (a, m) (accPoint freq t g) = .ok (a.plus freq t (· ∈ l) v, m') ∧ Q [] m'
  | [], a, m, _, hq => ⟨m, by simp [forList, Acc.plus], hq⟩
  | p :: l, a, m, hn, hq => by
    obtain ⟨m1, h1, q1⟩ := hg p l m hq
    rw [List.nodup_cons] at hn
    obtain ⟨m2, h2, q2⟩ := accPoints_sum freq t g v Q hg l (a.plus freq t (· = p) v) m1 hn.2 q1
    refine ⟨m2, ?_, q2⟩
    rw [forList_cons]
    have e : accPoint freq t g p (a, m) = .ok (a.plus freq t (· = p) v, m1) := by
      unfold accPoint
      simp only [h1, Except.ok_bind, Except.pure_eq]
      refine congrArg Except.ok (Prod.ext ?_ rfl)
      simp only [Acc.plus, Acc.mk.injEq, true_and]
      constructor
      · funext q k
        by_cases hq : q = p
        · subst hq; rfl
        · simp [hq]
      · funext q k
        by_cases hq : q = p
        · subst hq; rfl
        · simp [hq]
    rw [e]; simp only [Except.ok_bind]
    rw [h2]
    refine congrArg Except.ok (Prod.ext ?_ rfl)
    simp only [Acc.plus, Acc.mk.injEq, true_and]
    constructor
    · funext q k
      by_cases h : q = p
      · subst h; simp [hn.1]
      · simp [h]
    · funext q k
      by_cases h : q = p
      · subst h; simp [hn.1]
      · simp [h]

/-- All samples taken by one update, in order. -/
def sampleList (l : List (String × Acc K P)) : List (String × P) := l.flatMap fun q => q.2.pos.map fun p => (q.1, p)

theorem accLoop_sum {σ : Type} (freq : List K) (t : K) (g : String → P → σ → M (K × σ)) (v : String → P → K)
    (Q : List (String × P) → σ → Prop) (hg : ∀ n p l m, Q ((n, p) :: l) m → ∃ m', g n p m = .ok (v n p, m') ∧ Q l m') :
    ∀ (l : List (String × Acc K P)) (m : σ), (∀ q ∈ l, q.2.pos.Nodup) → Q (sampleList l) m →
      ∃ m', accLoop freq t g l m = .ok (l.map fun q => (q.1, q.2.plus freq t (· ∈ q.2.pos) (v q.1)), m') ∧ Q [] m'
  | [], m, _, hq => ⟨m, rfl, hq⟩
  | (n, a) :: l, m, hn, hq => by
    obtain ⟨m1, h1, q1⟩ := accPoints_sum freq t (g n) (v n) (fun r m => Q (r.map (fun p => (n, p)) ++ sampleList l) m)
      (fun p r m h => hg n p _ m h) a.pos a m (hn (n, a) (by simp)) (by simpa [sampleList] using hq)
    obtain ⟨m2, h2, q2⟩ := accLoop_sum freq t g v Q hg l m1 (fun q hq => hn q (by simp [hq])) q1
    refine ⟨m2, ?_, q2⟩
    rw [accLoop, h1]
    simp only [Except.ok_bind, h2]
    rfl

theorem dftUpdate_sum {σ : Type} (d : Dft K P) (g : String → P → σ → M (K × σ)) (t : K) (v : String → P → K)
    (Q : List (String × P) → σ → Prop) (hg : ∀ n p l m, Q ((n, p) :: l) m → ∃ m', g n p m = .ok (v n p, m') ∧ Q l m')
    (m : σ) (hn : ∀ q ∈ d.acc, q.2.pos.Nodup) (ht : eqb d.t t = false) (hq : Q (sampleList d.acc) m) :
    ∃ m', d.update g t m = .ok (⟨t, d.freq, d.acc.map fun q => (q.1, q.2.plus d.freq t (· ∈ q.2.pos) (v q.1))⟩, m') ∧ Q [] m' := by
  obtain ⟨m', h1, q1⟩ := accLoop_sum d.freq t g v Q hg d.acc m hn hq
  refine ⟨m', ?_, q1⟩
  unfold Dft.update
  simp only [ht, Bool.false_eq_true, if_false]
  rw [h1]; rfl

theorem dftUpdate_pure (d : Dft K P) (t : K) (v : String → P → K) (hn : ∀ q ∈ d.acc, q.2.pos.Nodup) (ht : eqb d.t t = false) :
    d.update (fun n p (m : Unit) => .ok (v n p, m)) t () =
      .ok (⟨t, d.freq, d.acc.map fun q => (q.1, q.2.plus d.freq t (· ∈ q.2.pos) (v q.1))⟩, ()) := by
  obtain ⟨m', h, -⟩ := dftUpdate_sum d (fun n p (m : Unit) => .ok (v n p, m)) t v (fun _ _ => True)
    (fun n p l m _ => ⟨m, rfl, trivial⟩) () hn ht trivial
  exact h

theorem accFind_map (f : String × Acc K P → Acc K P) (n : String) : ∀ (l : List (String × Acc K P)),
    accFind n (l.map fun q => (q.1, f q)) = (accFind n l).map fun a => f (n, a)
  | [] => rfl
  | (m, a) :: l => by
    simp only [List.map_cons, accFind]
    by_cases h : m = n
    · subst h; simp
    · simp only [h, if_false]; exact accFind_map f n l

theorem dftCos_at (freq : List K) (t : K) (k : ℕ) (h : k < freq.length) :
    dftCos freq t k = Scalar.cos (ofInt 2 * Scalar.pi * freq[k] * t) := by
  simp [dftCos, List.getD, List.getElem?_eq_getElem h]

theorem dftSin_at (freq : List K) (t : K) (k : ℕ) (h : k < freq.length) :
    dftSin freq t k = Scalar.sin (ofInt 2 * Scalar.pi * freq[k] * t) := by
  simp [dftSin, List.getD, List.getElem?_eq_getElem h]

/-- Value of an accumulator after a history, relative to its value before. -/
theorem feed_sum : ∀ (l : List (Sample K P)) (d : Dft K P), (∀ q ∈ d.acc, q.2.pos.Nodup) →
    ∃ d', feed d l = .ok d' ∧ d'.freq = d.freq ∧ d'.t = lastTime d.t (counted d.t l) ∧ (∀ q ∈ d'.acc, q.2.pos.Nodup) ∧
      ∀ n a, accFind n d.acc = some a → ∃ a', accFind n d'.acc = some a' ∧ a'.pos = a.pos ∧
        ∀ p ∈ a.pos, ∀ (k : ℕ) (h : k < d.freq.length),
          a'.re p k = cosSum d.freq[k] n p (a.re p k) (counted d.t l) ∧
          a'.im p k = sinSum d.freq[k] n p (a.im p k) (counted d.t l)
  | [], d, hn => ⟨d, rfl, rfl, rfl, hn, fun n a h => ⟨a, h, rfl, fun _ _ _ _ => ⟨rfl, rfl⟩⟩⟩
  | s :: l, d, hn => by
    by_cases ht : eqb d.t s.t = true
    · obtain ⟨d', h1, h2, h3, h4, h5⟩ := feed_sum l d hn
      refine ⟨d', ?_, h2, ?_, h4, ?_⟩
      · rw [feed]
        unfold Dft.update
        simp only [ht, if_true, Except.ok_bind]
        exact h1
      · rw [h3]; simp [counted, ht]
      · intro n a ha
        obtain ⟨a', b1, b2, b3⟩ := h5 n a ha
        refine ⟨a', b1, b2, ?_⟩
        simpa only [counted, ht, if_true] using b3
    · have ht' : eqb d.t s.t = false := by simpa using ht
      obtain ⟨d', h1, h2, h3, h4, h5⟩ := feed_sum l
        (⟨s.t, d.freq, d.acc.map fun q => (q.1, q.2.plus d.freq s.t (· ∈ q.2.pos) (s.v q.1))⟩ : Dft K P) (by
          intro q hq
          simp only [List.mem_map] at hq
          obtain ⟨q', hq', rfl⟩ := hq
          exact hn q' hq')
      refine ⟨d', ?_, h2, ?_, h4, ?_⟩
      · rw [feed, dftUpdate_pure d s.t s.v hn ht']; exact h1
      · rw [h3]; simp only [counted, ht', lastTime, List.foldl_cons, Bool.false_eq_true, if_false]
      · intro n a ha
        have := accFind_map (fun q : String × Acc K P => q.2.plus d.freq s.t (· ∈ q.2.pos) (s.v q.1)) n d.acc
        rw [ha] at this
        obtain ⟨a', b1, b2, b3⟩ := h5 n _ this
        refine ⟨a', b1, b2, ?_⟩
        intro p hp k hk
        obtain ⟨c1, c2⟩ := b3 p hp k hk
        have hc : p ∈ a.pos ∧ (0 : ℤ) ≤ (k : ℤ) ∧ (k : ℤ) < d.freq.length := ⟨hp, by omega, by exact_mod_cast hk⟩
        constructor
        · rw [c1]
          simp only [counted, ht', Bool.false_eq_true, if_false, cosSum, List.foldl_cons]
          congr 1
          simp only [Acc.plus]
          rw [if_pos hc, dftCos_at _ _ _ hk]
        · rw [c2]
          simp only [counted, ht', Bool.false_eq_true, if_false, sinSum, List.foldl_cons]
          congr 1
          simp only [Acc.plus]
          rw [if_pos hc, dftSin_at _ _ _ hk]

end Qbox
