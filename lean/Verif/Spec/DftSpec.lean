import Verif.Model.Dft

/-!
# Fourier sums of sampled signals
-/

namespace Qbox.Spec
open Qbox Scalar

/-- A sample: the time, and a value for every signal at every position. -/
structure Sample (K P : Type) where
  t : K
  v : String → P → K

variable {K P : Type} [Scalar K]

/-- The samples that count: a sample at the time of the one before it (the first: at the time `t0`) does not. -/
def counted (t0 : K) : List (Sample K P) → List (Sample K P)
  | [] => []
  | s :: l => if eqb t0 s.t then counted t0 l else s :: counted s.t l

/-- Cosine sum of a signal at a position, added to `x` in the order of the samples. -/
def cosSum (f : K) (n : String) (p : P) (x : K) (l : List (Sample K P)) : K :=
  l.foldl (fun x s => x + s.v n p * Scalar.cos (ofInt 2 * Scalar.pi * f * s.t)) x

/-- Sine sum of a signal at a position, added to `x` in the order of the samples. -/
def sinSum (f : K) (n : String) (p : P) (x : K) (l : List (Sample K P)) : K :=
  l.foldl (fun x s => x + s.v n p * Scalar.sin (ofInt 2 * Scalar.pi * f * s.t)) x

/-- Feed samples to a transform one after the other. -/
def feed [DecidableEq P] (d : Dft K P) : List (Sample K P) → M (Dft K P)
  | [] => .ok d
  | s :: l => do
    let (d', _) ← d.update (fun n p (m : Unit) => .ok (s.v n p, m)) s.t ()
    feed d' l

/-- Time of the last sample. -/
def lastTime (t0 : K) (l : List (Sample K P)) : K := l.foldl (fun _ s => s.t) t0

/-- The accumulator holds the cosine and sine sums of the samples `l` of signal `n`, at every position and frequency. -/
structure Holds (a : Acc K P) (freq : List K) (n : String) (l : List (Sample K P)) : Prop where
  re : ∀ p ∈ a.pos, ∀ (k : ℕ) (h : k < freq.length), a.re p k = cosSum freq[k] n p 0 l
  im : ∀ p ∈ a.pos, ∀ (k : ℕ) (h : k < freq.length), a.im p k = sinSum freq[k] n p 0 l

/-- `o` has every component of `d`, at the same positions, and as many frequencies. -/
def Like (d o : Dft K P) : Prop :=
  d.freq.length = o.freq.length ∧ ∀ q ∈ d.acc, ∃ b, accFind q.1 o.acc = some b ∧ q.2.pos = b.pos

end Qbox.Spec
