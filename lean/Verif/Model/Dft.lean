import Verif.Model.Grid

/-!
# `include/dft.h`, `src/dft.cpp`: running Fourier sums

The three ranks of `dft<RANK>` are one definition over the type `P` of sample positions: `Unit` for rank 0, `ℤ` for
rank 1, `ℤ × ℤ` for rank 2.  All accumulator accesses in `src/dft.cpp` are at positions below the accumulator's own
dimensions and frequencies below `Nfreq()`, so no index check is modelled for them.
-/

namespace Qbox
open Scalar

/-- `complex_dft_tensor`: `re`/`im` at a position and a frequency index. -/
structure Acc (K P : Type) where
  pos : List P
  re : P → ℤ → K
  im : P → ℤ → K

/-- `class dft`, `include/dft.h:36-108`. `acc` is the `std::map`, in key order. -/
structure Dft (K P : Type) where
  t : K
  freq : List K
  acc : List (String × Acc K P)

section
variable {K P : Type} [Scalar K]

/-- `Nfreq()`, `include/dft.h:89`. -/
def Dft.nfreq (d : Dft K P) : ℤ := d.freq.length

/-- `dft(freq)`, `include/dft.h:43`. -/
def Dft.make (freq : List K) : Dft K P := ⟨0, freq, []⟩

/-- `dft::add`, `include/dft.h:53-65`: `insert` does nothing when the key exists, the accumulators are then zeroed. The
list of keys is kept sorted. -/
def accAdd (name : String) (pos : List P) : List (String × Acc K P) → List (String × Acc K P)
  | [] => [(name, ⟨pos, fun _ _ => 0, fun _ _ => 0⟩)]
  | (n, a) :: l =>
    if n = name then (n, { a with re := fun _ _ => 0, im := fun _ _ => 0 }) :: l
    else if name < n then (name, ⟨pos, fun _ _ => 0, fun _ _ => 0⟩) :: (n, a) :: l
    else (n, a) :: accAdd name pos l

/-- `dft::add`, `include/dft.h:53-65`. -/
def Dft.add (d : Dft K P) (name : String) (pos : List P) : Dft K P := { d with acc := accAdd name pos d.acc }

/-- `cosf(k)`, `src/dft.cpp:34`. -/
def dftCos (freq : List K) (t : K) (k : ℤ) : K :=
  Scalar.cos (ofInt 2 * Scalar.pi * freq.getD k.toNat 0 * t)
/-- `sinf(k)`, `src/dft.cpp:35`. -/
def dftSin (freq : List K) (t : K) (k : ℤ) : K :=
  Scalar.sin (ofInt 2 * Scalar.pi * freq.getD k.toNat 0 * t)

variable [DecidableEq P] {σ : Type}

/-- One sample position: `g_val = g(i)` and then the loop over `k`, `src/dft.cpp:65-69`. The inner loop over the
frequencies is written as one simultaneous update of the row. The sampling function may change the monitor's memory
`σ`. -/
def accPoint (freq : List K) (t : K) (g : P → σ → M (K × σ)) (p : P) (s : Acc K P × σ) : M (Acc K P × σ) := do
  let (v, m) ← g p s.2
  let a := s.1
  pure ({ a with
    re := fun q k => if q = p ∧ 0 ≤ k ∧ k < freq.length then a.re q k + v * dftCos freq t k else a.re q k,
    im := fun q k => if q = p ∧ 0 ≤ k ∧ k < freq.length then a.im q k + v * dftSin freq t k else a.im q k }, m)

/-- The loop over the map, `src/dft.cpp:38-45`, `:60-71`, `:85-99`. -/
def accLoop (freq : List K) (t : K) (g : String → P → σ → M (K × σ)) :
    List (String × Acc K P) → σ → M (List (String × Acc K P) × σ)
  | [], m => .ok ([], m)
  | (n, a) :: l, m => do
    let (a', m') ← forList a.pos (a, m) (accPoint freq t (g n))
    let (l', m'') ← accLoop freq t g l m'
    pure ((n, a') :: l', m'')

/-- `dft<RANK>::update`, `src/dft.cpp:28-46`, `:50-72`, `:75-100`. -/
def Dft.update (d : Dft K P) (g : String → P → σ → M (K × σ)) (tnew : K) (m : σ) : M (Dft K P × σ) :=
  if eqb d.t tnew then .ok (d, m)
  else do
    let (acc, m') ← accLoop d.freq tnew g d.acc m
    pure (⟨tnew, d.freq, acc⟩, m')

/-- `fourier.at(name)` -/
def accFind (name : String) : List (String × Acc K P) → Option (Acc K P)
  | [] => none
  | (n, a) :: l => if n = name then some a else accFind name l

/-- `dft::get`, `include/dft.h:91-92`: `at` throws `std::out_of_range` for a missing key. -/
def Dft.get (d : Dft K P) (name : String) : M (Acc K P) :=
  match accFind name d.acc with
  | some a => .ok a
  | none => .error (.exn "map::at")

/-- The accumulator of a difference. -/
def Acc.sub (a b : Acc K P) : Acc K P :=
  { a with re := fun p k => a.re p k - b.re p k, im := fun p k => a.im p k - b.im p k }

/-- The loop of `include/dft.h:96-100`; `nf` is the number of frequencies of the left side. The arrays of one component are subtracted by Eigen,
which requires equal dimensions: a mismatch is an assertion failure or, with `NDEBUG`, a read at the wrong place, both undefined behaviour here.
The dimensions of an array are its positions and the number of frequencies; arrays without positions are all alike. -/
def accSub (nf : ℕ) (o : Dft K P) : List (String × Acc K P) → M (List (String × Acc K P))
  | [] => .ok []
  | (n, a) :: l => do
    let b ← o.get n
    if a.pos = b.pos ∧ nf = o.freq.length then do
      let l' ← accSub nf o l
      pure ((n, a.sub b) :: l')
    else .error (.ub .oob)

/-- `dft::operator-=`, `include/dft.h:94-101`. -/
def Dft.sub (d o : Dft K P) : M (Dft K P) := do
  let acc ← accSub d.freq.length o d.acc
  pure { d with acc := acc }

/-- What the loop of `include/dft.h:96-100` has done when `at` throws: the components before the missing one are subtracted. -/
def accSubLeft (o : Dft K P) : List (String × Acc K P) → List (String × Acc K P)
  | [] => []
  | (n, a) :: l =>
    match o.get n with
    | .ok b => (n, a.sub b) :: accSubLeft o l
    | .error _ => (n, a) :: l

/-- The left side of `-=` when it is left by an exception, `include/dft.h:94-101`. -/
def Dft.subLeft (d o : Dft K P) : Dft K P := { d with acc := accSubLeft o d.acc }

end

end Qbox
