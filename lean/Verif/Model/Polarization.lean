import Verif.Model.Object
import Verif.Model.Yee

/-!
# `include/materials/polarization.h`, `src/materials/{debye,drude,lorentz}_polarization.cpp`
-/

namespace Qbox
open Scalar

/-- `debye_polarization`. `np` is `Npoles`; `J` is declared in the base class. -/
structure DebyePol (K : Type) where
  mat : Debye K
  np : ℤ
  J : Tensor3 K
  beta : Tensor3 K

/-- `drude_polarization`. -/
structure DrudePol (K : Type) where
  mat : Drude K
  np : ℤ
  J : Tensor3 K
  beta : Tensor3 K

/-- `lorentz_polarization`. -/
structure LorentzPol (K : Type) where
  mat : Lorentz K
  np : ℤ
  J : Tensor3 K
  delta : Tensor3 K
  prevJ : Tensor3 K

/-- Loop state of `update_J`: the field and the polarization current. -/
structure EJ (K : Type) where
  Ez : Tensor K
  J : Tensor3 K

/-- Loop state of the Lorentz `update_J`. -/
structure EJJ (K : Type) where
  Ez : Tensor K
  J : Tensor3 K
  prevJ : Tensor3 K

section
variable {K : Type} [Scalar K]

/-- An `Array` computed from a list of poles. -/
def Arr.ofList (l : List K) : Arr K := ⟨l.length, fun i => l.getD i.toNat 0⟩

/-- `*opt` on a `std::optional<tensor>`. -/
def derefOpt {α : Type} : Option α → M α
  | some a => .ok a
  | none => .error (.ub .emptyOptional)

/-- `debye_polarization(grid, mat)`, `src/materials/debye_polarization.cpp:7-9` and `include/materials/polarization.h:14-16`. -/
def DebyePol.make (g : Grid K) (m : Debye K) : DebyePol K :=
  ⟨m, m.poles.length, .const g.Nx g.Ny m.poles.length 0, .const g.Nx g.Ny m.poles.length 0⟩
/-- `drude_polarization(grid, mat)`, `src/materials/drude_polarization.cpp:7-9`. -/
def DrudePol.make (g : Grid K) (m : Drude K) : DrudePol K :=
  ⟨m, m.poles.length, .const g.Nx g.Ny m.poles.length 0, .const g.Nx g.Ny m.poles.length 0⟩
/-- `lorentz_polarization(grid, mat)`, `src/materials/lorentz_polarization.cpp:7-10`. -/
def LorentzPol.make (g : Grid K) (m : Lorentz K) : LorentzPol K :=
  ⟨m, m.poles.length, .const g.Nx g.Ny m.poles.length 0, .const g.Nx g.Ny m.poles.length 0,
    .const g.Nx g.Ny m.poles.length 0⟩

/-- The loop of `insert_object` (identical in `src/materials/debye_polarization.cpp:12-23`, `src/materials/drude_polarization.cpp:12-23`,
`src/materials/lorentz_polarization.cpp:13-24`): write the per-pole values in every cell whose node is inside the object. -/
def insertLoop (g : Grid K) (np : ℤ) (vals : Arr K) (o : Object K) (b : Tensor3 K) : M (Tensor3 K) :=
  forRange 0 g.Nx b (fun i b => forRange 0 g.Ny b (fun j b =>
    if o.inside (g.toReal ⟨i, j⟩) then
      forRange 0 np b (fun N b => do b.wr i j N (← vals.rd N))
    else .ok b))

/-- `debye_polarization::insert_object`, `src/materials/debye_polarization.cpp:11-24`. -/
def DebyePol.insert (g : Grid K) (P : DebyePol K) (o : Object K) : M (DebyePol K) := do
  let b ← insertLoop g P.np (.ofList (P.mat.poles.map (·.beta g.dt))) o P.beta
  pure { P with beta := b }
/-- `drude_polarization::insert_object`, `src/materials/drude_polarization.cpp:11-24`. -/
def DrudePol.insert (g : Grid K) (P : DrudePol K) (o : Object K) : M (DrudePol K) := do
  let b ← insertLoop g P.np (.ofList (P.mat.poles.map (·.beta g.dt))) o P.beta
  pure { P with beta := b }
/-- `lorentz_polarization::insert_object`, `src/materials/lorentz_polarization.cpp:12-25`. -/
def LorentzPol.insert (g : Grid K) (P : LorentzPol K) (o : Object K) : M (LorentzPol K) := do
  let b ← insertLoop g P.np (.ofList (P.mat.poles.map (·.delta g.dt))) o P.delta
  pure { P with delta := b }

/-- Body of `debye_polarization::update_J`, `src/materials/debye_polarization.cpp:33-34`. -/
def debyeBody (dt Cb : K) (kappa : Arr K) (beta : Tensor3 K) (prevE : Option (Tensor K)) (i j N : ℤ)
    (s : EJ K) : M (EJ K) := do
  let Ez ← s.Ez.wr i j ((← s.Ez.rd i j) - Cb * half * (1 + (← kappa.rd N)) * (← s.J.rd i j N))
  let pE ← derefOpt prevE
  let J ← s.J.wr i j N ((← kappa.rd N) * (← s.J.rd i j N)
    + (← beta.rd i j N) / dt * ((← Ez.rd i j) - (← pE.rd i j)))
  pure ⟨Ez, J⟩

/-- `debye_polarization::update_J`, `src/materials/debye_polarization.cpp:26-38`. -/
def DebyePol.updateJ (g : Grid K) (P : DebyePol K) (prevE : Option (Tensor K)) (Ez : Tensor K) :
    M (DebyePol K × Tensor K) := do
  let kappa := Arr.ofList (P.mat.poles.map (·.kappa g.dt))
  let Cb := P.mat.Cb g.dt
  let s ← forRange 0 g.Nx ⟨Ez, P.J⟩ (fun i s => forRange 0 g.Ny s (fun j s => forRange 0 P.np s (fun N s =>
    debyeBody g.dt Cb kappa P.beta prevE i j N s)))
  pure ({ P with J := s.J }, s.Ez)

/-- Body of `drude_polarization::update_J`, `src/materials/drude_polarization.cpp:33-34`. -/
def drudeBody (Cb : K) (kappa : Arr K) (beta : Tensor3 K) (prevE : Option (Tensor K)) (i j N : ℤ)
    (s : EJ K) : M (EJ K) := do
  let Ez ← s.Ez.wr i j ((← s.Ez.rd i j) - Cb * half * (1 + (← kappa.rd N)) * (← s.J.rd i j N))
  let pE ← derefOpt prevE
  let J ← s.J.wr i j N ((← kappa.rd N) * (← s.J.rd i j N)
    + (← beta.rd i j N) * ((← Ez.rd i j) + (← pE.rd i j)))
  pure ⟨Ez, J⟩

/-- `drude_polarization::update_J`, `src/materials/drude_polarization.cpp:26-38`. -/
def DrudePol.updateJ (g : Grid K) (P : DrudePol K) (prevE : Option (Tensor K)) (Ez : Tensor K) :
    M (DrudePol K × Tensor K) := do
  let kappa := Arr.ofList (P.mat.poles.map (·.kappa g.dt))
  let Cb := P.mat.Cb g.dt
  let s ← forRange 0 g.Nx ⟨Ez, P.J⟩ (fun i s => forRange 0 g.Ny s (fun j s => forRange 0 P.np s (fun N s =>
    drudeBody Cb kappa P.beta prevE i j N s)))
  pure ({ P with J := s.J }, s.Ez)

/-- Body of `lorentz_polarization::update_J`, `src/materials/lorentz_polarization.cpp:37-42`. -/
def lorentzBody (dt Cb CaPrev : K) (alpha beta : Arr K) (delta : Tensor3 K) (prev2E : Option (Tensor K))
    (i j N : ℤ) (s : EJJ K) : M (EJJ K) := do
  let p2E ← derefOpt prev2E
  let Ez ← s.Ez.wr i j ((← s.Ez.rd i j) + (CaPrev * (← p2E.rd i j)
    - Cb * half * ((1 + (← alpha.rd N)) * (← s.J.rd i j N) + (← beta.rd N) * (← s.prevJ.rd i j N))))
  let tempJ ← s.J.rd i j N
  let J ← s.J.wr i j N ((← alpha.rd N) * (← s.J.rd i j N) + (← beta.rd N) * (← s.prevJ.rd i j N)
    + (← delta.rd i j N) / (ofInt 2 * dt) * ((← Ez.rd i j) - (← p2E.rd i j)))
  let prevJ ← s.prevJ.wr i j N tempJ
  pure ⟨Ez, J, prevJ⟩

/-- `lorentz_polarization::update_J`, `src/materials/lorentz_polarization.cpp:27-46`. -/
def LorentzPol.updateJ (g : Grid K) (P : LorentzPol K) (prev2E : Option (Tensor K)) (Ez : Tensor K) :
    M (LorentzPol K × Tensor K) := do
  let alpha := Arr.ofList (P.mat.poles.map (·.alpha g.dt))
  let beta := Arr.ofList (P.mat.poles.map (·.beta g.dt))
  let Cb := P.mat.Cb g.dt
  let CaPrev := P.mat.CaPrev g.dt
  let s ← forRange 0 g.Nx ⟨Ez, P.J, P.prevJ⟩ (fun i s => forRange 0 g.Ny s (fun j s => forRange 0 P.np s
    (fun N s => lorentzBody g.dt Cb CaPrev alpha beta P.delta prev2E i j N s)))
  pure ({ P with J := s.J, prevJ := s.prevJ }, s.Ez)

/-- `debye_polarization::reset`, `src/materials/debye_polarization.cpp:40-43`. -/
def DebyePol.reset (P : DebyePol K) : DebyePol K := { P with J := P.J.fill 0, beta := P.beta.fill 0 }
/-- `drude_polarization::reset`, `src/materials/drude_polarization.cpp:40-43`. -/
def DrudePol.reset (P : DrudePol K) : DrudePol K := { P with J := P.J.fill 0, beta := P.beta.fill 0 }
/-- `lorentz_polarization::reset`, `src/materials/lorentz_polarization.cpp:48-52`. -/
def LorentzPol.reset (P : LorentzPol K) : LorentzPol K :=
  { P with J := P.J.fill 0, delta := P.delta.fill 0, prevJ := P.prevJ.fill 0 }

/-! ### `std::map<std::string, POL>` as a list sorted by name -/

/-- `map.find(name)` -/
def mapFind {α : Type} (name : String) : List (String × α) → Option α
  | [] => none
  | (n, a) :: l => if n = name then some a else mapFind name l

/-- `map.insert(name, a)` for a name that is not present: insertion in key order. -/
def mapInsert {α : Type} (name : String) (a : α) : List (String × α) → List (String × α)
  | [] => [(name, a)]
  | (n, b) :: l => if name < n then (name, a) :: (n, b) :: l else (n, b) :: mapInsert name a l

/-- Replace the value stored under `name`. -/
def mapSet {α : Type} (name : String) (a : α) : List (String × α) → List (String × α)
  | [] => []
  | (n, b) :: l => if n = name then (n, a) :: l else (n, b) :: mapSet name a l

/-- `for (auto& P : P_map) P.second.update_J(*this)`: run `upd` on the values in key order, threading `Ez`. -/
def mapUpdateJ {α : Type} (upd : α → Tensor K → M (α × Tensor K)) :
    List (String × α) → Tensor K → M (List (String × α) × Tensor K)
  | [], Ez => .ok ([], Ez)
  | (n, P) :: l, Ez => do
    let (P', Ez') ← upd P Ez
    let (l', Ez'') ← mapUpdateJ upd l Ez'
    pure ((n, P') :: l', Ez'')

end

end Qbox
