import Verif.Model.Vec

/-!
# `src/materials/{simple_material,debye,drude,lorentz,creation}.cpp`

The parameter arrays of a dispersive material are modelled as one list of poles, so arrays of different length
(an Eigen size mismatch) are not represented here; see `Verif.Model.RawMaterials`.  `Array::sum()` is a left-to-right sum.
-/

namespace Qbox
open Scalar

/-- `simple_material`, `include/materials/simple_material.h`. -/
structure Simple (K : Type) where
  eps : K
  mu : K
  conduc : K

/-- One pole of a `debye` material. -/
structure DebyePole (K : Type) where
  dEps : K
  tau : K

/-- `debye`, `include/materials/debye.h`. -/
structure Debye (K : Type) where
  epsInf : K
  poles : List (DebyePole K)

/-- One pole of a `drude` material. -/
structure DrudePole (K : Type) where
  omega : K
  gamma : K

/-- `drude`, `include/materials/drude.h`. -/
structure Drude (K : Type) where
  epsInf : K
  poles : List (DrudePole K)

/-- One pole of a `lorentz` material. -/
structure LorentzPole (K : Type) where
  omega : K
  dEps : K
  gamma : K

/-- `lorentz`, `include/materials/lorentz.h`. -/
structure Lorentz (K : Type) where
  epsInf : K
  poles : List (LorentzPole K)

/-- `material_variant`, `include/object.h:25`. -/
inductive MatKind (K : Type)
  | simple (m : Simple K)
  | debye (m : Debye K)
  | drude (m : Drude K)
  | lorentz (m : Lorentz K)

/-- A material with its name (`include/materials/material.h`). -/
structure Material (K : Type) where
  name : String
  kind : MatKind K

section
variable {K : Type} [Scalar K]

/-- `Array::sum()`. -/
def sumL (l : List K) : K := l.foldl (· + ·) 0

/-! ### `src/materials/simple_material.cpp:26-40` -/

/-- `simple_material::Ca`, `src/materials/simple_material.cpp:26-28`. -/
def Simple.Ca (m : Simple K) (dt : K) : K :=
  (1 - m.conduc * dt / (ofInt 2 * m.eps)) / (1 + m.conduc * dt / (ofInt 2 * m.eps))
/-- `simple_material::Cb`, `src/materials/simple_material.cpp:30-32`. -/
def Simple.Cb (m : Simple K) (dt : K) : K :=
  (dt / m.eps) / (1 + m.conduc * dt / (ofInt 2 * m.eps))
/-- `simple_material::Da`, `src/materials/simple_material.cpp:34-36`. -/
def Simple.Da (_ : Simple K) (_ : K) : K := 1
/-- `simple_material::Db`, `src/materials/simple_material.cpp:38-40`. -/
def Simple.Db (_ : Simple K) (dt : K) : K := dt

/-! ### `src/materials/debye.cpp:32-55` -/

/-- one entry of `debye::beta`, `src/materials/debye.cpp:32-34`. -/
def DebyePole.beta (p : DebyePole K) (dt : K) : K :=
  (p.dEps * dt / p.tau) / (1 + dt / (ofInt 2 * p.tau))
/-- one entry of `debye::kappa`, `src/materials/debye.cpp:36-38`. -/
def DebyePole.kappa (p : DebyePole K) (dt : K) : K :=
  (1 - dt / (ofInt 2 * p.tau)) / (1 + dt / (ofInt 2 * p.tau))
/-- `debye::Ca`, `src/materials/debye.cpp:40-42`. -/
def Debye.Ca (_ : Debye K) (_ : K) : K := 1
/-- `debye::Cb`, `src/materials/debye.cpp:44-47`. -/
def Debye.Cb (m : Debye K) (dt : K) : K :=
  (ofInt 2 * dt) / (ofInt 2 * m.epsInf + sumL (m.poles.map (·.beta dt)))

/-! ### `src/materials/drude.cpp:34-58` -/

/-- one entry of `drude::beta`, `src/materials/drude.cpp:34-36`. -/
def DrudePole.beta (p : DrudePole K) (dt : K) : K :=
  (npow p.omega 2 * dt / ofInt 2) / (1 + p.gamma * dt / ofInt 2)
/-- one entry of `drude::kappa`, `src/materials/drude.cpp:38-40`. -/
def DrudePole.kappa (p : DrudePole K) (dt : K) : K :=
  (1 - p.gamma * dt / ofInt 2) / (1 + p.gamma * dt / ofInt 2)
/-- `drude::Ca`, `src/materials/drude.cpp:42-45`. -/
def Drude.Ca (m : Drude K) (dt : K) : K :=
  (ofInt 2 * m.epsInf - dt * sumL (m.poles.map (·.beta dt))) /
    (ofInt 2 * m.epsInf + dt * sumL (m.poles.map (·.beta dt)))
/-- `drude::Cb`, `src/materials/drude.cpp:47-50`. -/
def Drude.Cb (m : Drude K) (dt : K) : K :=
  (ofInt 2 * dt) / (ofInt 2 * m.epsInf + dt * sumL (m.poles.map (·.beta dt)))

/-! ### `src/materials/lorentz.cpp:39-72` -/

/-- one entry of `lorentz::alpha`, `src/materials/lorentz.cpp:39-41`. -/
def LorentzPole.alpha (p : LorentzPole K) (dt : K) : K :=
  (ofInt 2 - npow p.omega 2 * npow dt 2) / (1 + p.gamma * dt)
/-- one entry of `lorentz::beta`, `src/materials/lorentz.cpp:43-45`. -/
def LorentzPole.beta (p : LorentzPole K) (dt : K) : K :=
  (p.gamma * dt - 1) / (p.gamma * dt + 1)
/-- one entry of `lorentz::delta`, `src/materials/lorentz.cpp:47-49`. -/
def LorentzPole.delta (p : LorentzPole K) (dt : K) : K :=
  (p.dEps * npow p.omega 2 * npow dt 2) / (1 + p.gamma * dt)
/-- `lorentz::Ca_prev`, `src/materials/lorentz.cpp:51-54`. -/
def Lorentz.CaPrev (m : Lorentz K) (dt : K) : K :=
  (sumL (m.poles.map (·.delta dt)) / ofInt 2) / (ofInt 2 * m.epsInf + sumL (m.poles.map (·.delta dt)))
/-- `lorentz::Ca`, `src/materials/lorentz.cpp:56-59`. -/
def Lorentz.Ca (m : Lorentz K) (dt : K) : K :=
  (ofInt 2 * m.epsInf) / (ofInt 2 * m.epsInf + sumL (m.poles.map (·.delta dt)) / ofInt 2)
/-- `lorentz::Cb`, `src/materials/lorentz.cpp:61-64`. -/
def Lorentz.Cb (m : Lorentz K) (dt : K) : K :=
  (ofInt 2 * dt) / (ofInt 2 * m.epsInf + sumL (m.poles.map (·.delta dt)) / ofInt 2)

/-! ### virtual dispatch on the variant -/

/-- `mat_ptr->Ca(dt)` -/
def MatKind.Ca (dt : K) : MatKind K → K
  | .simple m => m.Ca dt
  | .debye m => m.Ca dt
  | .drude m => m.Ca dt
  | .lorentz m => m.Ca dt
/-- `mat_ptr->Cb(dt)` -/
def MatKind.Cb (dt : K) : MatKind K → K
  | .simple m => m.Cb dt
  | .debye m => m.Cb dt
  | .drude m => m.Cb dt
  | .lorentz m => m.Cb dt
/-- `mat_ptr->Da(dt)`: 1 for every kind (`src/materials/simple_material.cpp:34`, `debye.cpp:49`,
`drude.cpp:52`, `lorentz.cpp:66`). -/
def MatKind.Da (dt : K) : MatKind K → K
  | .simple m => m.Da dt
  | .debye _ => 1
  | .drude _ => 1
  | .lorentz _ => 1
/-- `mat_ptr->Db(dt)`: `dt` for every kind (`src/materials/simple_material.cpp:38`, `debye.cpp:53`,
`drude.cpp:56`, `lorentz.cpp:70`). -/
def MatKind.Db (dt : K) : MatKind K → K
  | .simple m => m.Db dt
  | .debye _ => dt
  | .drude _ => dt
  | .lorentz _ => dt

/-- the background medium, `src/field2.cpp:39` with the defaults of `include/materials/simple_material.h` (`mu = 1, conduc = 0`). -/
def vacuum : Simple K := ⟨1, 1, 0⟩

/-- `drude_lorentz`, `src/materials/creation.cpp:8-24`. -/
def drudeLorentz (d : Drude K) (l : Lorentz K) : Lorentz K :=
  { epsInf := d.epsInf,
    poles := d.poles.map (fun p =>
        { omega := lit1e20, dEps := npow p.omega 2 / npow lit1e20 2, gamma := p.gamma / ofInt 2 })
      ++ l.poles }

end

end Qbox
