import Verif.Model.Output

/-!
# Results of a program
-/

namespace Qbox.Spec
open Qbox

variable {K : Type}

/-- The components that a monitor records itself. A box monitor records none: its faces do. -/
def recorded : Monitor K → List String
  | .surf m => m.fourier.acc.map Prod.fst
  | .box m => m.fourier.acc.map Prod.fst
  | .vol m => m.fourier.acc.map Prod.fst
  | .point m => m.fourier.acc.map Prod.fst
  | .cyl m => m.fourier.acc.map Prod.fst

/-- Where a call that writes results writes them: the spectra that a monitor recorded, a quantity that its class can compute, or the flux of the incident wave. -/
def results [Scalar K] (w : World K) : Call K → List Path
  | .writeSpectra i =>
    match w.sim.mons[i]? with
    | some m => (recorded m).map fun x => m.path ++ [x]
    | none => []
  | .report i r =>
    match w.sim.mons[i]? with
    | some m => if (m.compute w.sim.core.g r).isSome then [m.path ++ [r.name]] else []
    | none => []
  | .tfsfFlux => if w.sim.core.tfsf.isSome then [["sources", "tfsf", "flux"]] else []
  | _ => []

/-- The call writes results, and what it writes can be computed. -/
def Computable [Scalar K] (w : World K) : Call K → Prop
  | .writeSpectra _ => True
  | .report i r => ∀ m x, w.sim.mons[i]? = some m → m.compute w.sim.core.g r = some x → ∃ v, x = .ok v
  | .tfsfFlux => ∀ x, w.sim.core.tfsf = some x → ∃ v, x.flux = .ok v
  | _ => False

/-- Monitors are new when they are added: nothing has been recorded with them. -/
def NewMonitors (cs : List (Call K)) : Prop := ∀ m, Call.op (.addMonitor m) ∈ cs → recorded m = []

end Qbox.Spec
