import Verif.Model.Sim

/-! # Vocabulary for histories of calls -/

namespace Qbox.Spec
open Qbox

variable {K : Type}

/-- The call is `update()`. -/
def isUpdate : Op K → Bool
  | .update => true
  | _ => false

/-- The call is `clear_fields()`. -/
def isClear : Op K → Bool
  | .clearFields => true
  | _ => false

/-- Number of calls of `update()` since the start or the last `clear_fields()`. -/
def stepsSince (ops : List (Op K)) : ℕ := (ops.reverse.takeWhile fun o => !isClear o).countP isUpdate

/-- The calls that only look: they attach, detach, subtract or write monitors, or write fields to the file. -/
def observes : Op K → Bool
  | .addMonitor _ => true
  | .addTimeMonitor _ => true
  | .removeMonitors => true
  | .writeField _ => true
  | .writeE => true
  | .writeH => true
  | .writeMonitor => true
  | .writeTimeMonitor _ => true
  | .subtract _ _ => true
  | _ => false

/-- The history without the calls that only look. -/
def physical (ops : List (Op K)) : List (Op K) := ops.filter fun o => !observes o

end Qbox.Spec
