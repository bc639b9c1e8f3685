import Verif.Model.Sim

/-! # Which monitors can be subtracted from which -/

namespace Qbox.Spec

variable {K : Type} [Scalar K]

/-- Where both transforms have a component, it is recorded at the same positions and for as many frequencies. -/
def Meets {P : Type} (d o : Dft K P) : Prop :=
  ∀ n a b, (n, a) ∈ d.acc → accFind n o.acc = some b → a.pos = b.pos ∧ d.freq.length = o.freq.length

/-- The transforms of `o` that `m -= o` pairs with those of `m` have the same shape. -/
def Subtractable : Monitor K → Monitor K → Prop
  | .surf m, .surf o => Meets m.fourier o.fourier
  | .surf m, .cyl o => Meets m.fourier o.fourier
  | .surf m, .box o => Meets m.fourier o.fourier
  | .cyl m, .surf o => Meets m.fourier o.fourier
  | .cyl m, .cyl o => Meets m.fourier o.fourier
  | .cyl m, .box o => Meets m.fourier o.fourier
  | .vol m, .vol o => Meets m.fourier o.fourier
  | .point m, .point o => Meets m.fourier o.fourier
  | .box m, .box o => ∀ q ∈ m.faces.zip o.faces, Meets q.1.fourier q.2.fourier
  | _, _ => True

/-- Every subtraction of the history is between monitors of the same shape. `ms` are the monitors attached before it, as they were attached. -/
def Matched (g : Grid K) : List (Monitor K) → List (Op K) → Prop
  | _, [] => True
  | ms, .addMonitor m :: l => match m.setF g with | .ok m' => Matched g (ms ++ [m']) l | _ => Matched g ms l
  | _, .removeMonitors :: l => Matched g [] l
  | ms, .subtract i o :: l => (∀ m, ms[i]? = some m → Subtractable m o) ∧ Matched g ms l
  | ms, _ :: l => Matched g ms l

end Qbox.Spec
