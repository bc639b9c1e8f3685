import Verif.Spec.EnergySpec
import Mathlib.Algebra.BigOperators.Fin

/-!
# Energy in dispersive media

A dispersive medium stores energy in its polarization. For a Debye pole with current `J` the polarization is `dEps E - tau J`; for a Drude
pole the moving charges carry the energy.
-/

namespace Qbox.Spec
open Qbox

/-- What fills a node. `k` is the position of the material in the map of its polarizations. -/
inductive Medium
  | simple (m : Simple ℝ)
  | debye (k : ℕ) (m : Debye ℝ)
  | drude (k : ℕ) (m : Drude ℝ)

/-- The part of the response without delay. -/
noncomputable def Medium.base : Medium → Simple ℝ
  | .simple m => m
  | .debye _ m => ⟨m.epsInf, 1, 0⟩
  | .drude _ m => ⟨m.epsInf, 1, 0⟩

/-- Two Debye poles as the program treats them: the first is updated with a field on which the second has not acted yet. It therefore has
the driving force `alpha E + gamma P₂` instead of `E`, and only the part `eta` of the second pole and the addition `extra` to the permittivity are left. -/
structure DebyePair where
  eps : ℝ
  p : DebyePole ℝ
  q : DebyePole ℝ
  dt : ℝ

namespace DebyePair
noncomputable def D (w : DebyePair) : ℝ := 2 * w.eps + w.p.beta w.dt + w.q.beta w.dt
noncomputable def gamma (w : DebyePair) : ℝ := 2 / w.D
noncomputable def alpha (w : DebyePair) : ℝ := 1 - w.q.beta w.dt / w.D
noncomputable def eta (w : DebyePair) : ℝ := 1 - w.p.beta w.dt / w.D
noncomputable def extra (w : DebyePair) : ℝ := w.p.beta w.dt * w.q.beta w.dt / (2 * w.D)
/-- The driving force of the first pole in a constant field of size one. -/
noncomputable def A (w : DebyePair) : ℝ := w.alpha + w.gamma * w.q.dEps
noncomputable def b (w : DebyePair) : ℝ := w.gamma * w.q.tau / (w.p.tau * w.A + w.q.tau * w.alpha)
noncomputable def a (w : DebyePair) : ℝ := (1 + w.b * w.q.dEps) / (w.p.dEps * w.A)
noncomputable def c (w : DebyePair) : ℝ := (w.eta + w.b * (w.p.dEps * w.A)) / w.q.dEps
/-- The polarization of the second pole. -/
noncomputable def P2 (w : DebyePair) (E J2 : ℝ) : ℝ := w.q.dEps * E - w.q.tau * J2
/-- The polarization of the first pole. -/
noncomputable def P1 (w : DebyePair) (E J1 J2 : ℝ) : ℝ := w.p.dEps * (w.alpha * E + w.gamma * w.P2 E J2) - w.p.tau * J1
/-- Energy density that the two poles store. -/
noncomputable def store (w : DebyePair) (E J1 J2 : ℝ) : ℝ :=
  w.extra * E ^ 2 / 2 + (w.a * w.P1 E J1 J2 ^ 2 - 2 * w.b * (w.P1 E J1 J2 * w.P2 E J2) + w.c * w.P2 E J2 ^ 2) / 2
/-- Permittivity for constant fields. -/
noncomputable def static (w : DebyePair) : ℝ := w.eps + w.extra + w.p.dEps * w.A + w.eta * w.q.dEps
end DebyePair

/-- Permittivity of a Debye medium for constant fields. -/
noncomputable def debyeStatic (m : Debye ℝ) (dt : ℝ) : ℝ :=
  match m.poles with
  | [p, q] => (DebyePair.mk m.epsInf p q dt).static
  | _ => m.epsInf + ∑ N : Fin m.poles.length, m.poles[N].dEps

/-- The response after a long time; the free charges of a Drude medium not counted. -/
noncomputable def Medium.static (dt : ℝ) : Medium → Simple ℝ
  | .simple m => m
  | .debye _ m => ⟨debyeStatic m dt, 1, 0⟩
  | .drude _ m => ⟨m.epsInf, 1, 0⟩

/-- A passive Debye medium of at most two poles. -/
structure DebyePassive (m : Debye ℝ) : Prop where
  epsInf : 1 ≤ m.epsInf
  few : m.poles.length ≤ 2
  tau : ∀ p ∈ m.poles, 0 < p.tau
  dEps : ∀ p ∈ m.poles, 0 < p.dEps

/-- A passive Drude medium of at most one pole. -/
structure DrudePassive (m : Drude ℝ) : Prop where
  epsInf : 1 ≤ m.epsInf
  single : m.poles.length ≤ 1
  gamma : ∀ p ∈ m.poles, 0 ≤ p.gamma
  omega : ∀ p ∈ m.poles, p.omega ≠ 0

/-- The medium gives off no energy of its own. -/
def Medium.Passive : Medium → Prop
  | .simple m => 1 ≤ m.eps ∧ 0 ≤ m.conduc
  | .debye _ m => DebyePassive m
  | .drude _ m => DrudePassive m

/-- The node is filled by the medium and no other dispersive medium acts there. -/
def Filled (c : Core ℝ) (i j : ℤ) : Medium → Prop
  | .simple m => InSimple c m i j
  | .debye k m => ∃ n P b a, InDebye c n P b a i j ∧ b.length = k ∧ P.mat = m
  | .drude k m => ∃ n P b a, InDrude c n P b a i j ∧ b.length = k ∧ P.mat = m

/-- Energy density of the polarization of a Debye medium whose poles act independently. -/
noncomputable def debyeStore (m : Debye ℝ) (E : ℝ) (J : ℕ → ℝ) : ℝ :=
  ∑ N : Fin m.poles.length, (m.poles[N].dEps * E - m.poles[N].tau * J N) ^ 2 / (2 * m.poles[N].dEps)

/-- Energy density of the polarization of a Debye medium of at most two poles. -/
noncomputable def debyeKeep (m : Debye ℝ) (dt E : ℝ) (J : ℕ → ℝ) : ℝ :=
  match m.poles with
  | [p, q] => (DebyePair.mk m.epsInf p q dt).store E (J 0) (J 1)
  | _ => debyeStore m E J

/-- Kinetic energy density of the charges of a Drude medium. -/
noncomputable def drudeStore (m : Drude ℝ) (J : ℕ → ℝ) : ℝ := ∑ N : Fin m.poles.length, J N ^ 2 / (2 * m.poles[N].omega ^ 2)

/-- Energy density that the medium stores at the node in addition to the field. -/
noncomputable def stored (c : Core ℝ) (i j : ℤ) : Medium → ℝ
  | .simple _ => 0
  | .debye k m => match c.debye[k]? with
    | some q => debyeKeep m c.g.dt (c.f.Ez.val i j) fun N => q.2.J.val i j N
    | none => 0
  | .drude k m => match c.drude[k]? with
    | some q => drudeStore m fun N => q.2.J.val i j N
    | none => 0

/-- The energy of the fields and of the media in the rectangle. -/
noncomputable def total (c : Core ℝ) (med : ℤ → ℤ → Medium) (R : Box) : ℝ :=
  energy c.g (fun i j => (med i j).base) c.f R + c.g.dx ^ 2 * R.sum fun i j => stored c i j (med i j)

/-- Every node of the rectangle is beyond the absorbing layer and filled by the passive medium `med`. -/
structure Dispersive (c : Core ℝ) (med : ℤ → ℤ → Medium) (R : Box) : Prop where
  beyond : ∀ i j, R.Mem i j → Beyond c.g i j
  filled : ∀ i j, R.Mem i j → Filled c i j (med i j)
  passive : ∀ i j, R.Mem i j → (med i j).Passive
  lorentz : c.lorentz = []

/-- No polarization current on the right and upper edge of the grid. -/
structure EdgeStill (c : Core ℝ) : Prop where
  debye : ∀ q ∈ c.debye, ∀ i j N, 0 ≤ i → i < c.g.Nx → 0 ≤ j → j < c.g.Ny → i = c.g.Nx - 1 ∨ j = c.g.Ny - 1 → 0 ≤ N → N < q.2.np → q.2.J.val i j N = 0
  drude : ∀ q ∈ c.drude, ∀ i j N, 0 ≤ i → i < c.g.Nx → 0 ≤ j → j < c.g.Ny → i = c.g.Nx - 1 ∨ j = c.g.Ny - 1 → 0 ≤ N → N < q.2.np → q.2.J.val i j N = 0

/-- The medium that a material makes of the node of a topmost object. -/
inductive Medium.Of : MatKind ℝ → Medium → Prop
  | simple (m) : Medium.Of (.simple m) (.simple m)
  | debye (m k) : Medium.Of (.debye m) (.debye k m)
  | drude (m k) : Medium.Of (.drude m) (.drude k m)

/-- A material without Lorentz poles that gives off no energy of its own. -/
def PassiveKind : MatKind ℝ → Prop
  | .simple m => 1 ≤ m.eps ∧ 0 ≤ m.conduc
  | .debye m => DebyePassive m
  | .drude m => DrudePassive m
  | .lorentz _ => False

/-- The material has memory. -/
def MatKind.Delayed : MatKind ℝ → Prop
  | .simple _ => False
  | _ => True

/-- `med` is the medium of the topmost object at every node of the rectangle, and vacuum where there is no object. -/
structure FilledWith (g : Grid ℝ) (objs : List (Object ℝ)) (med : ℤ → ℤ → Medium) (R : Box) : Prop where
  object : ∀ i j o, R.Mem i j → TopAt objs (g.toReal ⟨i, j⟩) o → Medium.Of o.mat.kind (med i j)
  vacuum : ∀ i j, R.Mem i j → (∀ o ∈ objs, o.inside (g.toReal ⟨i, j⟩) = false) → med i j = .simple Qbox.vacuum

/-- No object covers a part of a dispersive object, except by the same material. -/
def Uncovered (g : Grid ℝ) (objs : List (Object ℝ)) : Prop :=
  ∀ o ∈ objs, MatKind.Delayed o.mat.kind → ∀ i j, o.inside (g.toReal ⟨i, j⟩) = true → ∀ o', TopAt objs (g.toReal ⟨i, j⟩) o' → o'.mat = o.mat

/-- A name stands for one material, as far as materials with memory are concerned. -/
def OneMeaning (objs : List (Object ℝ)) : Prop :=
  ∀ o ∈ objs, ∀ o' ∈ objs, MatKind.Delayed o.mat.kind → MatKind.Delayed o'.mat.kind → o.mat.name = o'.mat.name → o.mat = o'.mat

end Qbox.Spec
