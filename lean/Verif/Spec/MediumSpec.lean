import Verif.Spec.MaterialSpec
import Verif.Spec.SourceSpec

/-!
# Discretised field equations inside media

What the update at one node has to satisfy, as equations between the values before and after the step.
-/

namespace Qbox.Spec
open Qbox

/-- The `z` component of the discrete curl of `H` at a node. -/
noncomputable def curlH (f : Flds ℝ) (dx : ℝ) (i j : ℤ) : ℝ :=
  (f.Hy.val i j - f.Hy.val (i - 1) j) / dx - (f.Hx.val i j - f.Hx.val i (j - 1)) / dx

/-- Node beyond the absorbing layer. -/
structure Beyond (g : Grid ℝ) (i j : ℤ) : Prop where
  l : g.T < i
  r : i < g.Nx - 1 - g.T
  b : g.T < j
  t : j < g.Ny - 1 - g.T

/-- The entry of a Debye polarization has neither strength nor memory at the node. -/
def DebyeQuiet (P : DebyePol ℝ) (i j : ℤ) : Prop := ∀ N, 0 ≤ N → N < P.np → P.J.val i j N = 0 ∧ P.beta.val i j N = 0
/-- Same for a Drude polarization. -/
def DrudeQuiet (P : DrudePol ℝ) (i j : ℤ) : Prop := ∀ N, 0 ≤ N → N < P.np → P.J.val i j N = 0 ∧ P.beta.val i j N = 0

/-- Same for a Lorentz polarization. -/
def LorentzQuiet (P : LorentzPol ℝ) (i j : ℤ) : Prop :=
  ∀ N, 0 ≤ N → N < P.np → P.J.val i j N = 0 ∧ P.prevJ.val i j N = 0 ∧ P.delta.val i j N = 0

/-- No source and no TFSF boundary acts on `Ez` at the node. -/
structure Undriven (c : Core ℝ) (srcs : List (Source ℝ)) (i j : ℤ) : Prop where
  src : ∀ s ∈ srcs, ¬ Drives c.g s .Ez ⟨i, j⟩
  tfsf : ∀ w, c.tfsf = some w → ¬ ((w.ia ≤ i ∧ i ≤ w.ib) ∧ (j = w.ja ∨ j = w.jb))

/-- The semi-implicit Ampère law of a conducting dielectric. -/
def ConductiveLaw (m : Simple ℝ) (dt E E' curl : ℝ) : Prop :=
  m.eps * (E' - E) / dt + m.conduc * (E' + E) / 2 = curl

/-- The discretised equations of a Debye medium. `J N`, `J' N` are the polarization currents of pole `N` before and
after the step. -/
structure DebyeLaw (m : Debye ℝ) (dt E E' curl : ℝ) (J J' : ℕ → ℝ) : Prop where
  ampere : m.epsInf * (E' - E) / dt + ∑ N ∈ Finset.range m.poles.length, (J' N + J N) / 2 = curl
  pole : ∀ (N : ℕ) (h : N < m.poles.length),
    m.poles[N].tau * (J' N - J N) / dt + (J' N + J N) / 2 = m.poles[N].dEps * (E' - E) / dt

/-- The discretised equations of a Drude medium. -/
structure DrudeLaw (m : Drude ℝ) (dt E E' curl : ℝ) (J J' : ℕ → ℝ) : Prop where
  ampere : m.epsInf * (E' - E) / dt + ∑ N ∈ Finset.range m.poles.length, (J' N + J N) / 2 = curl
  pole : ∀ (N : ℕ) (h : N < m.poles.length),
    (J' N - J N) / dt + m.poles[N].gamma * (J' N + J N) / 2 = m.poles[N].omega ^ 2 * (E' + E) / 2

/-- The discretised equations of a Lorentz medium; `Ep` and `Jp` are the values one step before `E` and `J`. -/
structure LorentzLaw (m : Lorentz ℝ) (dt Ep E E' curl : ℝ) (Jp J J' : ℕ → ℝ) : Prop where
  ampere : m.epsInf * (E' - E) / dt + ∑ N ∈ Finset.range m.poles.length, (J' N + J N) / 2 = curl
  pole : ∀ (N : ℕ) (h : N < m.poles.length),
    (J' N - 2 * J N + Jp N) / dt ^ 2 + 2 * m.poles[N].gamma * (J' N - Jp N) / (2 * dt) + m.poles[N].omega ^ 2 * J N
      = m.poles[N].dEps * m.poles[N].omega ^ 2 * (E' - Ep) / (2 * dt)

/-- The node has the simple medium `m`, and no dispersive medium has strength or memory there. -/
structure InSimple (c : Core ℝ) (m : Simple ℝ) (i j : ℤ) : Prop where
  debye : ∀ q ∈ c.debye, DebyeQuiet q.2 i j
  drude : ∀ q ∈ c.drude, DrudeQuiet q.2 i j
  lorentz : ∀ q ∈ c.lorentz, LorentzQuiet q.2 i j
  medium : HasMedium c.f (.simple m) c.g.dt i j

/-- The node belongs to the Debye medium of the entry `P` and to no other dispersive medium. -/
structure InDebye (c : Core ℝ) (n : String) (P : DebyePol ℝ) (before after : List (String × DebyePol ℝ)) (i j : ℤ) :
    Prop where
  entry : c.debye = before ++ (n, P) :: after
  others : ∀ q ∈ before ++ after, DebyeQuiet q.2 i j
  drude : ∀ q ∈ c.drude, DrudeQuiet q.2 i j
  lorentz : c.lorentz = []
  medium : HasMedium c.f (.debye P.mat) c.g.dt i j
  strength : ∀ (N : ℕ) (h : N < P.mat.poles.length), P.beta.val i j N = P.mat.poles[N].beta c.g.dt

/-- The node belongs to the Drude medium of the entry `P` and to no other dispersive medium. -/
structure InDrude (c : Core ℝ) (n : String) (P : DrudePol ℝ) (before after : List (String × DrudePol ℝ)) (i j : ℤ) :
    Prop where
  entry : c.drude = before ++ (n, P) :: after
  others : ∀ q ∈ before ++ after, DrudeQuiet q.2 i j
  debye : ∀ q ∈ c.debye, DebyeQuiet q.2 i j
  lorentz : c.lorentz = []
  medium : HasMedium c.f (.drude P.mat) c.g.dt i j
  strength : ∀ (N : ℕ) (h : N < P.mat.poles.length), P.beta.val i j N = P.mat.poles[N].beta c.g.dt

/-- The node belongs to the Lorentz medium of the entry `P`, which is the only Lorentz material of the simulation. -/
structure InLorentz (c : Core ℝ) (n : String) (P : LorentzPol ℝ) (i j : ℤ) : Prop where
  entry : c.lorentz = [(n, P)]
  debye : ∀ q ∈ c.debye, DebyeQuiet q.2 i j
  drude : ∀ q ∈ c.drude, DrudeQuiet q.2 i j
  medium : HasMedium c.f (.lorentz P.mat) c.g.dt i j
  strength : ∀ (N : ℕ) (h : N < P.mat.poles.length), P.delta.val i j N = P.mat.poles[N].delta c.g.dt

end Qbox.Spec
