import Verif.Spec.EnergySpec
import Mathlib.Analysis.Calculus.Deriv.Basic

/-!
# Maxwell's equations in continuous space and time

Transverse magnetic fields, units in which the speed of light is one, permeability one.
-/

namespace Qbox.Spec
open Qbox

/-- `f` has three derivatives between `a` and `b`; the first is `f1`, the second and the third are at most `M`. -/
def Tame (f f1 : ℝ → ℝ) (a b M : ℝ) : Prop :=
  ∃ f2 f3 : ℝ → ℝ, ∀ s, a ≤ s → s ≤ b → HasDerivAt f (f1 s) s ∧ HasDerivAt f1 (f2 s) s ∧ HasDerivAt f2 (f3 s) s ∧ |f2 s| ≤ M ∧ |f3 s| ≤ M

/-- A field with those of its derivatives that Maxwell's equations mention, as functions of `t`, `x`, `y`. -/
structure Wave where
  E : ℝ → ℝ → ℝ → ℝ
  X : ℝ → ℝ → ℝ → ℝ
  Y : ℝ → ℝ → ℝ → ℝ
  Et : ℝ → ℝ → ℝ → ℝ
  Ex : ℝ → ℝ → ℝ → ℝ
  Ey : ℝ → ℝ → ℝ → ℝ
  Xt : ℝ → ℝ → ℝ → ℝ
  Xy : ℝ → ℝ → ℝ → ℝ
  Yt : ℝ → ℝ → ℝ → ℝ
  Yx : ℝ → ℝ → ℝ → ℝ

/-- A point of the domain. -/
structure InDomain (g : Grid ℝ) (x y : ℝ) : Prop where
  x0 : 0 ≤ x
  x1 : x ≤ g.Lx
  y0 : 0 ≤ y
  y1 : y ≤ g.Ly

/-- The field is smooth in the part `S` of the domain up to time `τ`, with derivatives bounded by `M`. -/
structure Wave.Smooth (w : Wave) (S : ℝ → ℝ → Prop) (g : Grid ℝ) (τ M : ℝ) : Prop where
  Et : ∀ x y, InDomain g x y → S x y → Tame (fun t => w.E t x y) (fun t => w.Et t x y) 0 τ M
  Xt : ∀ x y, InDomain g x y → S x y → Tame (fun t => w.X t x y) (fun t => w.Xt t x y) 0 τ M
  Yt : ∀ x y, InDomain g x y → S x y → Tame (fun t => w.Y t x y) (fun t => w.Yt t x y) 0 τ M
  Ex : ∀ t y a b, 0 ≤ t → t ≤ τ → (∀ x, a ≤ x → x ≤ b → InDomain g x y ∧ S x y) → Tame (fun x => w.E t x y) (fun x => w.Ex t x y) a b M
  Yx : ∀ t y a b, 0 ≤ t → t ≤ τ → (∀ x, a ≤ x → x ≤ b → InDomain g x y ∧ S x y) → Tame (fun x => w.Y t x y) (fun x => w.Yx t x y) a b M
  Ey : ∀ t x a b, 0 ≤ t → t ≤ τ → (∀ y, a ≤ y → y ≤ b → InDomain g x y ∧ S x y) → Tame (fun y => w.E t x y) (fun y => w.Ey t x y) a b M
  Xy : ∀ t x a b, 0 ≤ t → t ≤ τ → (∀ y, a ≤ y → y ≤ b → InDomain g x y ∧ S x y) → Tame (fun y => w.X t x y) (fun y => w.Xy t x y) a b M

/-- The field is bounded by `M` and changes by at most `M` per unit of time or length, everywhere in the domain up to time `τ`. -/
structure Wave.Steady (w : Wave) (g : Grid ℝ) (τ M : ℝ) : Prop where
  E0 : ∀ t x y, 0 ≤ t → t ≤ τ → InDomain g x y → |w.E t x y| ≤ M
  Et : ∀ t t' x y, 0 ≤ t → t ≤ t' → t' ≤ τ → InDomain g x y → |w.E t' x y - w.E t x y| ≤ M * (t' - t)
  Xt : ∀ t t' x y, 0 ≤ t → t ≤ t' → t' ≤ τ → InDomain g x y → |w.X t' x y - w.X t x y| ≤ M * (t' - t)
  Yt : ∀ t t' x y, 0 ≤ t → t ≤ t' → t' ≤ τ → InDomain g x y → |w.Y t' x y - w.Y t x y| ≤ M * (t' - t)
  Ex : ∀ t x x' y, 0 ≤ t → t ≤ τ → x ≤ x' → InDomain g x y → InDomain g x' y → |w.E t x' y - w.E t x y| ≤ M * (x' - x)
  Yx : ∀ t x x' y, 0 ≤ t → t ≤ τ → x ≤ x' → InDomain g x y → InDomain g x' y → |w.Y t x' y - w.Y t x y| ≤ M * (x' - x)
  Ey : ∀ t x y y', 0 ≤ t → t ≤ τ → y ≤ y' → InDomain g x y → InDomain g x y' → |w.E t x y' - w.E t x y| ≤ M * (y' - y)
  Xy : ∀ t x y y', 0 ≤ t → t ≤ τ → y ≤ y' → InDomain g x y → InDomain g x y' → |w.X t x y' - w.X t x y| ≤ M * (y' - y)

/-- Maxwell's equations in the part `S` of the domain up to time `τ`, with permittivity `eps` and conductivity `sig`. -/
structure Wave.Maxwell (w : Wave) (S : ℝ → ℝ → Prop) (eps sig : ℝ → ℝ → ℝ) (g : Grid ℝ) (τ : ℝ) : Prop where
  ampere : ∀ t x y, 0 ≤ t → t ≤ τ → InDomain g x y → S x y → eps x y * w.Et t x y + sig x y * w.E t x y = w.Yx t x y - w.Xy t x y
  faradayX : ∀ t x y, 0 ≤ t → t ≤ τ → InDomain g x y → S x y → w.Xt t x y = - w.Ey t x y
  faradayY : ∀ t x y, 0 ≤ t → t ≤ τ → InDomain g x y → S x y → w.Yt t x y = w.Ex t x y

/-- Maxwell's equations with a current density `J`. -/
structure Wave.Driven (w : Wave) (S : ℝ → ℝ → Prop) (eps sig : ℝ → ℝ → ℝ) (J : ℝ → ℝ → ℝ → ℝ) (g : Grid ℝ) (τ : ℝ) : Prop where
  ampere : ∀ t x y, 0 ≤ t → t ≤ τ → InDomain g x y → S x y →
    eps x y * w.Et t x y + sig x y * w.E t x y + J t x y = w.Yx t x y - w.Xy t x y
  faradayX : ∀ t x y, 0 ≤ t → t ≤ τ → InDomain g x y → S x y → w.Xt t x y = - w.Ey t x y
  faradayY : ∀ t x y, 0 ≤ t → t ≤ τ → InDomain g x y → S x y → w.Yt t x y = w.Ex t x y

/-- The walls of a domain without absorbing layer: no tangential electric field on the right and upper edge, no tangential magnetic field half a cell
inside the left and lower edge. -/
structure Wave.Walls (w : Wave) (g : Grid ℝ) (τ : ℝ) : Prop where
  left : ∀ t y, 0 ≤ t → t ≤ τ → 0 ≤ y → y ≤ g.Ly → w.Y t (g.dx / 2) y = 0
  bottom : ∀ t x, 0 ≤ t → t ≤ τ → 0 ≤ x → x ≤ g.Lx → w.X t x (g.dx / 2) = 0
  right : ∀ t y, 0 ≤ t → t ≤ τ → 0 ≤ y → y ≤ g.Ly → w.E t g.Lx y = 0
  top : ∀ t x, 0 ≤ t → t ≤ τ → 0 ≤ x → x ≤ g.Lx → w.E t x g.Ly = 0

/-- The values that belong to node `(i, j)` after `n` steps: the magnetic field half a step later and half a cell further. -/
def Wave.nodeE (w : Wave) (g : Grid ℝ) (n : ℕ) (i j : ℤ) : ℝ := w.E (n * g.dt) (i * g.dx) (j * g.dx)
noncomputable def Wave.nodeX (w : Wave) (g : Grid ℝ) (n : ℕ) (i j : ℤ) : ℝ := w.X ((n + 1 / 2) * g.dt) (i * g.dx) ((j + 1 / 2) * g.dx)
noncomputable def Wave.nodeY (w : Wave) (g : Grid ℝ) (n : ℕ) (i j : ℤ) : ℝ := w.Y ((n + 1 / 2) * g.dt) ((i + 1 / 2) * g.dx) (j * g.dx)

/-- The square of the difference between the fields of the simulation and the wave after `n` steps, integrated over the rectangle. -/
noncomputable def gap (w : Wave) (g : Grid ℝ) (n : ℕ) (f : Flds ℝ) (R : Box) : ℝ :=
  g.dx ^ 2 * R.sum fun i j => (f.Ez.val i j - w.nodeE g n i j) ^ 2 + (f.Hx.val i j - w.nodeX g n i j) ^ 2 + (f.Hy.val i j - w.nodeY g n i j) ^ 2

/-- `eps` and `sig` are the permittivity and conductivity of the topmost object at every point, and those of the vacuum where there is none. -/
structure MediumOf (objs : List (Object ℝ)) (eps sig : ℝ → ℝ → ℝ) : Prop where
  object : ∀ p o m, TopAt objs p o → o.mat.kind = .simple m → eps p.x p.y = m.eps ∧ sig p.x p.y = m.conduc
  vacuum : ∀ p : V2 ℝ, (∀ o ∈ objs, o.inside p = false) → eps p.x p.y = 1 ∧ sig p.x p.y = 0

/-- The lines from node `(i, j)` to the places of the field values that enter its update do not stay in `S`. -/
def Crossed (S : ℝ → ℝ → Prop) (g : Grid ℝ) (i j : ℤ) : Prop :=
  (∃ x, (i - 1 / 2) * g.dx ≤ x ∧ x ≤ (i + 1) * g.dx ∧ ¬ S x (j * g.dx)) ∨ ∃ y, (j - 1 / 2) * g.dx ≤ y ∧ y ≤ (j + 1) * g.dx ∧ ¬ S (i * g.dx) y

open Classical in
/-- The area of the cells of such nodes. -/
noncomputable def crossedArea (S : ℝ → ℝ → Prop) (g : Grid ℝ) (R : Box) : ℝ := g.dx ^ 2 * R.sum fun i j => if Crossed S g i j then 1 else 0

/-- Every line of nodes leaves `S` in at most `k` points. -/
structure FewCrossings (S : ℝ → ℝ → Prop) (g : Grid ℝ) (k : ℕ) : Prop where
  row : ∀ j : ℤ, ∃ l : List ℝ, l.length ≤ k ∧ ∀ x, ¬ S x (j * g.dx) → x ∈ l
  col : ∀ i : ℤ, ∃ l : List ℝ, l.length ≤ k ∧ ∀ y, ¬ S (i * g.dx) y → y ∈ l

end Qbox.Spec
