import Verif.Spec.MediumSpec

/-!
# The incident plane wave

The wave of a total-field region is that of a one-dimensional scheme on `N` nodes `0 … N-1`, at half a cell per step: driven at
node 1, and open at node `N-1`, which repeats what its neighbour had two steps before.
-/

namespace Qbox.Spec
open Qbox

/-- `e n k`, `h n k`: electric and magnetic value at node `k` after `n` steps. -/
structure LineWave (s : ℝ → ℝ) (dt : ℝ) (N : ℤ) (e h : ℕ → ℤ → ℝ) : Prop where
  e0 : ∀ k, e 0 k = 0
  h0 : ∀ k, h 0 k = 0
  drive : ∀ n : ℕ, e (n + 1) 1 = s (((n : ℝ) + 1) * dt)
  ampere : ∀ n k, 2 ≤ k → k ≤ N - 2 → e (n + 1) k = e n k + (h n (k - 1) - h n k) / 2
  end1 : e 1 (N - 1) = 0
  open_ : ∀ n, e (n + 2) (N - 1) = e n (N - 2)
  faraday : ∀ n k, 1 ≤ k → k ≤ N - 2 → h (n + 1) k = h n k + (e (n + 1) k - e (n + 1) (k + 1)) / 2

/-- The region between two nodes is beyond the absorbing layer and, if there is no layer, not next to the edge of the grid. -/
structure ClearRegion (g : Grid ℝ) (a b : V2 ℤ) : Prop where
  lo : Beyond g a.x a.y
  hi : Beyond g b.x b.y
  x : a.x ≤ b.x
  y : a.y ≤ b.y
  edge : 2 ≤ a.x ∧ 2 ≤ a.y

/-- The wave fills the region from `a` to `b` after `n` steps and there is no field anywhere else: `Ez` at the nodes of the
region, `Hx` between two nodes of the region, no `Hy`. -/
structure FillsOnly (f : Flds ℝ) (a b : V2 ℤ) (e h : ℤ → ℝ) : Prop where
  Ez_in : ∀ i j, a.x ≤ i → i ≤ b.x → a.y ≤ j → j ≤ b.y → f.Ez.val i j = e (j - a.y + 3)
  Ez_out : ∀ i j, ¬ (a.x ≤ i ∧ i ≤ b.x ∧ a.y ≤ j ∧ j ≤ b.y) → f.Ez.val i j = 0
  Hx_in : ∀ i j, a.x ≤ i → i ≤ b.x → a.y ≤ j → j + 1 ≤ b.y → f.Hx.val i j = h (j - a.y + 3)
  Hx_out : ∀ i j, ¬ (a.x ≤ i ∧ i ≤ b.x ∧ a.y ≤ j ∧ j + 1 ≤ b.y) → f.Hx.val i j = 0
  Hy : ∀ i j, f.Hy.val i j = 0

/-- Vacuum at every node and no dispersive material. -/
structure Empty (c : Core ℝ) : Prop where
  medium : ∀ i j, 0 ≤ i → i < c.g.Nx → 0 ≤ j → j < c.g.Ny → HasMedium c.f (.simple vacuum) c.g.dt i j
  debye : c.debye = []
  drude : c.drude = []
  lorentz : c.lorentz = []

end Qbox.Spec
