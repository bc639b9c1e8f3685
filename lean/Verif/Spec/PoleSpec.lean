import Verif.Model.Core

/-!
# Media whose lists of poles differ
-/

namespace Qbox.Spec
open Qbox Scalar

open Classical in
/-- The same poles in any order, not counting those of no strength. -/
def SamePoles {α : Type} (strength : α → ℝ) (l l' : List α) : Prop :=
  (l.filter fun p => strength p ≠ 0).Perm (l'.filter fun p => strength p ≠ 0)

/-- The same medium, with its poles listed in another order and perhaps with poles of no strength: `Δε = 0` in a Debye or a Lorentz medium, `ω = 0` in a
Drude medium. -/
inductive SameMedium : MatKind ℝ → MatKind ℝ → Prop
  | simple (m) : SameMedium (.simple m) (.simple m)
  | debye (eps : ℝ) (l l' : List (DebyePole ℝ)) : SamePoles (·.dEps) l l' → SameMedium (.debye ⟨eps, l⟩) (.debye ⟨eps, l'⟩)
  | drude (eps : ℝ) (l l' : List (DrudePole ℝ)) : SamePoles (·.omega) l l' → SameMedium (.drude ⟨eps, l⟩) (.drude ⟨eps, l'⟩)
  | lorentz (eps : ℝ) (l l' : List (LorentzPole ℝ)) : SamePoles (·.dEps) l l' → SameMedium (.lorentz ⟨eps, l⟩) (.lorentz ⟨eps, l'⟩)

/-- The same object with the poles of its medium written down in another way. -/
structure Relisted (o o' : Object ℝ) : Prop where
  same : o' = { o with mat := { o.mat with kind := o'.mat.kind } }
  kind : SameMedium o.mat.kind o'.mat.kind

/-- Every pole of the medium has a strength. -/
def Bare : MatKind ℝ → Prop
  | .simple _ => True
  | .debye m => ∀ p ∈ m.poles, p.dEps ≠ 0
  | .drude m => ∀ p ∈ m.poles, p.omega ≠ 0
  | .lorentz m => ∀ p ∈ m.poles, p.dEps ≠ 0

/-- The same Debye medium with one pole given as two of the same relaxation time. -/
inductive SplitMedium : MatKind ℝ → MatKind ℝ → Prop
  | debye (eps : ℝ) (A B : List (DebyePole ℝ)) (a b tau : ℝ) :
      SplitMedium (.debye ⟨eps, A ++ ⟨a + b, tau⟩ :: B⟩) (.debye ⟨eps, A ++ ⟨a, tau⟩ :: ⟨b, tau⟩ :: B⟩)

end Qbox.Spec
