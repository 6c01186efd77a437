import Verif.Spec.Sides
/-
Specification for C104: rectangles held on some of their sides.
-/
namespace Conmech.Spec

variable {K : Type} [Field K] [LinearOrder K]

/-- The node lies on one of the chosen closed sides. -/
def HeldOn (width height : K) (chosen : Side → Bool) (nodes : List (K × K)) (w : ℕ) : Prop :=
  ∃ s : Side, chosen s = true ∧ ∃ p, nodes[w]? = some p ∧ s.On width height p

/-- On the boundary of the rectangle the predicate holds exactly on the chosen closed sides. -/
def HoldsSides (width height : K) (P : K × K → Bool) (chosen : Side → Bool) : Prop :=
  ∀ p : K × K, (∃ s : Side, s.On width height p) →
    (P p = true ↔ ∃ s : Side, chosen s = true ∧ s.On width height p)

end Conmech.Spec
