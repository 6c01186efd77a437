import Mathlib.Algebra.Field.Defs
/-
Specification for C87: the boundary of a rectangle.
-/
namespace Conmech.Spec

/-- The point lies on one of the four lines that bound the rectangle with corners (0, 0) and
(width, height). -/
def OnRectangle {K : Type} [Field K] (width height : K) (p : K × K) : Prop :=
  p.1 = 0 ∨ p.1 = width ∨ p.2 = 0 ∨ p.2 = height

/-- The coordinates of nodes given as pairs. -/
def coordinates {K : Type} [Field K] (nodes : List (K × K)) : ℕ → ℕ → K := fun p k =>
  if k = 0 then (nodes.getD p (0, 0)).1 else (nodes.getD p (0, 0)).2

end Conmech.Spec
