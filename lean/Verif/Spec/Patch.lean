import Verif.Spec.Assembly
import Verif.Spec.Boundary
/-
Specification for C86: elements that do not overlap, affine fields.
-/
namespace Conmech.Spec

variable {K : Type _} [Field K] [LinearOrder K]

/-- The point `x` lies in the interior of the simplex: it is a mean of the vertices with positive
weights. -/
def StrictlyInside (d : ℕ) (X : ℕ → ℕ → K) (x : ℕ → K) : Prop :=
  ∃ w : ℕ → K, (∀ i < d + 1, 0 < w i) ∧ ∑ i ∈ Finset.range (d + 1), w i = 1 ∧
    ∀ k < d, x k = ∑ i ∈ Finset.range (d + 1), w i * X i k

/-- No point lies in the interior of two elements. -/
def NonOverlapping (d : ℕ) (elements : List (List ℕ)) (nodes : ℕ → ℕ → K) : Prop :=
  ∀ t < elements.length, ∀ t' < elements.length, t ≠ t' → ∀ x,
    StrictlyInside d (vertices nodes (elements.getD t [])) x →
    ¬ StrictlyInside d (vertices nodes (elements.getD t' [])) x

omit [LinearOrder K] in
/-- The nodal values of the affine function with value `c` at the origin and gradient `G`. -/
def AffineField (d N : ℕ) (nodes : ℕ → ℕ → K) (c : K) (G : ℕ → K) (x : ℕ → K) : Prop :=
  ∀ p < N, x p = c + ∑ k ∈ Finset.range d, G k * nodes p k

end Conmech.Spec
