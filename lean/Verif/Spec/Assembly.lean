import Mathlib.Algebra.BigOperators.Group.Finset.Basic
import Mathlib.Algebra.Order.Field.Basic
import Mathlib.Algebra.Order.AbsoluteValue.Basic
/-
Specification for C21-C31: simplices, affine functions on them, nodal fields.

`X i k` is coordinate `k` of vertex `i` of a simplex.
-/
namespace Conmech.Spec

variable {K : Type _} [Field K]

/-- Twice the signed area of a triangle. -/
def det2 (X : ℕ → ℕ → K) : K :=
  (X 1 0 - X 0 0) * (X 2 1 - X 0 1) - (X 1 1 - X 0 1) * (X 2 0 - X 0 0)

/-- Six times the signed volume of a tetrahedron. -/
def det3 (X : ℕ → ℕ → K) : K :=
  (X 1 0 - X 0 0) * ((X 2 1 - X 0 1) * (X 3 2 - X 0 2) - (X 2 2 - X 0 2) * (X 3 1 - X 0 1)) -
  (X 1 1 - X 0 1) * ((X 2 0 - X 0 0) * (X 3 2 - X 0 2) - (X 2 2 - X 0 2) * (X 3 0 - X 0 0)) +
  (X 1 2 - X 0 2) * ((X 2 0 - X 0 0) * (X 3 1 - X 0 1) - (X 2 1 - X 0 1) * (X 3 0 - X 0 0))

/-- The area of a triangle. -/
def area [LinearOrder K] (X : ℕ → ℕ → K) : K := |det2 X| / 2

/-- The volume of a tetrahedron. -/
def volume [LinearOrder K] (X : ℕ → ℕ → K) : K := |det3 X| / 6

/-- The affine function with the values `vals` at the vertices of a `d`-dimensional simplex has the
gradient `G`. -/
def IsGradient (d : ℕ) (X : ℕ → ℕ → K) (vals G : ℕ → K) : Prop :=
  ∃ c, ∀ i < d + 1, vals i = c + ∑ k ∈ Finset.range d, G k * X i k

/-- The coordinates of the vertices of an element. -/
def vertices (nodes : ℕ → ℕ → K) (e : List ℕ) : ℕ → ℕ → K := fun i => nodes (e.getD i 0)

/-- The values of a nodal field at the vertices of an element. -/
def valuesOn (e : List ℕ) (x : ℕ → K) : ℕ → K := fun i => x (e.getD i 0)

/-- Elements are rows of `d + 1` nodes with numbers below `N`. -/
def ValidElements (d N : ℕ) (elements : List (List ℕ)) : Prop :=
  ∀ e ∈ elements, e.length = d + 1 ∧ ∀ v ∈ e, v < N

/-- No triangle is degenerate. -/
def Nondegenerate2 (elements : List (List ℕ)) (nodes : ℕ → ℕ → K) : Prop :=
  ∀ e ∈ elements, det2 (vertices nodes e) ≠ 0

/-- No tetrahedron is degenerate. -/
def Nondegenerate3 (elements : List (List ℕ)) (nodes : ℕ → ℕ → K) : Prop :=
  ∀ e ∈ elements, det3 (vertices nodes e) ≠ 0

/-- The sum over all elements. -/
def sumElements (elements : List (List ℕ)) (f : ℕ → List ℕ → K) : K :=
  ∑ t ∈ Finset.range elements.length, f t (elements.getD t [])

/-- `xᵀ M y` for matrices of size `n × m`. -/
def form (n m : ℕ) (M : ℕ → ℕ → K) (x y : ℕ → K) : K :=
  ∑ p ∈ Finset.range n, ∑ q ∈ Finset.range m, x p * M p q * y q

/-- `G t` is the gradient of the nodal field `x` on element number `t`. -/
def FieldGradient (d : ℕ) (elements : List (List ℕ)) (nodes : ℕ → ℕ → K) (x : ℕ → K)
    (G : ℕ → ℕ → K) : Prop :=
  ∀ t < elements.length,
    IsGradient d (vertices nodes (elements.getD t [])) (valuesOn (elements.getD t []) x) (G t)

/-- Coordinate `a` of a vector field stored as `a * N + node`. -/
def component (N : ℕ) (x : ℕ → K) (a : ℕ) : ℕ → K := fun p => x (a * N + p)

end Conmech.Spec
