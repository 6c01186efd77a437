import Verif.Model.Dirichlet
import Verif.Spec.BoundaryIndices
/-
Specification of Dirichlet conditions for C12-C16.
-/
namespace Conmech.Spec

variable {K : Type _} [Field K]

/-- Some boundary prescribes the value `v` at the degree of freedom `x`: `x` is coordinate `d` of its
`j`-th node and `v` is the `j`-th entry of its condition. -/
def Prescribed (N dim : ℕ) (bs : List (CondBoundary K)) (x : ℕ) (v : K) : Prop :=
  ∃ b ∈ bs, ∃ d < dim, ∃ j node : ℕ, (nodesOf b.indices)[j]? = some node ∧ x = d * N + node ∧
    v = b.condition j

/-- `D` is the set of constrained degrees of freedom and `g` gives their values; in particular no
degree of freedom is given two different values. -/
structure DirichletData (N dim : ℕ) (bs : List (CondBoundary K)) (D : ℕ → Prop) (g : ℕ → K) :
    Prop where
  dofs : ∀ x, D x ↔ ∃ v, Prescribed N dim bs x v
  values : ∀ x v, Prescribed N dim bs x v → v = g x

/-- All boundaries refer to nodes of the mesh and none is given as an empty list. -/
def ValidBoundaries (N : ℕ) (bs : List (CondBoundary K)) : Prop :=
  ∀ b ∈ bs, (∀ v ∈ nodesOf b.indices, v < N) ∧ ∀ i, b.indices = .list i → i ≠ []

/-- The `r`-th equation of a linear system of size `n`. -/
def Row (n : ℕ) (S : System K) (x : ℕ → K) (r : ℕ) : Prop :=
  ∑ s ∈ Finset.range n, S.lhs r s * x s = S.rhs r

/-- `x` solves the linear system of size `n`. -/
def Solves (n : ℕ) (S : System K) (x : ℕ → K) : Prop := ∀ r < n, Row n S x r

/-- The quadratic form of the matrix. -/
def quad (n : ℕ) (A : ℕ → ℕ → K) (x : ℕ → K) : K :=
  ∑ r ∈ Finset.range n, x r * ∑ s ∈ Finset.range n, A r s * x s

/-- The energy `½ xᵀAx - bᵀx`. -/
def energy (n : ℕ) (S : System K) (x : ℕ → K) : K :=
  1 / 2 * quad n S.lhs x - ∑ r ∈ Finset.range n, S.rhs r * x r

end Conmech.Spec
