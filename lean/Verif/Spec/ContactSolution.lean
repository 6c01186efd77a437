import Verif.Spec.Cost
import Verif.Spec.Dirichlet
/-!
Specification for C89: the problem that optimisation solvers solve.
-/
namespace Conmech.Spec

variable {K : Type _} [Field K] [LinearOrder K]

/-- A vector of `n` unknowns at which the functional is least. -/
def Minimises (f : (ℕ → K) → K) (x : ℕ → K) : Prop := ∀ y, f x ≤ f y

/-- The functional has a minimiser, and all its minimisers have the same first `n` entries. -/
def UniqueMinimiser (n : ℕ) (f : (ℕ → K) → K) : Prop :=
  ∃ x, Minimises f x ∧ ∀ y, Minimises f y → ∀ i < n, y i = x i

/-- Forces do not do more work than the contact reaction takes up: a variational inequality. -/
def VariationalInequality (n : ℕ) (S : System K) (contact : (ℕ → K) → K) (x : ℕ → K) : Prop :=
  ∀ y, 0 ≤ ∑ r ∈ Finset.range n, (y r - x r) * (∑ s ∈ Finset.range n, S.lhs r s * x s - S.rhs r) +
    (contact y - contact x)

end Conmech.Spec
