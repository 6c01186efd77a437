import Verif.Spec.Dirichlet
/-
Specification for C34, C35: a matrix of `n` columns acting on a vector.
-/
namespace Conmech.Spec

/-- `(A x)_r` -/
def act {K : Type _} [Field K] (n : ℕ) (A : ℕ → ℕ → K) (x : ℕ → K) (r : ℕ) : K :=
  ∑ s ∈ Finset.range n, A r s * x s

end Conmech.Spec
