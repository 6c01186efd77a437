import Mathlib.Algebra.BigOperators.Group.Finset.Basic
import Mathlib.Algebra.Field.Basic
/-!
Contact in the interior of a body (a membrane over an obstacle): every node can touch the obstacle.
-/
namespace Conmech.Spec

variable {K : Type _} [Field K]

/-- The weight of a node: the sum of its column of the volume matrix. -/
def nodeWeight (n : ℕ) (V : ℕ → ℕ → K) (j : ℕ) : K := ∑ i ∈ Finset.range n, V i j

/-- The contact energy: the values of the potential at the nodes, integrated over the body. -/
def interiorContact (n : ℕ) (V : ℕ → ℕ → K) (potential : ℕ → K → K) (x : ℕ → K) : K :=
  ∑ j ∈ Finset.range n, nodeWeight n V j * potential j (x j)

/-- Balance of forces at all nodes, given the reaction of the obstacle per unit of weight. -/
def InBalance (n : ℕ) (A : ℕ → ℕ → K) (b : ℕ → K) (V : ℕ → ℕ → K) (reaction : ℕ → K) (x : ℕ → K) : Prop :=
  ∀ j < n, ∑ k ∈ Finset.range n, A j k * x k + nodeWeight n V j * reaction j = b j

end Conmech.Spec
