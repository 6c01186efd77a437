import Verif.Spec.Dirichlet
import Mathlib.Order.Interval.Finset.Nat
/-
Specification for C17-C20: degrees of freedom are numbered `coordinate * N + node`, the nodes below
`C` are contact nodes, the others are free.
-/
namespace Conmech.Spec

variable {K : Type _} [Field K]

/-- `A` and `B` are inverse matrices of size `n`. -/
def IsInverse (n : ℕ) (A B : ℕ → ℕ → K) : Prop :=
  (∀ i < n, ∀ j < n, ∑ k ∈ Finset.range n, A i k * B k j = if i = j then 1 else 0) ∧
  (∀ i < n, ∀ j < n, ∑ k ∈ Finset.range n, B i k * A k j = if i = j then 1 else 0)

/-- The contract of `np.linalg.inv`: an inverse is returned whenever there is one. -/
def InvContract (inv : ℕ → (ℕ → ℕ → K) → ℕ → ℕ → K) : Prop :=
  ∀ n A, (∃ B, IsInverse n A B) → IsInverse n A (inv n A)

/-- `B` is inverse to the block of `A` that belongs to the degrees of freedom of the free nodes. -/
def FreeBlockInverse (N C dim : ℕ) (A B : ℕ → ℕ → K) : Prop :=
  (∀ d < dim, ∀ i, C ≤ i → i < N → ∀ e < dim, ∀ j, C ≤ j → j < N →
    ∑ h ∈ Finset.range dim, ∑ k ∈ Finset.Ico C N, A (d * N + i) (h * N + k) * B (h * N + k) (e * N + j)
      = if d = e ∧ i = j then 1 else 0) ∧
  (∀ d < dim, ∀ i, C ≤ i → i < N → ∀ e < dim, ∀ j, C ≤ j → j < N →
    ∑ h ∈ Finset.range dim, ∑ k ∈ Finset.Ico C N, B (d * N + i) (h * N + k) * A (h * N + k) (e * N + j)
      = if d = e ∧ i = j then 1 else 0)

/-- `xc` holds the entries of `x` that belong to contact nodes. -/
def IsContactPart (N C dim : ℕ) (xc x : ℕ → K) : Prop :=
  ∀ d < dim, ∀ i < C, xc (d * C + i) = x (d * N + i)

end Conmech.Spec
