import Verif.Spec.Assembly
import Mathlib.Algebra.BigOperators.Group.Finset.Basic
/-
Specification for C90: what it means to move, enlarge and renumber a mesh.
-/
namespace Conmech.Spec

variable {K : Type _} [Field K]

/-- The rows and the columns of `R` are orthonormal: a rotation or a reflection of the space of `d`
dimensions. -/
def Orthogonal (d : ℕ) (R : ℕ → ℕ → K) : Prop :=
  ∀ i < d, ∀ j < d, ∑ k ∈ Finset.range d, R k i * R k j = (if i = j then 1 else 0) ∧
    ∑ k ∈ Finset.range d, R i k * R j k = if i = j then 1 else 0

/-- The points after the rotation `R`, the enlargement by `c` and the translation by `a`. -/
def similar (d : ℕ) (c : K) (R : ℕ → ℕ → K) (a : ℕ → K) (nodes : ℕ → ℕ → K) : ℕ → ℕ → K :=
  fun p k => c * (∑ l ∈ Finset.range d, R k l * nodes p l) + a k

/-- The vectors of a nodal vector field after the rotation `R`; coordinate `b` of node `p` has the index
`b * N + p`. -/
def turned (d N : ℕ) (R : ℕ → ℕ → K) (u : ℕ → K) : ℕ → K :=
  fun r => ∑ b ∈ Finset.range d, R (r / N) b * u (b * N + r % N)

/-- The rows of the two lists have the same nodes, row by row, in another order: vertex `i` of the second
row is vertex `σ i` of the first. -/
def SameRows (n : ℕ) (elements elements' : List (List ℕ)) : Prop :=
  elements'.length = elements.length ∧ ∀ t < elements.length, ∃ σ : ℕ → ℕ,
    (∀ i < n, σ i < n) ∧ (∀ i < n, ∀ j < n, σ i = σ j → i = j) ∧
    ∀ i < n, (elements'.getD t []).getD i 0 = (elements.getD t []).getD (σ i) 0

end Conmech.Spec
