import Verif.Spec.Energy
import Verif.Spec.Invariance
import Verif.Spec.Assembly
/-!
Specification for C124: the fields of one body carried over to another one.
-/
namespace Conmech.Spec

variable {K : Type _} [Field K]

/-- `T` carries the fields of a body with the constrained degrees of freedom `D` to those of a body with the
constrained degrees of freedom `D'`. -/
structure CarriesFields (n : ℕ) (D D' : ℕ → Prop) (T : (ℕ → K) → ℕ → K) : Prop where
  on : ∀ x y : ℕ → K, (∀ r < n, x r = y r) → ∀ r < n, T x r = T y r
  linear : ∀ (a b : K) (x y : ℕ → K), ∀ r < n, T (fun i => a * x i + b * y i) r = a * T x r + b * T y r
  held : ∀ x : ℕ → K, (∀ r < n, D r → x r = 0) → ∀ r < n, D' r → T x r = 0
  onto : ∀ y : ℕ → K, (∀ r < n, D' r → y r = 0) →
    ∃ x : ℕ → K, (∀ r < n, D r → x r = 0) ∧ ∀ r < n, T x r = y r

/-- The forms of the two matrices have the same values at corresponding fields. -/
def SameForm (n : ℕ) (T : (ℕ → K) → ℕ → K) (A A' : ℕ → ℕ → K) : Prop :=
  ∀ x y, form n n A' (T x) (T y) = form n n A x y

/-- The loads do the same work on corresponding fields. -/
def SameWork (n : ℕ) (T : (ℕ → K) → ℕ → K) (f f' : ℕ → K) : Prop :=
  ∀ x, ∑ r ∈ Finset.range n, T x r * f' r = ∑ r ∈ Finset.range n, x r * f r

/-- The values at the nodes after renumbering: node `p` of the second body is node `σ p` of the first. -/
def renumbered (N : ℕ) (σ : ℕ → ℕ) (u : ℕ → K) : ℕ → K := fun r => u (r / N * N + σ (r % N))

end Conmech.Spec
