import Verif.Spec.Solvers
import Verif.Spec.Energy
/-
Specification for C99: equilibrium under loads, and the reactions of the supports.
-/
namespace Conmech.Spec

variable {K : Type _} [Field K]

/-- `u` takes the values `g` on the supports `D` and balances the loads `f` everywhere else. -/
structure BalancedField (n : ℕ) (A : ℕ → ℕ → K) (D : ℕ → Prop) (g f u : ℕ → K) : Prop where
  values : ∀ r < n, D r → u r = g r
  balance : ∀ r < n, ¬ D r → act n A u r = f r

/-- The forces which the supports have to provide. -/
def reaction (n : ℕ) (A : ℕ → ℕ → K) (f u : ℕ → K) (r : ℕ) : K := act n A u r - f r

/-- The work of the loads `f` along `u`. -/
def work (n : ℕ) (f u : ℕ → K) : K := ∑ r ∈ Finset.range n, f r * u r

end Conmech.Spec
