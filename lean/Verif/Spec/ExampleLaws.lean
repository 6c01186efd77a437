import Mathlib.Algebra.BigOperators.Group.Finset.Basic
import Mathlib.Order.Monotone.Basic
import Mathlib.Algebra.Order.Field.Basic
/-!
The response of a stack of layers, stated without the code.
-/
namespace Conmech.Spec

/-- No response before the first of `count` levels; between two consecutive levels the response goes
linearly from `alpha` of the lower level to `beta` of the upper one (reached at the level itself); after
the last level it is constant. -/
structure LayeredResponse {K : Type _} [Field K] [LinearOrder K] (count : ℕ) (level alpha beta : ℕ → K)
    (response : K → K) : Prop where
  before : ∀ v, v ≤ level 0 → response v = 0
  between : ∀ n, n + 1 < count → ∀ v, level n < v → v ≤ level (n + 1) →
    response v = alpha n + (beta (n + 1) - alpha n) * ((v - level n) / (level (n + 1) - level n))
  after : ∀ v, level (count - 1) < v → response v = alpha (count - 1)

/-- How much a layered response falls up to `v`: where it goes down between two levels, and where it jumps
down at a level from `beta` (zero at the first level) to `alpha`. -/
def fallUntil {K : Type _} [Field K] [LinearOrder K] (count : ℕ) (level alpha beta : ℕ → K) (v : K) : K :=
  (∑ n ∈ Finset.range count,
    if level n < v then max 0 ((if n = 0 then 0 else beta n) - alpha n) else 0) +
  ∑ n ∈ Finset.range (count - 1),
    max 0 (alpha n - beta (n + 1)) *
      ((min (max v (level n)) (level (n + 1)) - level n) / (level (n + 1) - level n))

/-- On `S` the response is the difference of two responses that never decrease, `response + second` and
`second`: the potential is a difference of convex ones. -/
def SplitsOn {K : Type _} [Field K] [LinearOrder K] (response second : K → K) (S : Set K) : Prop :=
  MonotoneOn second S ∧ MonotoneOn (fun v => response v + second v) S

end Conmech.Spec
