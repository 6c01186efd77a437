import Mathlib.Algebra.BigOperators.Group.Finset.Basic
import Mathlib.Algebra.Field.Defs
import Mathlib.Order.Defs.LinearOrder
/-
Specification for C92 and C93.
-/
namespace Conmech.Spec

variable {K : Type} [Field K] [LinearOrder K]

/-- The square of the distance of two points of `dim`-dimensional space after projection along an axis. -/
def offAxisSq (dim axis : ℕ) (a b : ℕ → K) : K :=
  ∑ c ∈ (Finset.range dim).erase axis, (a c - b c) ^ 2

/-- The pair of nodes `i` and `j` is directed along the axis, and no other pair of nodes is closer to be
parallel to it. -/
def IsSeed (dim axis : ℕ) (nodes : List (ℕ → K)) (i j : ℕ) : Prop :=
  ∃ (hi : i < nodes.length) (hj : j < nodes.length), i ≠ j ∧ nodes[i] axis ≤ nodes[j] axis ∧
    ∀ (p q : ℕ) (hp : p < nodes.length) (hq : q < nodes.length), p ≠ q →
      offAxisSq dim axis nodes[i] nodes[j] ≤ offAxisSq dim axis nodes[p] nodes[q]

/-- The number of cells of a type with given corners in the blocks of a file. -/
def countCells (blocks : List (String × List (List ℕ))) (kind : String) (cell : List ℕ) : ℕ :=
  (blocks.map fun b => if b.1 = kind then b.2.count cell else 0).sum

/-- The square of twice the area of the triangle `a b c` in space. -/
def areaSq3 (a b c : ℕ → K) : K :=
  ((b 1 - a 1) * (c 2 - a 2) - (b 2 - a 2) * (c 1 - a 1)) ^ 2 +
    ((b 2 - a 2) * (c 0 - a 0) - (b 0 - a 0) * (c 2 - a 2)) ^ 2 +
    ((b 0 - a 0) * (c 1 - a 1) - (b 1 - a 1) * (c 0 - a 0)) ^ 2

/-- The square of twice the area of the triangle `a b c` in the plane. -/
def areaSq2 (a b c : ℕ → K) : K :=
  ((b 0 - a 0) * (c 1 - a 1) - (b 1 - a 1) * (c 0 - a 0)) ^ 2

end Conmech.Spec
