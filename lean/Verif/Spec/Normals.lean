import Mathlib.Algebra.Field.Defs
import Mathlib.Algebra.Group.Prod
import Mathlib.Data.Multiset.Defs
import Mathlib.Data.Multiset.ZeroCons
import Mathlib.Order.Defs.LinearOrder
/-
Specification for C10.
-/
namespace Conmech.Spec

variable {K : Type _} [Field K] [LinearOrder K]

/-- `n` is the unit normal of the segment `a b` pointing away from `p`. -/
def OutwardUnitNormal2 (n a b p : K × K) : Prop :=
  n.1 * n.1 + n.2 * n.2 = 1 ∧
  n.1 * (b.1 - a.1) + n.2 * (b.2 - a.2) = 0 ∧
  n.1 * (p.1 - a.1) + n.2 * (p.2 - a.2) < 0

/-- `n` is the unit normal of the triangle `a b c` pointing away from `p`. -/
def OutwardUnitNormal3 (n a b c p : K × K × K) : Prop :=
  n.1 * n.1 + n.2.1 * n.2.1 + n.2.2 * n.2.2 = 1 ∧
  n.1 * (b.1 - a.1) + n.2.1 * (b.2.1 - a.2.1) + n.2.2 * (b.2.2 - a.2.2) = 0 ∧
  n.1 * (c.1 - a.1) + n.2.1 * (c.2.1 - a.2.1) + n.2.2 * (c.2.2 - a.2.2) = 0 ∧
  n.1 * (p.1 - a.1) + n.2.1 * (p.2.1 - a.2.1) + n.2.2 * (p.2.2 - a.2.2) < 0

/-- Twice the signed area of a triangle. -/
def area2 (a b c : K × K) : K := (b.1 - a.1) * (c.2 - a.2) - (b.2 - a.2) * (c.1 - a.1)

/-- Six times the signed volume of a tetrahedron. -/
def volume6 (a b c d : K × K × K) : K :=
  (b.1 - a.1) * ((c.2.1 - a.2.1) * (d.2.2 - a.2.2) - (c.2.2 - a.2.2) * (d.2.1 - a.2.1)) -
  (b.2.1 - a.2.1) * ((c.1 - a.1) * (d.2.2 - a.2.2) - (c.2.2 - a.2.2) * (d.1 - a.1)) +
  (b.2.2 - a.2.2) * ((c.1 - a.1) * (d.2.1 - a.2.1) - (c.2.1 - a.2.1) * (d.1 - a.1))

/-- A square root function on the nonnegative elements. -/
def IsSqrt (sqrt : K → K) : Prop := ∀ x, 0 ≤ x → 0 ≤ sqrt x ∧ sqrt x * sqrt x = x

/-- A triangle given by its vertices in any order is not degenerate. -/
def NonDegenerate2 (t : Multiset (Option (K × K))) : Prop :=
  ∀ a b c, t = {some a, some b, some c} → area2 a b c ≠ 0

/-- A tetrahedron given by its vertices in any order is not degenerate. -/
def NonDegenerate3 (t : Multiset (Option (K × K × K))) : Prop :=
  ∀ a b c d, t = {some a, some b, some c, some d} → volume6 a b c d ≠ 0

end Conmech.Spec
