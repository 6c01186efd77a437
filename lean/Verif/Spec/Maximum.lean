import Verif.Spec.Solvable
import Verif.Spec.Assembly
/-
Specification for C98: angles of triangles and how small a time step may be.
-/
namespace Conmech.Spec

variable {K : Type _} [Field K]

/-- The scalar product of the two edges that leave the vertex `i` towards `j` and `k`: positive, zero or
negative as the angle at `i` is acute, right or obtuse. -/
def corner (X : ℕ → ℕ → K) (i j k : ℕ) : K :=
  (X j 0 - X i 0) * (X k 0 - X i 0) + (X j 1 - X i 1) * (X k 1 - X i 1)

/-- No angle of the triangle is obtuse. -/
def NonObtuse [LinearOrder K] (elements : List (List ℕ)) (nodes : ℕ → ℕ → K) : Prop :=
  ∀ e ∈ elements, 0 ≤ corner (vertices nodes e) 0 1 2 ∧ 0 ≤ corner (vertices nodes e) 1 2 0 ∧
    0 ≤ corner (vertices nodes e) 2 0 1

/-- The time step `dt` is not too short for the triangles: heat of the density `ρ` that is conducted
with the conductivity `κ` gets across every element in this time. -/
def LongEnough [LinearOrder K] (elements : List (List ℕ)) (nodes : ℕ → ℕ → K) (ρ κ dt : K) : Prop :=
  ∀ e ∈ elements,
    ρ * area (vertices nodes e) ^ 2 ≤ 3 * κ * dt * corner (vertices nodes e) 0 1 2 ∧
    ρ * area (vertices nodes e) ^ 2 ≤ 3 * κ * dt * corner (vertices nodes e) 1 2 0 ∧
    ρ * area (vertices nodes e) ^ 2 ≤ 3 * κ * dt * corner (vertices nodes e) 2 0 1

end Conmech.Spec
