import Verif.Spec.Invariance
/-!
Specification for C125: units of measurement.
-/
namespace Conmech.Spec

/-- How many of the new units of length, time and mass make up one of the old ones. -/
structure UnitChange (K : Type) where
  length : K
  time : K
  mass : K

namespace UnitChange
variable {K : Type} [Field K] (c : UnitChange K)

/-- The factor for velocities. -/
def speed : K := c.length / c.time

/-- The factor for forces. -/
def force : K := c.mass * c.length / c.time ^ 2

/-- The factor for densities in `d` dimensions. -/
def density (d : ℕ) : K := c.mass / c.length ^ d

/-- The factor for moduli of elasticity, forces per area, in `d` dimensions. -/
def modulus (d : ℕ) : K := c.force / c.length ^ (d - 1)

/-- The factor for coefficients of viscosity in `d` dimensions. -/
def viscosity (d : ℕ) : K := c.modulus d * c.time

/-- The coordinates of the nodes in the new units. -/
def nodes (d : ℕ) (x : ℕ → ℕ → K) : ℕ → ℕ → K :=
  similar d c.length (fun k l => if k = l then 1 else 0) (fun _ => 0) x

end UnitChange

end Conmech.Spec
