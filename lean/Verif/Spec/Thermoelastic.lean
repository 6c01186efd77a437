import Verif.Spec.Motion
/-!
Specification for C116: motions of thermoelastic bodies in continuous time, time steps in which both
fields are found together, and how strongly the fields are coupled.
-/
namespace Conmech.Spec

/-- A thermoelastic body: `n` degrees of freedom of the displacement, of which those in `D` are held, `N`
of the temperature, of which those in `D'` are kept at zero; masses, viscosity, elasticity, heat capacity,
conductivity, and the thermal expansion, which turns velocities into heat and temperatures into
forces; the potentials of contact and of heat exchange. -/
structure ThermalBody where
  n : ℕ
  N : ℕ
  D : ℕ → Prop
  D' : ℕ → Prop
  mass : ℕ → ℕ → ℝ
  viscosity : ℕ → ℕ → ℝ
  elasticity : ℕ → ℕ → ℝ
  capacity : ℕ → ℕ → ℝ
  conductivity : ℕ → ℕ → ℝ
  expansion : ℕ → ℕ → ℝ
  contact : (ℕ → ℝ) → ℝ
  exchange : (ℕ → ℝ) → ℝ

namespace ThermalBody
variable (b : ThermalBody)

/-- The forces of the temperature `θ`. -/
noncomputable def thermalForce (θ : ℕ → ℝ) : ℕ → ℝ := act b.N (fun r p => b.expansion p r) θ

/-- The power that the temperature `θ` exchanges with the velocity `v`. -/
noncomputable def power (θ v : ℕ → ℝ) : ℝ := ∑ p ∈ Finset.range b.N, θ p * act b.n b.expansion v p

/-- The equation of motion at a moment, with the loads `f` and the temperature `θ`. -/
def Moves (f θ u v a : ℕ → ℝ) : Prop :=
  Balanced b.n b.D b.mass b.viscosity b.elasticity b.contact (fun r => f r + b.thermalForce θ r) u v a

/-- The heat equation at a moment, with the velocity `v` and the rate `η` of the temperature `θ`: what is
stored, conducted away and bound by the deformation is balanced by the exchange of heat. -/
def Heats (v θ η : ℕ → ℝ) : Prop :=
  ∀ ζ, Still b.N b.D' ζ → 0 ≤ ∑ p ∈ Finset.range b.N, (ζ p - θ p) *
    (act b.N b.capacity η p + act b.N b.conductivity θ p + act b.n b.expansion v p) +
    (b.exchange ζ - b.exchange θ)

/-- A motion between the times `0` and `T` in continuous time. -/
structure Motion (f : ℝ → ℕ → ℝ) (T : ℝ) (u v a θ η : ℝ → ℕ → ℝ) : Prop where
  velocity : ∀ t ∈ Set.Icc 0 T, ∀ r < b.n, HasDerivWithinAt (fun s => u s r) (v t r) (Set.Icc 0 T) t
  acceleration : ∀ t ∈ Set.Icc 0 T, ∀ r < b.n,
    HasDerivWithinAt (fun s => v s r) (a t r) (Set.Icc 0 T) t
  rate : ∀ t ∈ Set.Icc 0 T, ∀ p < b.N, HasDerivWithinAt (fun s => θ s p) (η t p) (Set.Icc 0 T) t
  held : ∀ t ∈ Set.Icc 0 T, Still b.n b.D (v t)
  kept : ∀ t ∈ Set.Icc 0 T, Still b.N b.D' (θ t)
  moves : ∀ t ∈ Set.Icc 0 T, b.Moves (f t) (θ t) (u t) (v t) (a t)
  heats : ∀ t ∈ Set.Icc 0 T, b.Heats (v t) (θ t) (η t)

/-- Half a time step of length `τ` from `u`, `v`, `θ`: the velocity `w` belongs to the temperature `x`, the
temperature `y` to the velocity `w`. If `y = x`, both fields have been found together. -/
structure Pass (f : ℕ → ℝ) (τ : ℝ) (u v θ x w y : ℕ → ℝ) : Prop where
  held : Still b.n b.D w
  kept : Still b.N b.D' y
  moves : b.Moves f x (fun i => u i + τ * w i) w fun i => (w i - v i) / τ
  heats : b.Heats w y fun p => (y p - θ p) / τ

/-- Twice the energy of a change `x` of the velocity in a time step of length `τ`. -/
noncomputable def stepEnergy (τ : ℝ) (x : ℕ → ℝ) : ℝ :=
  quad b.n b.mass x / τ + quad b.n b.viscosity x + τ * quad b.n b.elasticity x

/-- The same for a change `y` of the temperature. -/
noncomputable def stepHeat (τ : ℝ) (y : ℕ → ℝ) : ℝ := quad b.N b.capacity y / τ + quad b.N b.conductivity y

/-- The coupling of the fields in a time step of length `τ` is at most `q`. -/
def Coupling (τ q : ℝ) : Prop :=
  ∀ x y, Still b.n b.D x → Still b.N b.D' y → b.power y x ^ 2 ≤ q * b.stepEnergy τ x * b.stepHeat τ y

/-- How far two states are apart: the square root of twice the stored and kinetic energy and the energy of
the temperature of their difference. -/
noncomputable def distance (u v θ u' v' θ' : ℕ → ℝ) : ℝ :=
  Real.sqrt (quad b.n b.elasticity (fun i => u i - u' i) + quad b.n b.mass (fun i => v i - v' i) +
    quad b.N b.capacity (fun p => θ p - θ' p))

/-- What is known about the operators of a body. -/
structure Sound : Prop where
  mass : StoresEnergy b.n b.mass
  massive : DefiniteOn b.n b.D b.mass
  viscosity : Dissipates b.n b.viscosity
  elasticity : StoresEnergy b.n b.elasticity
  capacity : StoresEnergy b.N b.capacity
  capacious : DefiniteOn b.N b.D' b.capacity
  conductivity : Dissipates b.N b.conductivity
  contact : ∃ g k, 0 ≤ k ∧ SmoothContact b.n b.contact g k
  exchange : ∃ g k, 0 ≤ k ∧ SmoothContact b.N b.exchange g k

end ThermalBody
end Conmech.Spec
