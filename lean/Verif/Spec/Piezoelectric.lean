import Verif.Spec.Motion
import Verif.Spec.Cost
/-!
Specification for C117: quasistatic motions of piezoelectric bodies in continuous time, time steps in which
displacement and potential are found together, and how strongly they are coupled.
-/
namespace Conmech.Spec

/-- A piezoelectric body: `n` degrees of freedom of the displacement, of which those in `D` are held, `N`
of the electric potential, of which those in `D'`, the electrodes, have the values `prescribed`; viscosity,
elasticity, permittivity, the piezoelectric coupling, which turns displacements into charges and
potentials into forces, and the potential of contact. -/
structure PiezoBody where
  n : ℕ
  N : ℕ
  D : ℕ → Prop
  D' : ℕ → Prop
  prescribed : ℕ → ℝ
  viscosity : ℕ → ℕ → ℝ
  elasticity : ℕ → ℕ → ℝ
  permittivity : ℕ → ℕ → ℝ
  coupling : ℕ → ℕ → ℝ
  contact : (ℕ → ℝ) → ℝ

namespace PiezoBody
variable (b : PiezoBody)

/-- The work of the charges of the displacement `u` in the potential `φ`. -/
noncomputable def work (φ u : ℕ → ℝ) : ℝ := ∑ p ∈ Finset.range b.N, φ p * act b.n b.coupling u p

/-- The potential `φ` belongs to the displacement `u`: the electrodes have their prescribed values, and the
other nodes carry no charge. -/
structure Charged (u φ : ℕ → ℝ) : Prop where
  electrodes : ∀ p < b.N, b.D' p → φ p = b.prescribed p
  free : ∀ p < b.N, ¬ b.D' p → act b.N b.permittivity φ p = act b.n b.coupling u p

/-- The balance of forces at a moment, with the loads `f`, displacement `u`, velocity `v` and potential
`φ`. -/
def Moves (f φ u v : ℕ → ℝ) : Prop :=
  ∀ y, Still b.n b.D y → 0 ≤ ∑ r ∈ Finset.range b.n, (y r - v r) *
    (act b.n b.viscosity v r + act b.n b.elasticity u r + act b.N (fun r p => b.coupling p r) φ r - f r) +
    (b.contact y - b.contact v)

/-- A quasistatic motion between the times `0` and `T` in continuous time. -/
structure Motion (f : ℝ → ℕ → ℝ) (T : ℝ) (u v φ : ℝ → ℕ → ℝ) : Prop where
  velocity : ∀ t ∈ Set.Icc 0 T, ∀ r < b.n, HasDerivWithinAt (fun s => u s r) (v t r) (Set.Icc 0 T) t
  held : ∀ t ∈ Set.Icc 0 T, Still b.n b.D (v t)
  moves : ∀ t ∈ Set.Icc 0 T, b.Moves (f t) (φ t) (u t) (v t)
  charged : ∀ t ∈ Set.Icc 0 T, b.Charged (u t) (φ t)

/-- Half a time step of length `τ` from the displacement `u`: the velocity `w` belongs to the potential `x`,
the potential `y` to the displacement that `w` leads to. If `y = x`, both have been found together. -/
structure Pass (f : ℕ → ℝ) (τ : ℝ) (u x w y : ℕ → ℝ) : Prop where
  held : Still b.n b.D w
  moves : b.Moves f x (fun i => u i + τ * w i) w
  charged : b.Charged (fun i => u i + τ * w i) y

/-- What a change `x` of the velocity costs in a time step of length `τ`: the power of the viscous and the
additional elastic forces. -/
noncomputable def stepPower (τ : ℝ) (x : ℕ → ℝ) : ℝ :=
  quad b.n b.viscosity x + τ * quad b.n b.elasticity x

/-- The coupling of displacement and potential in a time step of length `τ` is at most `q`. -/
def Coupling (τ q : ℝ) : Prop :=
  ∀ x y, Still b.n b.D x → Still b.N b.D' y →
    τ * b.work y x ^ 2 ≤ q * b.stepPower τ x * quad b.N b.permittivity y

/-- How far two states are apart: the square root of twice the elastic and electric energy of their
difference. -/
noncomputable def distance (u φ u' φ' : ℕ → ℝ) : ℝ :=
  Real.sqrt (quad b.n b.elasticity (fun i => u i - u' i) + quad b.N b.permittivity (fun p => φ p - φ' p))

/-- What is known about the operators of a body. -/
structure Sound : Prop where
  viscosity : StoresEnergy b.n b.viscosity
  viscous : DefiniteOn b.n b.D b.viscosity
  elasticity : StoresEnergy b.n b.elasticity
  permittivity : StoresEnergy b.N b.permittivity
  grounded : DefiniteOn b.N b.D' b.permittivity
  convex : ConvexVec b.contact
  contact : ∀ x y, (∀ r < b.n, x r = y r) → b.contact x = b.contact y

end PiezoBody
end Conmech.Spec
