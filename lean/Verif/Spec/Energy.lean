import Verif.Spec.Statement
/-
Specification for C71-C75: mechanical energy, momentum, and what is asked of one solution step.
-/
namespace Conmech.Spec

variable {K : Type _} [Field K]

/-- Kinetic energy plus stored energy minus the work of the loads `f`, for the displacement `u` and the
velocity `v`: `½ vᵀMv + ½ uᵀBu - fᵀu`. -/
def mechanicalEnergy (n : ℕ) (M B : ℕ → ℕ → K) (f u v : ℕ → K) : K :=
  1 / 2 * quad n M v + 1 / 2 * quad n B u - ∑ r ∈ Finset.range n, f r * u r

/-- The momentum of the velocity `v` in the direction of the field `w`: `wᵀMv`. -/
def momentum (n : ℕ) (M : ℕ → ℕ → K) (w v : ℕ → K) : K :=
  ∑ r ∈ Finset.range n, w r * act n M v r

/-- The quadratic form of the matrix is nonnegative. -/
structure Dissipates [LinearOrder K] (n : ℕ) (A : ℕ → ℕ → K) : Prop where
  nonneg : ∀ x, 0 ≤ quad n A x

/-- The matrix is symmetric and its quadratic form nonnegative. -/
structure StoresEnergy [LinearOrder K] (n : ℕ) (A : ℕ → ℕ → K) : Prop where
  symm : ∀ r < n, ∀ s < n, A r s = A s r
  nonneg : ∀ x, 0 ≤ quad n A x

/-- The residual forces of `x` in the system, which contact has to provide, do no positive work on
`x`; exact solutions of the system have none. -/
def Passive [LinearOrder K] (n : ℕ) (S : System K) (x : ℕ → K) : Prop :=
  ∑ r ∈ Finset.range n, x r * (∑ s ∈ Finset.range n, S.lhs r s * x s - S.rhs r) ≤ 0

/-- `x` minimises the energy of the system plus the cost `J` among the vectors that vanish on `D`. -/
def MinimisesWith [LinearOrder K] (n : ℕ) (D : ℕ → Prop) (S : System K) (J : (ℕ → K) → K)
    (x : ℕ → K) : Prop :=
  (∀ r < n, D r → x r = 0) ∧
  ∀ y : ℕ → K, (∀ r < n, D r → y r = 0) → energy n S x + J x ≤ energy n S y + J y

/-- A cost which does not grow when the motion is slowed down. -/
def GrowsWithSpeed [LinearOrder K] (J : (ℕ → K) → K) : Prop :=
  ∀ x t, 0 ≤ t → t ≤ 1 → J (fun i => t * x i) ≤ J x

/-- The operator exerts no force in the direction of the field `w`: `wᵀA = 0`. -/
def Unresisted (n : ℕ) (A : ℕ → ℕ → K) (w : ℕ → K) : Prop :=
  ∀ s < n, ∑ r ∈ Finset.range n, w r * A r s = 0

/-- Only zero, among the vectors that vanish on `D`, has no energy. -/
def DefiniteOn (n : ℕ) (D : ℕ → Prop) (A : ℕ → ℕ → K) : Prop :=
  ∀ x, (∀ r < n, D r → x r = 0) → quad n A x = 0 → ∀ r < n, x r = 0

/-- At rest and in equilibrium with the loads `f`, up to reactions on `D`. -/
structure AtRest (n : ℕ) (D : ℕ → Prop) (B : ℕ → ℕ → K) (f u v : ℕ → K) : Prop where
  equilibrium : ∀ r < n, ¬ D r → act n B u r = f r
  velocity : ∀ r < n, v r = 0

end Conmech.Spec
