import Verif.Spec.Energy
/-!
What C94 and C95 speak of: the heat of a body, the heat bound by its deformation, the charge at the
nodes and the total energy of a thermoelastic body.
-/
namespace Conmech.Spec

variable {K : Type} [Field K]

/-- The heat content weighted with the field `z`: `zᵀMθ + zᵀEu`, the sensible heat of the temperature
`θ` and the heat bound by the displacement `u`. For `z = 1` it is the heat of the whole body. -/
def heat (N dim : ℕ) (M E : ℕ → ℕ → K) (z θ u : ℕ → K) : K :=
  ∑ p ∈ Finset.range N, z p * (∑ q ∈ Finset.range N, M p q * θ q + ∑ s ∈ Finset.range (dim * N), E p s * u s)

/-- The charge of node `p` in the potential `φ` and displacement `u`: `βφ - Pu`. -/
def charge (N dim : ℕ) (β P : ℕ → ℕ → K) (φ u : ℕ → K) (p : ℕ) : K :=
  ∑ q ∈ Finset.range N, β p q * φ q - ∑ s ∈ Finset.range (dim * N), P p s * u s

/-- The total of mechanical energy and the energy `½θᵀMθ` of the temperature. -/
def totalEnergy (N dim : ℕ) (M B : ℕ → ℕ → K) (f u v θ : ℕ → K) : K :=
  mechanicalEnergy (dim * N) M B f u v + 1 / 2 * quad N M θ

/-- The power `θᵀEv` exchanged between temperature and motion. -/
def exchange (N dim : ℕ) (E : ℕ → ℕ → K) (θ v : ℕ → K) : K :=
  ∑ p ∈ Finset.range N, θ p * ∑ s ∈ Finset.range (dim * N), E p s * v s

end Conmech.Spec
