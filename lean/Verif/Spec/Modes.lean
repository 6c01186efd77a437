import Verif.Spec.Energy
import Mathlib.Logic.Function.Iterate
/-!
Specification for C121: free oscillations of a body. Nothing of the model is used.
-/
namespace Conmech.Spec

variable {K : Type} [Field K]

/-- A shape in which the body oscillates: outside of the supports its elastic forces are `κ` times its forces of
inertia, and its viscous forces are `γ` times them. -/
structure ModeOf (n : ℕ) (D : ℕ → Prop) (M A B : ℕ → ℕ → K) (κ γ : K) (φ : ℕ → K) : Prop where
  still : ∀ r < n, D r → φ r = 0
  elastic : ∀ r < n, ¬ D r → act n B φ r = κ * act n M φ r
  viscous : ∀ r < n, ¬ D r → act n A φ r = γ * act n M φ r

/-- One implicit step of the oscillator `q'' + γ q' + κ q = 0`, for the pair of the position and the velocity. -/
def oscillatorStep (κ γ dt : K) (x : K × K) : K × K :=
  (x.1 + dt * ((x.2 - dt * κ * x.1) / (1 + γ * dt + κ * dt ^ 2)),
    (x.2 - dt * κ * x.1) / (1 + γ * dt + κ * dt ^ 2))

/-- The energy of the oscillator. -/
def oscillatorEnergy (κ : K) (x : K × K) : K := x.2 ^ 2 + κ * x.1 ^ 2

/-- The sum of `m` shapes with the given amplitudes. -/
def superposed (m : ℕ) (φ : ℕ → ℕ → K) (c : ℕ → K) (r : ℕ) : K := ∑ i ∈ Finset.range m, c i * φ i r

end Conmech.Spec
