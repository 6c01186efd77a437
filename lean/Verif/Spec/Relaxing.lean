import Verif.Spec.Creep
import Verif.Spec.Cost
import Mathlib.MeasureTheory.Integral.IntervalIntegral.Basic
/-!
Specification for C115: displacements of a body with long memory in continuous time.
-/
namespace Conmech.Spec

/-- A history of displacements from time 0 to `T`: at every moment the elastic forces, the relaxation forces
and the loads are balanced by contact with the potential `J` and by the supports. The relaxation forces
belong to the integral of the displacement over the past; `b₀` is what it was at time 0. -/
structure Relaxing (n : ℕ) (D : ℕ → Prop) (E R : ℕ → ℕ → ℝ) (J : (ℕ → ℝ) → ℝ) (f : ℝ → ℕ → ℝ) (T : ℝ)
    (b₀ : ℕ → ℝ) (u : ℝ → ℕ → ℝ) : Prop where
  continuous : ∀ r < n, ContinuousOn (fun t => u t r) (Set.Icc 0 T)
  held : ∀ t ∈ Set.Icc 0 T, Still n D (u t)
  balanced : ∀ t ∈ Set.Icc 0 T, ∀ y, Still n D y → 0 ≤ ∑ r ∈ Finset.range n,
    (y r - u t r) * (act n E (u t) r + act n R (fun i => b₀ i + ∫ s in (0 : ℝ)..t, u s i) r - f t r) +
      (J y - J (u t))

/-- A history of displacements without contact where the forces of former displacements depend on how long ago
they were: a displacement of age `t` counts with `R t`. -/
structure Fading (n : ℕ) (D : ℕ → Prop) (E : ℕ → ℕ → ℝ) (R : ℝ → ℕ → ℕ → ℝ) (f : ℝ → ℕ → ℝ) (T : ℝ)
    (u : ℝ → ℕ → ℝ) : Prop where
  continuous : ∀ r < n, ContinuousOn (fun t => u t r) (Set.Icc 0 T)
  held : ∀ t ∈ Set.Icc 0 T, Still n D (u t)
  balanced : ∀ t ∈ Set.Icc 0 T, ∀ r < n, ¬ D r →
    act n E (u t) r + ∫ s in (0 : ℝ)..t, act n (R (t - s)) (u s) r = f t r

/-- The contact law does not depend on former displacements nor on the time step. -/
def Instantaneous {K : Type _} (c : Conditions K) : Prop :=
  ∀ x sn sn' dt dt', c.normal x sn dt = c.normal x sn' dt' ∧ c.normalBound x sn dt = c.normalBound x sn' dt' ∧
    c.tangentialBound x sn dt = c.tangentialBound x sn' dt' ∧
    ∀ y st st', c.tangential y st dt = c.tangential y st' dt'

end Conmech.Spec
