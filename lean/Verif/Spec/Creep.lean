import Verif.Spec.Motion
/-!
Specification for C106: quasistatic motions in continuous time, where inertia is left out.
-/
namespace Conmech.Spec

/-- The distance of two displacements, the square root of twice the stored energy of their difference. -/
noncomputable def strainDistance (n : ℕ) (B : ℕ → ℕ → ℝ) (u u' : ℕ → ℝ) : ℝ :=
  Real.sqrt (quad n B fun i => u i - u' i)

/-- A quasistatic motion between the times `t₀` and `t₁`: viscous and elastic forces and the loads are
balanced by contact with the potential `J` and by the supports. -/
structure Creep (n : ℕ) (D : ℕ → Prop) (A B : ℕ → ℕ → ℝ) (J : (ℕ → ℝ) → ℝ) (f : ℝ → ℕ → ℝ)
    (t₀ t₁ : ℝ) (u v : ℝ → ℕ → ℝ) : Prop where
  velocity : ∀ t ∈ Set.Icc t₀ t₁, ∀ r < n,
    HasDerivWithinAt (fun s => u s r) (v t r) (Set.Icc t₀ t₁) t
  held : ∀ t ∈ Set.Icc t₀ t₁, Still n D (v t)
  balanced : ∀ t ∈ Set.Icc t₀ t₁, ∀ y, Still n D y → 0 ≤ ∑ r ∈ Finset.range n,
    (y r - v t r) * (act n A (v t) r + act n B (u t) r - f t r) + (J y - J (v t))

/-- How fast velocities and loads change at most: the velocities in the norm of the stored energy, the
loads in the norm dual to that of the dissipation. -/
structure ModerateCreep (n : ℕ) (D : ℕ → Prop) (A B : ℕ → ℕ → ℝ) (f : ℝ → ℕ → ℝ) (t₀ t₁ : ℝ)
    (v : ℝ → ℕ → ℝ) (cv cf : ℝ) : Prop where
  nonneg : 0 ≤ cv ∧ 0 ≤ cf
  velocity : ∀ s ∈ Set.Icc t₀ t₁, ∀ t ∈ Set.Icc t₀ t₁,
    quad n B (fun i => v s i - v t i) ≤ (cv * (s - t)) ^ 2
  loads : ∀ s ∈ Set.Icc t₀ t₁, ∀ t ∈ Set.Icc t₀ t₁, ∀ x, Still n D x →
    (∑ r ∈ Finset.range n, x r * (f s r - f t r)) ^ 2 ≤ (cf * (s - t)) ^ 2 * quad n A x

end Conmech.Spec
