import Verif.Spec.Energy
import Mathlib.Analysis.Calculus.Deriv.Basic
import Mathlib.Analysis.Real.Sqrt
/-!
Specification for C105: motions in continuous time, and how far two motions are apart.
-/
namespace Conmech.Spec

/-- How far two states, given by displacement and velocity, are apart: the square root of twice the
stored and kinetic energy of their difference. -/
noncomputable def energyDistance (n : ℕ) (M B : ℕ → ℕ → ℝ) (u v u' v' : ℕ → ℝ) : ℝ :=
  Real.sqrt (quad n B (fun i => u i - u' i) + quad n M (fun i => v i - v' i))

/-- The vector vanishes on the supports. -/
def Still (n : ℕ) (D : ℕ → Prop) (x : ℕ → ℝ) : Prop := ∀ r < n, D r → x r = 0

/-- The equation of motion with the acceleration `a`, velocity `v`, displacement `u` and loads `f`, when
contact has the potential `J`: `Ma + Av + Bu - f` is balanced by contact and by the supports. Without
contact, `J = 0`, this means that it vanishes outside of the supports. -/
def Balanced (n : ℕ) (D : ℕ → Prop) (M A B : ℕ → ℕ → ℝ) (J : (ℕ → ℝ) → ℝ) (f u v a : ℕ → ℝ) : Prop :=
  ∀ y, Still n D y → 0 ≤ ∑ r ∈ Finset.range n,
    (y r - v r) * (act n M a r + act n A v r + act n B u r - f r) + (J y - J v)

/-- A motion of the body between the times `t₀` and `t₁`, in continuous time. -/
structure Motion (n : ℕ) (D : ℕ → Prop) (M A B : ℕ → ℕ → ℝ) (J : (ℕ → ℝ) → ℝ) (f : ℝ → ℕ → ℝ)
    (t₀ t₁ : ℝ) (u v a : ℝ → ℕ → ℝ) : Prop where
  velocity : ∀ t ∈ Set.Icc t₀ t₁, ∀ r < n,
    HasDerivWithinAt (fun s => u s r) (v t r) (Set.Icc t₀ t₁) t
  acceleration : ∀ t ∈ Set.Icc t₀ t₁, ∀ r < n,
    HasDerivWithinAt (fun s => v s r) (a t r) (Set.Icc t₀ t₁) t
  held : ∀ t ∈ Set.Icc t₀ t₁, Still n D (v t)
  balanced : ∀ t ∈ Set.Icc t₀ t₁, Balanced n D M A B J (f t) (u t) (v t) (a t)

/-- How fast velocities, accelerations and loads change at most: the velocities in the norm of the stored
energy, the accelerations in the norm of the kinetic energy, the loads in the norm dual to it. -/
structure Moderate (n : ℕ) (D : ℕ → Prop) (M B : ℕ → ℕ → ℝ) (f : ℝ → ℕ → ℝ) (t₀ t₁ : ℝ)
    (v a : ℝ → ℕ → ℝ) (cv ca cf : ℝ) : Prop where
  nonneg : 0 ≤ cv ∧ 0 ≤ ca ∧ 0 ≤ cf
  velocity : ∀ s ∈ Set.Icc t₀ t₁, ∀ t ∈ Set.Icc t₀ t₁,
    quad n B (fun i => v s i - v t i) ≤ (cv * (s - t)) ^ 2
  acceleration : ∀ s ∈ Set.Icc t₀ t₁, ∀ t ∈ Set.Icc t₀ t₁,
    quad n M (fun i => a s i - a t i) ≤ (ca * (s - t)) ^ 2
  loads : ∀ s ∈ Set.Icc t₀ t₁, ∀ t ∈ Set.Icc t₀ t₁, ∀ x, Still n D x →
    (∑ r ∈ Finset.range n, x r * (f s r - f t r)) ^ 2 ≤ (cf * (s - t)) ^ 2 * quad n M x

/-- The forces `g` of a contact with the potential `J`: they are subgradients and depend Lipschitz
continuously on the velocity. -/
structure SmoothContact (n : ℕ) (J : (ℕ → ℝ) → ℝ) (g : (ℕ → ℝ) → ℕ → ℝ) (k : ℝ) : Prop where
  subgradient : ∀ v y, J v + ∑ r ∈ Finset.range n, (y r - v r) * g v r ≤ J y
  lipschitz : ∀ v w, ∀ r < n, |g v r - g w r| ≤ k * ∑ s ∈ Finset.range n, |v s - w s|

end Conmech.Spec
