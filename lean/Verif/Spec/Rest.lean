import Verif.Spec.Creep
/-!
Specification for C107: bodies at rest under constant loads.
-/
namespace Conmech.Spec

/-- The displacement balances the loads outside of the supports. -/
def LoadsBalanced (n : ℕ) (D : ℕ → Prop) (B : ℕ → ℕ → ℝ) (f u : ℕ → ℝ) : Prop :=
  ∀ r < n, ¬ D r → act n B u r = f r

/-- Constants of the body: kinetic energy is bounded by dissipation, dissipation by stored energy, and
the forces `g` of contact by dissipation. -/
structure DampingRates (n : ℕ) (D : ℕ → Prop) (M A B : ℕ → ℕ → ℝ) (g : (ℕ → ℝ) → ℕ → ℝ)
    (m κ k : ℝ) : Prop where
  nonneg : 0 ≤ m ∧ 0 ≤ κ ∧ 0 ≤ k
  kinetic : ∀ x, Still n D x → quad n M x ≤ m * quad n A x
  dissipated : ∀ x, Still n D x → quad n A x ≤ κ * quad n B x
  contact : ∀ x, Still n D x → ∀ y, Still n D y →
    (∑ r ∈ Finset.range n, y r * g x r) ^ 2 ≤ k ^ 2 * quad n A x * quad n B y

end Conmech.Spec
