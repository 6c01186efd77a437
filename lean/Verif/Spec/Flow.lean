import Mathlib.Analysis.Calculus.ContDiff.Defs
import Verif.Spec.Boundary
import Verif.Spec.Integrals
import Verif.Spec.Refinement
/-!
Specification for C109 and C110: what flows through a body in the plane and through its boundary.
-/
namespace Conmech.Spec

/-- `n` is the outer unit normal of the triangle on the side opposite to the corner `j`. -/
structure OuterNormal (X : ℕ → ℕ → ℝ) (j : ℕ) (n : ℕ → ℝ) : Prop where
  unit : n 0 ^ 2 + n 1 ^ 2 = 1
  along : n 0 * (X ((j + 2) % 3) 0 - X ((j + 1) % 3) 0) + n 1 * (X ((j + 2) % 3) 1 - X ((j + 1) % 3) 1) = 0
  outer : n 0 * (X j 0 - X ((j + 1) % 3) 0) + n 1 * (X j 1 - X ((j + 1) % 3) 1) < 0

/-- The amount `q` of the flow `s` leaves the triangle per length at all points of the side opposite to
the corner `j`, in the direction of the outer normal. -/
def FlowThrough (X : ℕ → ℕ → ℝ) (j : ℕ) (s : ℕ → ℝ × ℝ → ℝ) (q : ℝ) : Prop :=
  ∀ n, OuterNormal X j n → ∀ r, 0 ≤ r → r ≤ 1 → ∀ p : ℝ × ℝ,
    p = ((1 - r) * X ((j + 1) % 3) 0 + r * X ((j + 2) % 3) 0,
      (1 - r) * X ((j + 1) % 3) 1 + r * X ((j + 2) % 3) 1) → s 0 p * n 0 + s 1 p * n 1 = q

/-- The loaded sides lie on the boundary, and none is given twice. -/
structure LoadsBoundary {K : Type _} (m : SupportedMesh K) : Prop where
  boundary : ∀ f ∈ m.sides, BoundaryFace m.elements (f : Multiset ℕ)
  once : (m.sides.map fun f : List ℕ => (f : Multiset ℕ)).Nodup

open Classical in
/-- The flow `s` on the body of the mesh: it loses `c` per area, and on the boundary, where it is not
supported, `q` per length leaves through the loaded sides and nothing through the other ones. -/
structure Flow (m : SupportedMesh ℝ) (s : ℕ → ℝ × ℝ → ℝ) (c q : ℝ) : Prop where
  smooth : ∀ k < 2, ContDiff ℝ 1 (s k)
  inside : ∀ p ∈ body m.nodes m.elements, -(partialDeriv (s 0) 0 p + partialDeriv (s 1) 1 p) = c
  boundary : ∀ e ∈ m.elements, ∀ j < 3, BoundaryFace m.elements (e.eraseIdx j : List ℕ) →
    (∀ v ∈ e.eraseIdx j, m.supported v) ∨
    FlowThrough (vertices m.nodes e) j s
      (if ∃ f ∈ m.sides, (f : Multiset ℕ) = (e.eraseIdx j : List ℕ) then q else 0)

end Conmech.Spec
