import Mathlib.MeasureTheory.Measure.Lebesgue.Basic
import Mathlib.MeasureTheory.Integral.Bochner.Set
import Mathlib.Analysis.Calculus.Deriv.Basic
import Verif.Spec.Assembly
import Verif.Spec.Patch
/-!
Specification for C108: integrals over a body in the plane.
-/
namespace Conmech.Spec

/-- The closed triangle with the corners `X 0`, `X 1` and `X 2`. -/
def triangle (X : ℕ → ℕ → ℝ) : Set (ℝ × ℝ) :=
  {p | ∃ a b c : ℝ, 0 ≤ a ∧ 0 ≤ b ∧ 0 ≤ c ∧ a + b + c = 1 ∧
    p = (a * X 0 0 + b * X 1 0 + c * X 2 0, a * X 0 1 + b * X 1 1 + c * X 2 1)}

/-- The body: the union of the triangles. -/
def body (nodes : ℕ → ℕ → ℝ) (elements : List (List ℕ)) : Set (ℝ × ℝ) :=
  {p | ∃ e ∈ elements, p ∈ triangle (vertices nodes e)}

/-- The function `u` on the body is affine inside each triangle, with the values `x` at its corners. -/
def Interpolates (nodes : ℕ → ℕ → ℝ) (elements : List (List ℕ)) (x : ℕ → ℝ) (u : ℝ × ℝ → ℝ) : Prop :=
  ∀ e ∈ elements, ∃ c g h : ℝ,
    (∀ p ∈ interior (triangle (vertices nodes e)), u p = c + g * p.1 + h * p.2) ∧
    ∀ i < 3, valuesOn e x i = c + g * vertices nodes e i 0 + h * vertices nodes e i 1

/-- The partial derivatives. -/
noncomputable def partialDeriv (u : ℝ × ℝ → ℝ) : ℕ → ℝ × ℝ → ℝ
  | 0, p => deriv (fun s => u (s, p.2)) p.1
  | _, p => deriv (fun s => u (p.1, s)) p.2

end Conmech.Spec
