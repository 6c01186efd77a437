import Mathlib.Analysis.Calculus.Deriv.Basic
/-!
Specification for C97: plane elasticity in the strong form.
-/
namespace Conmech.Spec

/-- A displacement field of the plane and its gradient: `g a k` is the derivative of component `a` in
direction `k`. -/
def HasGradient (u1 u2 : ℝ → ℝ → ℝ) (g : ℕ → ℕ → ℝ → ℝ → ℝ) : Prop := ∀ x y,
  HasDerivAt (fun s => u1 s y) (g 0 0 x y) x ∧ HasDerivAt (fun s => u1 x s) (g 0 1 x y) y ∧
  HasDerivAt (fun s => u2 s y) (g 1 0 x y) x ∧ HasDerivAt (fun s => u2 x s) (g 1 1 x y) y

/-- Hooke's law. -/
def hookeField (lam mu : ℝ) (g : ℕ → ℕ → ℝ → ℝ → ℝ) (a b : ℕ) (x y : ℝ) : ℝ :=
  mu * (g a b x y + g b a x y) + if a = b then lam * (g 0 0 x y + g 1 1 x y) else 0

/-- The stresses balance the forces: `-div σ = f`. -/
def Equilibrium (σ : ℕ → ℕ → ℝ → ℝ → ℝ) (f : ℝ → ℝ → ℝ × ℝ) : Prop := ∀ x y, ∃ d00 d01 d10 d11,
  HasDerivAt (fun s => σ 0 0 s y) d00 x ∧ HasDerivAt (fun s => σ 0 1 x s) d01 y ∧
  HasDerivAt (fun s => σ 1 0 s y) d10 x ∧ HasDerivAt (fun s => σ 1 1 x s) d11 y ∧
  -(d00 + d01) = (f x y).1 ∧ -(d10 + d11) = (f x y).2

/-- The traction on a line with normal `n`. -/
def traction (σ : ℕ → ℕ → ℝ → ℝ → ℝ) (n : ℝ × ℝ) (x y : ℝ) : ℝ × ℝ :=
  (σ 0 0 x y * n.1 + σ 0 1 x y * n.2, σ 1 0 x y * n.1 + σ 1 1 x y * n.2)

end Conmech.Spec
