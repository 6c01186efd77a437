import Verif.Spec.Assembly
/-
Specification for C91: stress in the plane and the mean of a quantity over the elements of a node.
-/
namespace Conmech.Spec

variable {K : Type _} [Field K]

/-- Hooke's law in the plane: twice `mu` times the strain plus `lam` times its trace. -/
def planeStress (mu lam : K) (G : ℕ → ℕ → K) (a b : ℕ) : K :=
  2 * mu * ((G a b + G b a) / 2) + if a = b then lam * (G 0 0 + G 1 1) else 0

/-- The node belongs to some element. -/
def TouchesNode (elements : List (List ℕ)) (p : ℕ) : Prop := ∃ e ∈ elements, p ∈ e

/-- No element lists a node twice. -/
def DistinctVertices (elements : List (List ℕ)) : Prop := ∀ e ∈ elements, e.Nodup

/-- The arithmetic mean of the values `g` of the elements to which node `p` belongs. -/
def meanAround (elements : List (List ℕ)) (g : ℕ → K) (p : ℕ) : K :=
  (sumElements elements fun t e => if p ∈ e then g t else 0) /
    sumElements elements fun _ e => if p ∈ e then 1 else 0

/-- The field `u` is affine on all nodes: `u(x) = c + G x`. -/
def AffineDisplacement (N : ℕ) (nodes : ℕ → ℕ → K) (u : ℕ → ℕ → K) (c : ℕ → K) (G : ℕ → ℕ → K) : Prop :=
  ∀ p < N, ∀ a < 2, u p a = c a + (G a 0 * nodes p 0 + G a 1 * nodes p 1)

/-- The field with one number per degree of freedom; coordinate `a` of node `p` has the index
`a * N + p`. -/
def flat (N : ℕ) (u : ℕ → ℕ → K) : ℕ → K := fun r => u (r % N) (r / N)

/-- The work of the stresses `S t` on the gradients `V t`, with one stress for every element. -/
def stressWork [LinearOrder K] (elements : List (List ℕ)) (nodes : ℕ → ℕ → K) (S V : ℕ → ℕ → ℕ → K) : K :=
  sumElements elements fun t e => area (vertices nodes e) *
    (S t 0 0 * V t 0 0 + S t 0 1 * V t 0 1 + S t 1 0 * V t 1 0 + S t 1 1 * V t 1 1)

end Conmech.Spec
