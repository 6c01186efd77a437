import Verif.Spec.Energy
import Verif.Spec.Assembly
/-
Specification for C74: nodes that cannot move when others are fixed.
-/
namespace Conmech.Spec

/-- Nodes joined to a fixed node through elements with `m` nodes. -/
inductive Joined (m : ℕ) (elements : List (List ℕ)) (fixed : ℕ → Prop) : ℕ → Prop
  | fixed (p : ℕ) (h : fixed p) : Joined m elements fixed p
  | element (e : List ℕ) (he : e ∈ elements) (i k : ℕ) (hi : i < m) (hk : k < m)
      (h : Joined m elements fixed (e.getD i 0)) : Joined m elements fixed (e.getD k 0)

/-- Nodes held in place: fixed nodes, and the third node of a triangle with two of its nodes held. -/
inductive Held (elements : List (List ℕ)) (fixed : ℕ → Prop) : ℕ → Prop
  | fixed (p : ℕ) (h : fixed p) : Held elements fixed p
  | triangle (e : List ℕ) (he : e ∈ elements) (i j k : ℕ) (hi : i < 3) (hj : j < 3) (hij : i ≠ j)
      (hk : k < 3) (h1 : Held elements fixed (e.getD i 0)) (h2 : Held elements fixed (e.getD j 0)) :
      Held elements fixed (e.getD k 0)

/-- The system has a solution, and all its solutions agree. -/
def UniquelySolvable {K : Type _} [Field K] (n : ℕ) (S : System K) : Prop :=
  ∃ x, Solves n S x ∧ ∀ y, Solves n S y → ∀ r < n, y r = x r

end Conmech.Spec
