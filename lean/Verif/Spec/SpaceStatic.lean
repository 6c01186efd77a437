import Verif.Spec.Solvable
/-
Specification for C120: bodies in space.
-/
namespace Conmech.Spec

/-- Nodes held in place: fixed nodes, and the fourth node of a tetrahedron with three of its nodes
held. -/
inductive HeldInSpace (elements : List (List ℕ)) (fixed : ℕ → Prop) : ℕ → Prop
  | fixed (p : ℕ) (h : fixed p) : HeldInSpace elements fixed p
  | tetrahedron (e : List ℕ) (he : e ∈ elements) (i j k l : ℕ) (hi : i < 4) (hj : j < 4) (hk : k < 4)
      (hij : i ≠ j) (hik : i ≠ k) (hjk : j ≠ k) (hl : l < 4)
      (h1 : HeldInSpace elements fixed (e.getD i 0)) (h2 : HeldInSpace elements fixed (e.getD j 0))
      (h3 : HeldInSpace elements fixed (e.getD k 0)) : HeldInSpace elements fixed (e.getD l 0)

/-- All three degrees of freedom of a node are constrained. -/
def Clamped (N : ℕ) (D : ℕ → Prop) (q : ℕ) : Prop := q < N ∧ ∀ a < 3, D (a * N + q)

variable {K : Type _} [Field K] [LinearOrder K]

/-- The energy of the fields with the prescribed values has no lower bound. -/
def UnboundedBelow (n : ℕ) (A : ℕ → ℕ → K) (D : ℕ → Prop) (g f : ℕ → K) : Prop :=
  ∀ bound, ∃ v : ℕ → K, (∀ r < n, D r → v r = g r) ∧ energy n ⟨A, f⟩ v < bound

end Conmech.Spec
