import Verif.Model.BoundaryIndices
/-
Specification for C11: which node numbers a boundary consists of, in condition order, and what it
means to use a pair of slices for an elementwise assignment `x[i] = c[j]`.
-/
namespace Conmech.Spec

/-- The node numbers of a boundary in the order of the entries of its condition array. -/
def nodesOf : NodeIndices → List Nat
  | .slice start stop => List.range' start (stop - start)
  | .list i => i

/-- The elementwise pairing of two slices of equal length. -/
def pairing (s : (Nat × Nat) × (Nat × Nat)) : List (Nat × Nat) :=
  (List.range' s.1.1 (s.1.2 - s.1.1)).zip (List.range' s.2.1 (s.2.2 - s.2.1))

/-- The degrees of freedom of a boundary, each with the number of its condition entry: for every
coordinate `d` and every boundary node, `d * N + node`. -/
def boundaryDofs (idx : NodeIndices) (N dim : Nat) : List (Nat × Nat) :=
  (List.range dim).flatMap fun d => (nodesOf idx).zipIdx.map fun p => (d * N + p.1, p.2)

end Conmech.Spec
