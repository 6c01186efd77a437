import Verif.Model.BoundaryIndices
import Mathlib.Algebra.BigOperators.Group.Finset.Basic
import Mathlib.Algebra.Field.Defs
/-
Model of the Dirichlet part of `conmech/dynamics/statement.py` and `conmech/solvers/solver.py`.
A matrix is a function of row and column, a vector a function of the index; the size is `n`.
-/
namespace Conmech

/-- `left_hand_side` and `right_hand_side` of a `Statement`, `conmech/dynamics/statement.py:20-27`. -/
structure System (K : Type _) where
  lhs : ℕ → ℕ → K
  rhs : ℕ → K

/-- A boundary with a condition: `node_indices` and `node_condition` of
`conmech/mesh/boundary.py`. -/
structure CondBoundary (K : Type _) where
  indices : NodeIndices
  condition : ℕ → K

/-- `r` is selected by the slice. -/
def inSlice (s : ℕ × ℕ) (r : ℕ) : Bool := decide (s.1 ≤ r) && decide (r < s.2)

variable {K : Type _} [Field K]

/-- The body of the inner loop of `apply_dirichlet_condition`,
`conmech/dynamics/statement.py:47-52`, one assignment after the other. -/
def applyBlock (c : ℕ → K) (S : System K) (ij : (ℕ × ℕ) × (ℕ × ℕ)) : System K :=
  let i := ij.1
  let j := ij.2
  -- self.right_hand_side[:] -= self.left_hand_side[:, i] @ c[j]
  let rhs1 : ℕ → K := fun r =>
    S.rhs r - ∑ t ∈ Finset.range (i.2 - i.1), S.lhs r (i.1 + t) * c (j.1 + t)
  -- self.left_hand_side.data[:, i] = 0
  let lhs1 : ℕ → ℕ → K := fun r s => if inSlice i s then 0 else S.lhs r s
  -- self.left_hand_side.data[i, :] = 0
  let lhs2 : ℕ → ℕ → K := fun r s => if inSlice i r then 0 else lhs1 r s
  -- self.left_hand_side.data[i][:, i] = np.eye(j.stop - j.start)
  let lhs3 : ℕ → ℕ → K := fun r s =>
    if inSlice i r && inSlice i s then (if r - i.1 = s - i.1 then 1 else 0) else lhs2 r s
  -- self.right_hand_side[i] = c[j]
  let rhs2 : ℕ → K := fun r => if inSlice i r then c (j.1 + (r - i.1)) else rhs1 r
  { lhs := lhs3, rhs := rhs2 }

/-- `apply_dirichlet_condition`, `conmech/dynamics/statement.py:40-52`, for the boundaries found by
`find_dirichlet_conditions`. -/
def applyDirichlet (nodesCount dimension : ℕ) (bs : List (CondBoundary K)) (S : System K) :
    System K :=
  bs.foldl (fun S b =>
    (getAllBoundaryIndices b.indices nodesCount dimension).foldl (applyBlock b.condition) S) S

/-- `solution[i] = c[j]`, `conmech/solvers/solver.py:97`. -/
def overwriteBlock (c : ℕ → K) (x : ℕ → K) (ij : (ℕ × ℕ) × (ℕ × ℕ)) : ℕ → K := fun r =>
  if inSlice ij.1 r then c (ij.2.1 + (r - ij.1.1)) else x r

/-- `Solver.solve`, `conmech/solvers/solver.py:83-99`, for an arbitrary `_solve_impl`. -/
def solverSolve (solveImpl : (ℕ → K) → ℕ → K) (nodesCount dimension : ℕ)
    (bs : List (CondBoundary K)) (initialGuess : ℕ → K) : ℕ → K :=
  bs.foldl (fun x b =>
    (getAllBoundaryIndices b.indices nodesCount dimension).foldl (overwriteBlock b.condition) x)
    (solveImpl initialGuess)

end Conmech
