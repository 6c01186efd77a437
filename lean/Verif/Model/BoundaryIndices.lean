/-
Model of `Boundaries.get_all_boundary_indices`, `conmech/mesh/boundaries.py:127-150`.
-/
namespace Conmech

/-- `Boundary.node_indices`: a `slice(start, stop)` or an array of node numbers,
`conmech/mesh/boundary.py`. -/
inductive NodeIndices where
  | slice (start stop : Nat)
  | list (i : List Nat)

/-- The positions where a new run of consecutive numbers starts, closed by the length,
`conmech/mesh/boundaries.py:139`:
`np.concatenate(([0], np.nonzero(np.diff(i) - 1)[0] + 1, [len(i)]))`. -/
def discontinuities (i : List Nat) : List Nat :=
  [0] ++ ((List.range (i.length - 1)).filter
    fun j => ((i.getD (j + 1) 0 : Int) - (i.getD j 0 : Int) - 1) != 0).map (· + 1) ++ [i.length]

/-- `starts` and `stops` zipped, `conmech/mesh/boundaries.py:140-141,144`. -/
def runs (i : List Nat) : List (Nat × Nat) :=
  let d := discontinuities i
  (d.dropLast.map fun p => i.getD p 0).zip (d.tail.map fun p => i.getD (p - 1) 0 + 1)

/-- The inner loop, `conmech/mesh/boundaries.py:143-150`: the yielded pairs of slices
`((dof_start, dof_stop), (condition_start, condition_stop))` for an offset `d * total_node_count`. -/
def yieldRuns (offset : Nat) : Nat → List (Nat × Nat) → List ((Nat × Nat) × (Nat × Nat))
  | _, [] => []
  | conditionStart, (start, stop) :: rest =>
    let conditionStop := conditionStart + stop - start
    ((start + offset, stop + offset), (conditionStart, conditionStop)) ::
      yieldRuns offset conditionStop rest

/-- `Boundaries.get_all_boundary_indices`, `conmech/mesh/boundaries.py:127-150`: all yielded pairs of
slices in the order they are yielded. (An empty array raises `IndexError` in the code; such a
boundary is never registered, `boundaries_factory.py:235`.) -/
def getAllBoundaryIndices (idx : NodeIndices) (totalNodeCount dimension : Nat) :
    List ((Nat × Nat) × (Nat × Nat)) :=
  match idx with
  | .slice start stop =>
    (List.range dimension).map fun d =>
      ((start + d * totalNodeCount, stop + d * totalNodeCount), (0, 0 + stop - start))
  | .list i =>
    (List.range dimension).flatMap fun d => yieldRuns (d * totalNodeCount) 0 (runs i)

end Conmech
