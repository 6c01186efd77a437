/-
Model of the mesh clean-up and edge functions of `conmech/mesh/mesh.py`.

Node coordinates are an arbitrary type `α`: the code only moves whole rows of the node array.
Node numbers are natural numbers (the arrays come from mesh generators and contain no negative
entries); the element array is a list of rows.
-/
namespace Conmech

/-- The body of the double loop `conmech/mesh/mesh.py:48-51`: every entry greater than `index` is
decremented, in place. -/
def decrementAbove (index : Nat) (elements : List (List Nat)) : List (List Nat) :=
  elements.map fun row => row.map fun v => if v > index then v - 1 else v

/-- The `while` loop `conmech/mesh/mesh.py:43-52`. `nodes_count` is carried separately, as in the
code; `np.vstack((nodes[:index], nodes[index + 1:]))` is `take ++ drop`. -/
def removeLoop {α : Type _} (nodes : List α) (elements : List (List Nat))
    (nodesCount index : Nat) : List α × List (List Nat) :=
  if index < nodesCount then
    if elements.any (fun row => row.contains index) then
      removeLoop nodes elements nodesCount (index + 1)
    else
      removeLoop (nodes.take index ++ nodes.drop (index + 1)) (decrementAbove index elements)
        (nodesCount - 1) index
  else (nodes, elements)
termination_by nodesCount - index

/-- `remove_unconnected_nodes_numba`, `conmech/mesh/mesh.py:40-53`. -/
def removeUnconnected {α : Type _} (nodes : List α) (elements : List (List Nat)) :
    List α × List (List Nat) :=
  removeLoop nodes elements nodes.length 0

/-- The edge matrix as a function; `M[i, j] += 1`, `conmech/mesh/mesh.py:21`. -/
def bump (M : Nat → Nat → Nat) (a b : Nat) : Nat → Nat → Nat :=
  fun i j => if i = a ∧ j = b then M i j + 1 else M i j

/-- The two inner loops for one element, `conmech/mesh/mesh.py:18-21`. `k` is
`element_vertices_number`, which the code takes from the first element (line 16). The guard `if i < nodesCount` of
numpy indexing is implicit: node numbers are assumed valid in the theorems. -/
def edgesOfElement (k : Nat) (element : List Nat) (M : Nat → Nat → Nat) : Nat → Nat → Nat :=
  (List.range k).foldl (fun M i =>
    (List.range k).foldl (fun M j =>
      if i ≠ j then bump M (element.getD i 0) (element.getD j 0) else M) M) M

/-- `get_edges_matrix`, `conmech/mesh/mesh.py:14-22`. `len(elements[0])` raises for an empty
array; here it is `0`, and the result is then the zero matrix (theorems treat this case). -/
def edgesMatrix (elements : List (List Nat)) : Nat → Nat → Nat :=
  elements.foldl (fun M e => edgesOfElement (elements.headD []).length e M) (fun _ _ => 0)

/-- `get_edges_list_numba`, `conmech/mesh/mesh.py:26-36`. `np.ndindex((n, n))` runs through all
pairs in lexicographic order. -/
def edgesList (nodesCount : Nat) (M : Nat → Nat → Nat) : List (Nat × Nat) :=
  ((List.range nodesCount).flatMap fun i => (List.range nodesCount).map fun j => (i, j)).filter
    fun p => decide (p.2 > p.1 ∧ M p.1 p.2 > 0)

end Conmech
