import Mathlib.Algebra.Order.Floor.Defs
import Mathlib.Algebra.Order.Field.Basic
/-
Model of the mesh that is generated by the project itself
(`conmech/mesh/zoo/cross_for_tests.py`) and of the placement of meshes
(`conmech/mesh/mesh_builders.py`, `conmech/mesh/zoo/pygmsh/_utils.py`).

Numbers are exact. Arrays that are filled by assignments to successive slots are modelled by the list
of assigned values and `fillSlots`. The meshes generated by pygmsh, dmsh and meshzoo are not modelled.
-/
namespace Conmech

variable {K : Type} [Field K] [LinearOrder K]

/-- `np.zeros(count)` after assignments to the slots 0, 1, 2, …; a slot that is not assigned keeps its
initial value. -/
def fillSlots {α : Type} (count : ℕ) (initial : α) (writes : List α) : List α :=
  (List.range count).map fun k => writes.getD k initial

/-- `range(1, n + 1)` -/
def fromOne (n : ℕ) : List ℕ := (List.range n).map fun i => i + 1

/-- The assignments of `_set_cross_nodes_ordered_numba`,
`conmech/mesh/zoo/cross_for_tests.py:73-100`; the corner that is added at the end is (0, 0). -/
def crossNodeWrites (sx sy : ℕ) (ex ey : K) : List (K × K) :=
  ((List.range sy).reverse.flatMap fun j : ℕ => (List.range sx).reverse.map fun i : ℕ =>
    (((i : K) + 1 / 2) * ex, ((j : K) + 1 / 2) * ey)) ++
  ((fromOne (sy - 1)).reverse.flatMap fun j : ℕ => (fromOne (sx - 1)).reverse.map fun i : ℕ =>
    ((i : K) * ex, (j : K) * ey)) ++
  ((fromOne sx).map fun i : ℕ => ((i : K) * ex, (sy : K) * ey)) ++
  ((List.range sy).reverse.map fun j : ℕ => ((sx : K) * ex, (j : K) * ey)) ++
  ((List.range sx).reverse.map fun i : ℕ => ((i : K) * ex, 0)) ++
  ((fromOne sy).map fun j : ℕ => (0, (j : K) * ey))

/-- The number of slots, `cross_for_tests.py:24`. -/
def crossNodesCount (sx sy : ℕ) : ℕ := 2 * (sx * sy) + (sx + sy) + 1

/-- The number of slots, `cross_for_tests.py:27`. -/
def crossElementsCount (sx sy : ℕ) : ℕ := 4 * (sx * sy)

/-- `nodes` after `_set_cross_nodes_ordered_numba`. -/
def crossNodes (sx sy : ℕ) (ex ey : K) : List (K × K) :=
  fillSlots (crossNodesCount sx sy) (0, 0) (crossNodeWrites sx sy ex ey)

/-- `get_node_index_numba`, `conmech/helpers/nph.py:32-36`; `none` is the `ArgumentError`. -/
def nodeIndex (node : K × K) (nodes : List (K × K)) : Option ℕ :=
  nodes.findIdx? fun n => decide (|node.1 - n.1| + |node.2 - n.2| < 1 / 10000)

/-- The assignments of one cell, `cross_for_tests.py:46-66`. -/
def crossCell (ex ey : K) (nodes : List (K × K)) (i j : ℕ) : Option (List (ℕ × ℕ × ℕ)) := do
  let left : K := i * ex
  let bottom : K := j * ey
  let lb ← nodeIndex (left, bottom) nodes
  let rb ← nodeIndex (left + ex, bottom + 0) nodes
  let c ← nodeIndex (left + 1 / 2 * ex, bottom + 1 / 2 * ey) nodes
  let lt ← nodeIndex (left + 0, bottom + ey) nodes
  let rt ← nodeIndex (left + ex, bottom + ey) nodes
  some [(lb, rb, c), (rb, rt, c), (rt, lt, c), (lt, lb, c)]

/-- `elements` after `_set_cross_elements_numba`, `cross_for_tests.py:40-66`. -/
def crossElements (sx sy : ℕ) (ex ey : K) (nodes : List (K × K)) :
    Option (List (ℕ × ℕ × ℕ)) := do
  let cells ← ((List.range sx).flatMap fun i => (List.range sy).map fun j => (i, j)).mapM
    fun ij => crossCell ex ey nodes ij.1 ij.2
  some (fillSlots (crossElementsCount sx sy) (0, 0, 0) cells.flatten)

/-- The number of cells along an axis, `cross_for_tests.py:16-18`; positive arguments. -/
def crossSize [FloorSemiring K] (scale perimeter : K) : ℕ := ⌈scale / perimeter⌉₊

/-- `CrossMesh._get_cross_rectangle`, `cross_for_tests.py:14-36`. -/
def crossMesh [FloorSemiring K] (perimeter scaleX scaleY : K) :
    Option (List (K × K) × List (ℕ × ℕ × ℕ)) := do
  let sx := crossSize scaleX perimeter
  let sy := crossSize scaleY perimeter
  let ex := scaleX / (sx : K)
  let ey := scaleY / (sy : K)
  let nodes := crossNodes sx sy ex ey
  let elements ← crossElements sx sy ex ey nodes
  some (nodes, elements)

section Placement

/-- `np.min(nodes, axis=0)` in one coordinate of a non-empty array. -/
def columnMin (first : ℕ → K) (rest : List (ℕ → K)) (c : ℕ) : K :=
  rest.foldl (fun m row => min m (row c)) (first c)

/-- `np.max(nodes, axis=0)` in one coordinate of a non-empty array. -/
def columnMax (first : ℕ → K) (rest : List (ℕ → K)) (c : ℕ) : K :=
  rest.foldl (fun m row => max m (row c)) (first c)

/-- `translate_nodes`, `conmech/mesh/mesh_builders.py:14-19`. A node is a function of the coordinate.
`none` is the `ValueError` of `np.min` for an array without rows. -/
def translateNodes (nodes : List (ℕ → K)) (position : Option (ℕ → K)) : Option (List (ℕ → K)) :=
  match position with
  | none => some nodes
  | some position =>
    match nodes with
    | [] => none
    | first :: rest =>
      let origin := columnMin first rest
      let nodes := (first :: rest).map fun row c => row c - origin c
      some (nodes.map fun row c => row c + position c)

/-- `normalize_nodes`, `conmech/mesh/zoo/pygmsh/_utils.py:15-18`. -/
def normalizeNodes (nodes : List (ℕ → K)) : Option (List (ℕ → K)) :=
  match nodes with
  | [] => none
  | first :: rest =>
    let lowest := columnMin first rest
    match (first :: rest).map fun row c => row c - lowest c with
    | [] => none
    | first :: rest =>
      let highest := columnMax first rest
      some ((first :: rest).map fun row c => row c / highest c)

end Placement

end Conmech
