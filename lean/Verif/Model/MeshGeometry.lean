import Verif.Model.MeshZoo
import Mathlib.Algebra.BigOperators.Group.List.Basic
/-
Model of the geometric helpers of `conmech/mesh/mesh.py` (seeds along the axes, extent, centring) and of
imported meshes in `conmech/properties/mesh_description.py`. A node is a function of the coordinate, the
node array a list of nodes; the number of columns is given separately.
-/
namespace Conmech

variable {K : Type} [Field K] [LinearOrder K]

section Seeds
variable (sqrt : K → K)

/-- `euclidean_norm_numba(np.delete(nodes[i], variable) - np.delete(nodes[j], variable))`,
`conmech/mesh/mesh.py:63-65` and `conmech/helpers/nph.py:26-28`. -/
def axisError (dim axis : ℕ) (a b : ℕ → K) : K :=
  sqrt ((((List.range dim).filter fun c => c ≠ axis).map fun c => (a c - b c) ^ 2).sum)

/-- `nodes[i]`; all indices used are below the number of nodes. -/
def nodeAt (nodes : List (ℕ → K)) (i : ℕ) : ℕ → K := nodes.getD i fun _ => 0

/-- The pairs visited by the loops `conmech/mesh/mesh.py:61-62`, in order. -/
def seedPairs (nodesCount : ℕ) : List (ℕ × ℕ) :=
  (List.range nodesCount).flatMap fun i =>
    (List.range' (i + 1) (nodesCount - (i + 1))).map fun j => (i, j)

/-- The body of the loops, `conmech/mesh/mesh.py:63-67`. -/
def seedStep (dim axis : ℕ) (nodes : List (ℕ → K)) (s : K × ℕ × ℕ) (ij : ℕ × ℕ) : K × ℕ × ℕ :=
  let error := axisError sqrt dim axis (nodeAt nodes ij.1) (nodeAt nodes ij.2)
  if error < s.1 then (error, ij.1, ij.2) else s

/-- `get_closest_to_axis_numba`, `conmech/mesh/mesh.py:57-71`. The result keeps its types, whereas the code
packs all three numbers into an array of floats. -/
def closestToAxis (dim : ℕ) (nodes : List (ℕ → K)) (axis : ℕ) : K × ℕ × ℕ :=
  let s := (seedPairs nodes.length).foldl (seedStep sqrt dim axis nodes) (1, 0, 0)
  if nodeAt nodes s.2.1 axis < nodeAt nodes s.2.2 axis then (s.1, s.2.1, s.2.2)
  else (s.1, s.2.2, s.2.1)

/-- `np.argmin` of a list: the first index of the least entry; `0` for the empty list, on which numpy
raises. -/
def npArgmin (l : List K) : ℕ :=
  (((List.range l.length).foldl (fun (best : ℕ) i => if l.getD i 0 < l.getD best 0 then i else best)) 0)

/-- `get_base_seed_indices_numba`, `conmech/mesh/mesh.py:75-83`. -/
def baseSeedIndices (dim : ℕ) (nodes : List (ℕ → K)) : List (ℕ × ℕ) × ℕ :=
  let results := (List.range dim).map fun c => closestToAxis sqrt dim nodes c
  (results.map fun r => r.2, npArgmin (results.map fun r => r.1))

end Seeds

/-- `Mesh.scale`, `conmech/mesh/mesh.py:115-117`. `none` is the `ValueError` of `np.max` for an array
without rows. -/
def meshScale (nodes : List (ℕ → K)) : Option (ℕ → K) :=
  match nodes with
  | [] => none
  | first :: rest => some fun c => columnMax first rest c - columnMin first rest c

omit [LinearOrder K] in
/-- `Mesh.normalize_shift`, `normalized_initial_nodes` and `input_initial_nodes`,
`conmech/mesh/mesh.py:119-129`. -/
def normalizeShift (vectors : List (ℕ → K)) : List (ℕ → K) :=
  vectors.map fun row c => row c - (vectors.map fun r => r c).sum / (vectors.length : K)

section Imported

/-- The parts of `meshio.Mesh` that are read: the points, their number of columns and the blocks of cells
with their types, in the order of the file. -/
structure MeshFile (K : Type) where
  /-- `mesh.points` -/
  points : List (ℕ → K)
  /-- `mesh.points.shape[1]` -/
  columns : ℕ
  /-- `mesh.cells` -/
  blocks : List (String × List (List ℕ))

/-- `mesh.cells_dict.get(kind)`: meshio joins the blocks of one type in the order of the file. -/
def MeshFile.cellsDict {K : Type} (file : MeshFile K) (kind : String) : Option (List (List ℕ)) :=
  if file.blocks.any fun b => b.1 == kind then
    some ((file.blocks.filter fun b => b.1 == kind).flatMap fun b => b.2)
  else none

/-- A `RawMesh`, `conmech/mesh/zoo/raw_mesh.py:22-30`, with the number of columns of the nodes. -/
structure BuiltMesh (K : Type) where
  /-- `nodes` -/
  nodes : List (ℕ → K)
  /-- `nodes.shape[1]` -/
  columns : ℕ
  /-- `elements` -/
  elements : List (List ℕ)

/-- `ImportedMeshDescription.build`, `conmech/properties/mesh_description.py:24-35`, for a file that meshio
can read. Dropping columns keeps the functions and reduces the number of columns. `none` is the `KeyError`
for a file without triangles. -/
def importMesh {K : Type} (file : MeshFile K) : Option (BuiltMesh K) :=
  match file.cellsDict "tetra" with
  | some tetra => some ⟨file.points, file.columns, tetra⟩
  | none =>
    let columns := if file.columns = 3 then 2 else file.columns
    match file.cellsDict "triangle" with
    | some triangle => some ⟨file.points, columns, triangle⟩
    | none => none

end Imported

end Conmech
