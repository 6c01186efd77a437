import Verif.Model.BoundariesFactory
import Mathlib.Algebra.Field.Defs
import Mathlib.Algebra.Group.Prod
import Mathlib.Order.Defs.LinearOrder
/-
Model of the normals in `conmech/mesh/boundaries.py`. Coordinates lie in a field `K` with an order;
`np.linalg.norm` uses a parameter `sqrt`. Points of the plane are pairs, points of space triples.
-/
namespace Conmech

section
variable {K : Type _} [Field K] [LinearOrder K] (sqrt : K → K)

/-- `np.sign`. -/
def npSign (x : K) : K := if 0 < x then 1 else if x < 0 then -1 else 0

/-- One row of `nph.elementwise_dot`, `conmech/helpers/nph.py:19-22`. -/
def dot2 (a b : K × K) : K := a.1 * b.1 + a.2 * b.2

/-- One row of `nph.elementwise_dot`, `conmech/helpers/nph.py:19-22`. -/
def dot3 (a b : K × K × K) : K := a.1 * b.1 + a.2.1 * b.2.1 + a.2.2 * b.2.2

/-- `np.cross` of two vectors of length 3. -/
def cross3 (a b : K × K × K) : K × K × K :=
  (a.2.1 * b.2.2 - a.2.2 * b.2.1, a.2.2 * b.1 - a.1 * b.2.2, a.1 * b.2.1 - a.2.1 * b.1)

/-- One row of `normalize_euclidean_numba`, `conmech/mesh/boundaries.py:28-31`. -/
def normalize2 (v : K × K) : K × K := (v.1 / sqrt (dot2 v v), v.2 / sqrt (dot2 v v))

/-- One row of `normalize_euclidean_numba`, `conmech/mesh/boundaries.py:28-31`. -/
def normalize3 (v : K × K × K) : K × K × K :=
  (v.1 / sqrt (dot3 v v), v.2.1 / sqrt (dot3 v v), v.2.2 / sqrt (dot3 v v))

/-- One row of `get_unoriented_normals_2d`, `conmech/mesh/boundaries.py:34-39`. -/
def unorientedNormal2 (tail head : K × K) : K × K :=
  let normal := normalize2 sqrt (head - tail)
  (normal.2, -normal.1)

/-- One row of `get_unoriented_normals_3d`, `conmech/mesh/boundaries.py:42-48`. -/
def unorientedNormal3 (tail head1 head2 : K × K × K) : K × K × K :=
  normalize3 sqrt (cross3 (head1 - tail) (head2 - tail))

/-- One row of `get_boundary_surfaces_normals` in 2D, `conmech/mesh/boundaries.py:51-66`. -/
def surfaceNormal2 (tail head internal : K × K) : K × K :=
  let n := unorientedNormal2 sqrt tail head
  let orientation := -1 * npSign (dot2 (internal - tail) n)
  (n.1 * orientation, n.2 * orientation)

/-- One row of `get_boundary_surfaces_normals` in 3D, `conmech/mesh/boundaries.py:51-66`. -/
def surfaceNormal3 (tail head1 head2 internal : K × K × K) : K × K × K :=
  let n := unorientedNormal3 sqrt tail head1 head2
  let orientation := -1 * npSign (dot3 (internal - tail) n)
  (n.1 * orientation, n.2.1 * orientation, n.2.2 * orientation)

/-- `get_boundary_surfaces_normals` for 2D nodes, `conmech/mesh/boundaries.py:51-66`. `none` stands
for the broadcasting error when the two lists differ in length (broadcasting of a list of length one
is not modelled: a mesh has at least three boundary surfaces). -/
def boundarySurfacesNormals2 (nodes : List (K × K)) (surfaces : List (List Nat))
    (internal : List Nat) : Option (List (K × K)) :=
  if surfaces.length = internal.length then
    some (List.zipWith (fun s i => surfaceNormal2 sqrt (nodes.getD (s.getD 0 0) 0)
      (nodes.getD (s.getD 1 0) 0) (nodes.getD i 0)) surfaces internal)
  else none

/-- `get_boundary_surfaces_normals` for 3D nodes, `conmech/mesh/boundaries.py:51-66`. -/
def boundarySurfacesNormals3 (nodes : List (K × K × K)) (surfaces : List (List Nat))
    (internal : List Nat) : Option (List (K × K × K)) :=
  if surfaces.length = internal.length then
    some (List.zipWith (fun s i => surfaceNormal3 sqrt (nodes.getD (s.getD 0 0) 0)
      (nodes.getD (s.getD 1 0) 0) (nodes.getD (s.getD 2 0) 0) (nodes.getD i 0)) surfaces internal)
  else none

end

/-- `np.unique(rows, axis=1)`: the distinct columns in lexicographic order. -/
def uniqueColumns (rows : List (List Nat)) : List (List Nat) :=
  let columns := uniqueRows ((List.range (rows.headD []).length).map
    fun j => rows.map fun r => r.getD j 0)
  (List.range rows.length).map fun r => columns.map fun c => c.getD r 0

/-- `Boundaries.boundary_surfaces`, `conmech/mesh/boundaries.py:84-89`. -/
def MeshBoundaries.allSurfaces {α : Type _} (m : MeshBoundaries α) : List (List Nat) :=
  uniqueColumns (m.contactSurfaces ++ m.neumannSurfaces ++ m.dirichletSurfaces)

/-- `surface_normals` set in `Boundaries.__init__`, `conmech/mesh/boundaries.py:77-82`, 2D. -/
def MeshBoundaries.surfaceNormals2 {K : Type _} [Field K] [LinearOrder K] (sqrt : K → K)
    (m : MeshBoundaries (K × K)) : Option (List (K × K)) :=
  boundarySurfacesNormals2 sqrt m.nodes m.allSurfaces m.internalIndices

/-- `surface_normals` set in `Boundaries.__init__`, `conmech/mesh/boundaries.py:77-82`, 3D. -/
def MeshBoundaries.surfaceNormals3 {K : Type _} [Field K] [LinearOrder K] (sqrt : K → K)
    (m : MeshBoundaries (K × K × K)) : Option (List (K × K × K)) :=
  boundarySurfacesNormals3 sqrt m.nodes m.allSurfaces m.internalIndices

/-- `Boundaries.contact_normals`, `conmech/mesh/boundaries.py:103-105`, 2D. -/
def MeshBoundaries.contactNormals2 {K : Type _} [Field K] [LinearOrder K] (sqrt : K → K)
    (m : MeshBoundaries (K × K)) : Option (List (K × K)) :=
  (m.surfaceNormals2 sqrt).map fun n => n.take m.contactSurfaces.length

end Conmech
