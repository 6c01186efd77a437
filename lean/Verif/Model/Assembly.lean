import Verif.Model.Layout
import Mathlib.Algebra.BigOperators.Group.Finset.Basic
import Mathlib.Algebra.Order.Field.Basic
import Mathlib.Algebra.Order.AbsoluteValue.Basic
/-
Model of the assembly of `conmech/dynamics/factory`.

`nodes` is the array of coordinates as a function of node and coordinate; the entries are in an
ordered field. `X` always denotes the coordinates of the vertices of one element (`element_nodes`).
-/
namespace Conmech

variable {K : Type _} [Field K] [LinearOrder K]

/-- `nodes[element]` -/
def elementNodes (nodes : ℕ → ℕ → K) (element : List ℕ) : ℕ → ℕ → K :=
  fun i => nodes (element.getD i 0)

/-- `np.arange(size) != element_index` as an index: the `k`-th of the other vertices. -/
def otherVertex (size elementIndex k : ℕ) : ℕ :=
  ((List.range size).filter fun v => v ≠ elementIndex).getD k 0

namespace Plane

/-- `denominator_numba`, `_dynamics_factory_2d.py:143-152`. -/
def denominator (xi xj1 xj2 : ℕ → K) : K :=
  xi 1 * xj1 0 + xj1 1 * xj2 0 + xi 0 * xj2 1 - xi 1 * xj2 0 - xj2 1 * xj1 0 - xi 0 * xj1 1

/-- `get_integral_parts_numba`, `_dynamics_factory_2d.py:126-140`: `(dPhX, dPhY)` as a function of the
coordinate. -/
def gradient (X : ℕ → ℕ → K) (i : ℕ) : ℕ → K :=
  let xj1 := X (otherVertex 3 i 0)
  let xj2 := X (otherVertex 3 i 1)
  let dm := denominator (X i) xj1 xj2
  let ySub := xj2 1 - xj1 1
  let xSub := xj1 0 - xj2 0
  fun k => if k = 0 then ySub / dm else if k = 1 then xSub / dm else 0

/-- `get_integral_parts_numba`, `_dynamics_factory_2d.py:126-140`: `element_volume`. -/
def volume (X : ℕ → ℕ → K) (i : ℕ) : K :=
  |denominator (X i) (X (otherVertex 3 i 0)) (X (otherVertex 3 i 1))| / 2

/-- `np.linalg.det` of the rows `a` and `b`. -/
def det (a b : ℕ → K) : K := a 0 * b 1 - a 1 * b 0

/-- `jacobian`, `_dynamics_factory_2d.py:66`. -/
def jacobian (X : ℕ → ℕ → K) : K := |det (fun k => X 1 k - X 0 k) (fun k => X 2 k - X 0 k)|

/-- `int_sqr`, `_dynamics_factory_2d.py:39-43`. -/
def intSqr (X : ℕ → ℕ → K) (k : ℕ) : K :=
  (X 0 k ^ 2 + X 1 k ^ 2 + X 2 k ^ 2) + X 0 k * (X 1 k + X 2 k) + X 1 k * X 2 k

/-- `int_xy`, `_dynamics_factory_2d.py:46`. -/
def intXY (X : ℕ → ℕ → K) : K :=
  ∑ b ∈ Finset.range 3, (∑ a ∈ Finset.range 3, X a 0 * if a = b then 2 else 1) * X b 1

/-- `int_matrix`, `_dynamics_factory_2d.py:47-65`. -/
def intMatrix (X : ℕ → ℕ → K) (a b : ℕ) : K :=
  match a, b with
  | 0, 0 => 0
  | 0, 1 => 1 / 6 * (X 0 0 + X 1 0 + X 2 0)
  | 0, 2 => 1 / 6 * (X 0 1 + X 1 1 + X 2 1)
  | 1, 0 => 1 / 6 * (X 0 0 + X 1 0 + X 2 0)
  | 1, 1 => 1 / 12 * intSqr X 0
  | 1, 2 => 1 / 24 * intXY X
  | 2, 0 => 1 / 6 * (X 0 1 + X 1 1 + X 2 1)
  | 2, 1 => 1 / 24 * intXY X
  | 2, 2 => 1 / 12 * intSqr X 1
  | _, _ => 0

/-- `coeffs_i`, `_dynamics_factory_2d.py:75-80`, and `coeffs_j`, lines 83-88. -/
def coeffs (X : ℕ → ℕ → K) (i : ℕ) : ℕ → K :=
  let p1 := X ((i + 1) % 3)
  let p2 := X ((i + 2) % 3)
  fun k => if k = 0 then det p1 p2 else if k = 1 then p1 1 - p2 1 else if k = 2 then p2 0 - p1 0
    else 0

/-- `q`, `_dynamics_factory_2d.py:89-91`. -/
def q (X : ℕ → ℕ → K) (i j : ℕ) : K :=
  (∑ b ∈ Finset.range 3, (∑ a ∈ Finset.range 3, jacobian X * coeffs X i a * intMatrix X a b) *
    coeffs X j b) / (4 * volume X i ^ 2) + coeffs X i 0 * coeffs X j 0 / (4 * volume X i)

/-- The vector added to `edges_features_matrix[:, element[i], element[j]]`,
`_dynamics_factory_2d.py:96-120`. -/
def features (X : ℕ → ℕ → K) (i j : ℕ) : List K :=
  let gi := gradient X i
  let gj := gradient X j
  [if i ≠ j then 1 / 3 / 2 else 0, (1 + if i = j then 1 else 0) / 12,
   1 / 3 * gj 0, 1 / 3 * gj 1,
   gi 0 * gj 0, gi 0 * gj 1, gi 1 * gj 0, gi 1 * gj 1,
   q X i j / volume X i].map fun x => volume X i * x

/-- `local_stifness_matrices[k, l, element_index, i, j]`, `_dynamics_factory_2d.py:106`. -/
def localStiffness (X : ℕ → ℕ → K) (k l i j : ℕ) : K :=
  volume X i * (gradient X i k * gradient X j l)

end Plane

namespace Space

/-- `denominator_numba`, `_dynamics_factory_3d.py:116-143`. -/
def denominator (xi xj1 xj2 xj3 : ℕ → K) : K :=
  xi 2 * xj1 1 * xj2 0 - xi 1 * xj1 2 * xj2 0 - xi 2 * xj1 0 * xj2 1 + xi 0 * xj1 2 * xj2 1
  + xi 1 * xj1 0 * xj2 2 - xi 0 * xj1 1 * xj2 2 - xi 2 * xj1 1 * xj3 0 + xi 1 * xj1 2 * xj3 0
  + xi 2 * xj2 1 * xj3 0 - xj1 2 * xj2 1 * xj3 0 - xi 1 * xj2 2 * xj3 0 + xj1 1 * xj2 2 * xj3 0
  + xi 2 * xj1 0 * xj3 1 - xi 0 * xj1 2 * xj3 1 - xi 2 * xj2 0 * xj3 1 + xj1 2 * xj2 0 * xj3 1
  + xi 0 * xj2 2 * xj3 1 - xj1 0 * xj2 2 * xj3 1 - xi 1 * xj1 0 * xj3 2 + xi 0 * xj1 1 * xj3 2
  + xi 1 * xj2 0 * xj3 2 - xj1 1 * xj2 0 * xj3 2 - xi 0 * xj2 1 * xj3 2 + xj1 0 * xj2 1 * xj3 2

/-- `get_integral_parts_numba`, `_dynamics_factory_3d.py:76-113`: `(dPhX, dPhY, dPhZ)`. -/
def gradient (X : ℕ → ℕ → K) (i : ℕ) : ℕ → K :=
  let xj1 := X (otherVertex 4 i 0)
  let xj2 := X (otherVertex 4 i 1)
  let xj3 := X (otherVertex 4 i 2)
  let dm := denominator (X i) xj1 xj2 xj3
  let xSub := xj1 2 * xj2 1 - xj1 1 * xj2 2 - xj1 2 * xj3 1 + xj2 2 * xj3 1 + xj1 1 * xj3 2
    - xj2 1 * xj3 2
  let ySub := xj1 0 * xj2 2 - xj1 2 * xj2 0 + xj1 2 * xj3 0 - xj2 2 * xj3 0 - xj1 0 * xj3 2
    + xj2 0 * xj3 2
  let zSub := xj1 1 * xj2 0 - xj1 0 * xj2 1 - xj1 1 * xj3 0 + xj2 1 * xj3 0 + xj1 0 * xj3 1
    - xj2 0 * xj3 1
  fun k => if k = 0 then xSub / dm else if k = 1 then ySub / dm else if k = 2 then zSub / dm else 0

/-- `get_integral_parts_numba`, `_dynamics_factory_3d.py:76-113`: `element_volume`. -/
def volume (X : ℕ → ℕ → K) (i : ℕ) : K :=
  |denominator (X i) (X (otherVertex 4 i 0)) (X (otherVertex 4 i 1)) (X (otherVertex 4 i 2))| / 6

/-- The vector added to `edges_features_matrix[:, element[i], element[j]]`,
`_dynamics_factory_3d.py:41-70`. -/
def features (X : ℕ → ℕ → K) (i j : ℕ) : List K :=
  let gi := gradient X i
  let gj := gradient X j
  [if i ≠ j then 1 / 4 / 3 else 0, (1 + if i = j then 1 else 0) / 20,
   1 / 4 * gj 0, 1 / 4 * gj 1, 1 / 4 * gj 2,
   gi 0 * gj 0, gi 0 * gj 1, gi 0 * gj 2,
   gi 1 * gj 0, gi 1 * gj 1, gi 1 * gj 2,
   gi 2 * gj 0, gi 2 * gj 1, gi 2 * gj 2].map fun x => volume X i * x

end Space

/-- `edges_features_matrix[:, a, b] += vector`. The first index is the feature. -/
def addFeatures (F : ℕ → ℕ → ℕ → K) (a b : ℕ) (vector : List K) : ℕ → ℕ → ℕ → K :=
  fun f p q => if p = a ∧ q = b then F f p q + vector.getD f 0 else F f p q

/-- The loops of `get_edges_features_matrix_numba`, `_dynamics_factory_2d.py:35-120` and
`_dynamics_factory_3d.py:27-70`, for elements with `size` vertices. -/
def edgesFeatures (size : ℕ) (features : (ℕ → ℕ → K) → ℕ → ℕ → List K) (elements : List (List ℕ))
    (nodes : ℕ → ℕ → K) : ℕ → ℕ → ℕ → K :=
  elements.foldl (fun F element =>
    (List.range size).foldl (fun F i =>
      (List.range size).foldl (fun F j =>
        addFeatures F (element.getD i 0) (element.getD j 0)
          (features (elementNodes nodes element) i j)) F) F) fun _ _ _ => 0

/-- `element_initial_volume`: the assignment is repeated for every `i`, the last one remains,
`_dynamics_factory_2d.py:74`, `_dynamics_factory_3d.py:37`. -/
def elementVolumes (size : ℕ) (volume : (ℕ → ℕ → K) → ℕ → K) (elements : List (List ℕ))
    (nodes : ℕ → ℕ → K) : List K :=
  elements.map fun element => volume (elementNodes nodes element) (size - 1)

/-- What `get_basic_matrices` returns, `dynamics_factory_method.py:25-47`. `localStiffness k l t i j`
belongs to element number `t`; it is `None` in space. -/
structure BasicMatrices (K : Type _) where
  elementVolume : List K
  volumeAtNodes : ℕ → ℕ → K
  U : ℕ → ℕ → K
  V : ℕ → ℕ → ℕ → K
  W : ℕ → ℕ → ℕ → ℕ → K
  localStiffness : Option (ℕ → ℕ → ℕ → ℕ → ℕ → K)

/-- `get_basic_matrices` for triangles, `dynamics_factory_method.py:25-47`. -/
def basicMatrices2 (elements : List (List ℕ)) (nodes : ℕ → ℕ → K) : BasicMatrices K :=
  let F := edgesFeatures 3 Plane.features elements nodes
  { elementVolume := elementVolumes 3 Plane.volume elements nodes
    volumeAtNodes := F 0
    U := F 1
    V := fun j => F (2 + j)
    W := fun k j => F (2 + 2 * (k + 1) + j)
    localStiffness := some fun k l t i j =>
      Plane.localStiffness (elementNodes nodes (elements.getD t [])) k l i j }

/-- `get_basic_matrices` for tetrahedra, `dynamics_factory_method.py:25-47`. -/
def basicMatrices3 (elements : List (List ℕ)) (nodes : ℕ → ℕ → K) : BasicMatrices K :=
  let F := edgesFeatures 4 Space.features elements nodes
  { elementVolume := elementVolumes 4 Space.volume elements nodes
    volumeAtNodes := F 0
    U := F 1
    V := fun j => F (2 + j)
    W := fun k j => F (2 + 3 * (k + 1) + j)
    localStiffness := none }

section
omit [LinearOrder K]

/-- `np.block` of square blocks of size `N`. -/
def block (N : ℕ) (blocks : ℕ → ℕ → ℕ → ℕ → K) : ℕ → ℕ → K :=
  fun r s => blocks (r / N) (s / N) (r % N) (s % N)

namespace Plane

/-- `calculate_constitutive_matrices`, `_dynamics_factory_2d.py:163-168`. -/
def constitutive (N : ℕ) (W : ℕ → ℕ → ℕ → ℕ → K) (mu lam : K) : ℕ → ℕ → K :=
  block N fun a b p q => match a, b with
    | 0, 0 => (2 * mu + lam) * W 0 0 p q + mu * W 1 1 p q
    | 0, 1 => mu * W 1 0 p q + lam * W 0 1 p q
    | 1, 0 => lam * W 1 0 p q + mu * W 0 1 p q
    | 1, 1 => mu * W 0 0 p q + (2 * mu + lam) * W 1 1 p q
    | _, _ => 0

/-- `get_relaxation_tensor`, `_dynamics_factory_2d.py:170-175`. -/
def relaxationTensor (N : ℕ) (W : ℕ → ℕ → ℕ → ℕ → K) (c : ℕ → ℕ → ℕ → K) : ℕ → ℕ → K :=
  block N fun a b p q => match a, b with
    | 0, 0 => c 0 0 0 * W 0 0 p q + c 0 1 1 * W 1 1 p q
    | 0, 1 => c 0 1 0 * W 1 0 p q + c 0 0 1 * W 0 1 p q
    | 1, 0 => c 1 1 0 * W 1 0 p q + c 1 0 1 * W 0 1 p q
    | 1, 1 => c 1 0 0 * W 0 0 p q + c 1 1 1 * W 1 1 p q
    | _, _ => 0

/-- `calculate_acceleration`, `_dynamics_factory_2d.py:177-179`. -/
def acceleration (N : ℕ) (U : ℕ → ℕ → K) (density : K) : ℕ → ℕ → K :=
  fun r s => density * block N (fun a b p q => match a, b with
    | 0, 0 => U p q
    | 1, 1 => U p q
    | _, _ => 0) r s

/-- `calculate_thermal_expansion`, `_dynamics_factory_2d.py:181-184`: one row of blocks. -/
def thermalExpansion (N : ℕ) (V : ℕ → ℕ → ℕ → K) (c : ℕ → ℕ → K) : ℕ → ℕ → K :=
  block N fun a b p q => match a, b with
    | 0, 0 => c 0 0 * V 0 p q + c 0 1 * V 1 p q
    | 0, 1 => c 1 0 * V 0 p q + c 1 1 * V 1 p q
    | _, _ => 0

/-- `calculate_thermal_conductivity`, `_dynamics_factory_2d.py:186-192`, and
`get_permittivity_tensor`, lines 201-207. -/
def conductivity (W : ℕ → ℕ → ℕ → ℕ → K) (c : ℕ → ℕ → K) : ℕ → ℕ → K := fun p q =>
  c 0 0 * W 0 0 p q + c 0 1 * W 0 1 p q + c 1 0 * W 1 0 p q + c 1 1 * W 1 1 p q

/-- `get_piezoelectric_tensor`, `_dynamics_factory_2d.py:194-199`: one row of blocks. -/
def piezoelectricTensor (N : ℕ) (W : ℕ → ℕ → ℕ → ℕ → K) (c : ℕ → ℕ → ℕ → K) : ℕ → ℕ → K :=
  block N fun a b p q => match a, b with
    | 0, 0 => c 0 0 0 * W 0 0 p q + c 0 1 1 * W 1 1 p q + (c 0 1 0 * W 1 0 p q + c 0 0 1 * W 0 1 p q)
    | 0, 1 => c 1 0 0 * W 0 0 p q + c 1 1 1 * W 1 1 p q + (c 1 1 0 * W 1 0 p q + c 1 0 1 * W 0 1 p q)
    | _, _ => 0

end Plane

namespace Space

/-- `calculate_constitutive_matrices`, `_dynamics_factory_3d.py:154-175`. -/
def constitutive (N : ℕ) (W : ℕ → ℕ → ℕ → ℕ → K) (mu lam : K) : ℕ → ℕ → K :=
  block N fun a b p q => match a, b with
    | 0, 0 => (2 * mu + lam) * W 0 0 p q + mu * W 1 1 p q + lam * W 2 2 p q
    | 1, 1 => mu * W 0 0 p q + (2 * mu + lam) * W 1 1 p q + lam * W 2 2 p q
    | 2, 2 => mu * W 0 0 p q + lam * W 1 1 p q + (2 * mu + lam) * W 2 2 p q
    | 1, 0 => mu * W 1 0 p q + lam * W 0 1 p q
    | 2, 0 => mu * W 2 0 p q + lam * W 0 2 p q
    | 2, 1 => mu * W 2 1 p q + lam * W 1 2 p q
    | 0, 1 => lam * W 1 0 p q + mu * W 0 1 p q
    | 0, 2 => lam * W 2 0 p q + mu * W 0 2 p q
    | 1, 2 => lam * W 2 1 p q + mu * W 1 2 p q
    | _, _ => 0

/-- `calculate_acceleration`, `_dynamics_factory_3d.py:177-179`. -/
def acceleration (N : ℕ) (U : ℕ → ℕ → K) (density : K) : ℕ → ℕ → K :=
  fun r s => density * block N (fun a b p q => match a, b with
    | 0, 0 => U p q
    | 1, 1 => U p q
    | 2, 2 => U p q
    | _, _ => 0) r s

/-- `calculate_thermal_expansion`, `_dynamics_factory_3d.py:181-185`. -/
def thermalExpansion (N : ℕ) (V : ℕ → ℕ → ℕ → K) (c : ℕ → ℕ → K) : ℕ → ℕ → K :=
  block N fun a b p q => match a, b with
    | 0, 0 => c 0 0 * V 0 p q + c 0 1 * V 1 p q + c 0 2 * V 2 p q
    | 0, 1 => c 1 0 * V 0 p q + c 1 1 * V 1 p q + c 1 2 * V 2 p q
    | 0, 2 => c 2 0 * V 0 p q + c 2 1 * V 1 p q + c 2 2 * V 2 p q
    | _, _ => 0

/-- `calculate_thermal_conductivity`, `_dynamics_factory_3d.py:187-198`. -/
def conductivity (W : ℕ → ℕ → ℕ → ℕ → K) (c : ℕ → ℕ → K) : ℕ → ℕ → K := fun p q =>
  c 0 0 * W 0 0 p q + c 0 1 * W 0 1 p q + c 0 2 * W 0 2 p q
  + c 1 0 * W 1 0 p q + c 1 1 * W 1 1 p q + c 1 2 * W 1 2 p q
  + c 2 0 * W 2 0 p q + c 2 1 * W 2 1 p q + c 2 2 * W 2 2 p q

end Space

/-- `calculate_poisson_matrix`, `_abstract_dynamics_factory.py:39-40`: `W.diagonal()` is taken over
the first two axes, of length `dim`. -/
def poissonMatrix (dim : ℕ) (W : ℕ → ℕ → ℕ → ℕ → K) (propagation : K) : ℕ → ℕ → K := fun p q =>
  propagation ^ 2 * ∑ k ∈ Finset.range dim, W k k p q

/-- `asembly_w_matrix_with_density`, `conmech/dynamics/dynamics.py:78-87`; subscripting `None` is a
`TypeError`. -/
def assemblyWithDensity (size : ℕ) (elements : List (List ℕ))
    (localStiffness : Option (ℕ → ℕ → ℕ → ℕ → ℕ → K)) (density : ℕ → K) :
    Option (ℕ → ℕ → ℕ → ℕ → K) :=
  localStiffness.map fun L =>
    (elements.zipIdx).foldl (fun w et =>
      (List.range size).foldl (fun w i =>
        (List.range size).foldl (fun (w : ℕ → ℕ → ℕ → ℕ → K) j => fun k l p q =>
          if p = et.1.getD i 0 ∧ q = et.1.getD j 0 then w k l p q + density et.2 * L k l et.2 i j
          else w k l p q) w) w) fun _ _ _ _ => 0

end
end Conmech
