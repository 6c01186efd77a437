import Verif.Model.Assembly
/-!
`conmech/scene/body_forces.py` and the relaxation cache of `conmech/dynamics/dynamics.py`.
-/
namespace Conmech

section
variable {K : Type _} [Field K]

/-- `nph.euclidean_norm_numba`, `conmech/helpers/nph.py:26-28`, of a vector with `dim` entries. `sqrt`
is the square root of the field. -/
def euclideanNorm (sqrt : K → K) (dim : ℕ) (v : ℕ → K) : K :=
  sqrt (∑ k ∈ Finset.range dim, v k ^ 2)

/-- `np.cross` of vectors with three entries. -/
def crossProduct (a b : ℕ → K) : ℕ → K := fun k =>
  if k = 0 then a 1 * b 2 - a 2 * b 1
  else if k = 1 then a 2 * b 0 - a 0 * b 2
  else a 0 * b 1 - a 1 * b 0

/-- `element_volume_part_numba`, `conmech/scene/body_forces.py:24-35`; `X i` are the `count` nodes of the
face. Other dimensions raise `ArgumentError`. -/
def elementVolumePart (sqrt : K → K) (dim count : ℕ) (X : ℕ → ℕ → K) : Option K :=
  if dim = 2 then some (euclideanNorm sqrt 2 (fun k => X 0 k - X 1 k) / count)
  else if dim = 3 then
    some (1 / 2 * euclideanNorm sqrt 3
      (crossProduct (fun k => X 1 k - X 0 k) fun k => X 2 k - X 0 k) / count)
  else none

/-- `get_surface_per_boundary_node_numba`, `conmech/scene/body_forces.py:13-20`. Adding through an index
list adds once to each listed node. -/
def surfacePerBoundaryNode (sqrt : K → K) (dim : ℕ) (surfaces : List (List ℕ)) (nodes : ℕ → ℕ → K) :
    Option (ℕ → K) :=
  surfaces.foldlM (fun (s : ℕ → K) surface => do
    let part ← elementVolumePart sqrt dim surface.length (elementNodes nodes surface)
    return fun p => if p ∈ surface then s p + part else s p) fun _ => 0

/-- `get_integrated_inner_forces`, `conmech/scene/body_forces.py:68-71`, for nodal forces `f p a`. -/
def integratedInner (N : ℕ) (volumeAtNodes : ℕ → ℕ → K) (f : ℕ → ℕ → K) : ℕ → ℕ → K :=
  fun p a => ∑ q ∈ Finset.range N, volumeAtNodes p q * f q a

/-- `get_integrated_outer_forces`, `conmech/scene/body_forces.py:73-80`. -/
def integratedOuter (sqrt : K → K) (dim : ℕ) (neumann : List (List ℕ)) (nodes : ℕ → ℕ → K)
    (f : ℕ → ℕ → K) : Option (ℕ → ℕ → K) := do
  let s ← surfacePerBoundaryNode sqrt dim neumann nodes
  return fun p a => s p * f p a

/-- `integrate`, `conmech/scene/body_forces.py:82-89`: the sum stacked by coordinate,
`nph.stack_column`, `conmech/helpers/nph.py:11-12`. -/
def integrateForces (sqrt : K → K) (dim N : ℕ) (volumeAtNodes : ℕ → ℕ → K) (neumann : List (List ℕ))
    (nodes : ℕ → ℕ → K) (inner outer : ℕ → ℕ → K) : Option (ℕ → K) := do
  let o ← integratedOuter sqrt dim neumann nodes outer
  return fun r => integratedInner N volumeAtNodes inner (r % N) (r / N) + o (r % N) (r / N)

end

/-- `FieldSource`, `conmech/scene/body_forces.py:44-48`. `P` are nodes, `T` times, `V` values. -/
structure FieldSource (P T V : Type) where
  source : Option (P → T → V) := none
  cache : Option (List V) := none
  timestamp : Option T := none

namespace FieldSource
variable {P T V : Type} [DecidableEq T]

/-- `node_source`, `conmech/scene/body_forces.py:50-55`: the result and the new object. Calling `None`
is an error (first component `none`), unless there are no nodes. The result may itself be `None`. -/
def nodeSource (s : FieldSource P T V) (nodes : List P) (time : T) :
    Option (Option (List V)) × FieldSource P T V :=
  if some time ≠ s.timestamp then
    match s.source with
    | some f =>
      let cache := some (nodes.map fun x => f x time)
      (some cache, { s with cache := cache, timestamp := some time })
    | none =>
      match nodes with
      | [] => (some (some []), { s with cache := some [], timestamp := some time })
      | _ :: _ => (none, s)
  else (some s.cache, s)

/-- What `BodyForces.clear` does to each of its sources, `conmech/scene/body_forces.py:64-66`. -/
def clear (s : FieldSource P T V) : FieldSource P T V := { s with cache := none }

/-- `force.inner.source = f`, `conmech/simulations/problem_solver.py:69-73`. -/
def setSource (s : FieldSource P T V) (f : P → T → V) : FieldSource P T V := { s with source := some f }

end FieldSource

/-- The attributes `_w_matrix`, `__relaxation`, `__relaxation_tensor` of `Dynamics`,
`conmech/dynamics/dynamics.py:34-37`. `W` are stiffness matrices, `C` tensors, `R` operators. -/
structure RelaxationCache (W C R : Type) where
  wMatrix : W
  relaxation : Option R := none
  tensor : Option C := none

namespace RelaxationCache
variable {W C R T : Type} [DecidableEq C]

/-- `Dynamics.relaxation`, `conmech/dynamics/dynamics.py:89-101`, for bodies with
`ElasticRelaxationProperties`; `build` is `factory.get_relaxation_tensor` and `tensorAt` is
`properties.relaxation`. Comparing a tensor with `None` gives `True` everywhere. -/
def request (build : W → C → R) (tensorAt : T → C) (d : RelaxationCache W C R) (time : T) :
    Option R × RelaxationCache W C R :=
  let tensor := tensorAt time
  if some tensor ≠ d.tensor then
    let d := { d with tensor := some tensor, relaxation := some (build d.wMatrix tensor) }
    (d.relaxation, d)
  else (d.relaxation, d)

/-- `reinitialize_matrices`, `conmech/dynamics/dynamics.py:46-76`: of these attributes it changes only
`_w_matrix`. -/
def reinitialize (d : RelaxationCache W C R) (w : W) : RelaxationCache W C R := { d with wMatrix := w }

end RelaxationCache
end Conmech
