import Verif.Model.Problems
import Verif.Model.BodyForces
/-
Model of how the sources of a problem (forces, heat sources) are called and of the shapes of the
results: `conmech/scenarios/problems.py:47-57, 91-97`, `conmech/scene/body_forces.py:50-89`.
-/
namespace Conmech

/-- The parameters of a Python function that can be given by position, and how many of them have no
default. Parameters after `*` are not counted. -/
structure Signature where
  required : ℕ
  positional : ℕ
deriving DecidableEq, Repr

/-- A call with `n` positional arguments does not raise `TypeError`. -/
def Signature.accepts (s : Signature) (n : ℕ) : Bool := decide (s.required ≤ n ∧ n ≤ s.positional)

/-- A source: a function of a node and a time that returns a one-dimensional array. -/
structure Source (K : Type) where
  signature : Signature
  value : List K → K → List K

/-- Ways in which the sources can fail. -/
inductive SourceError where
  /-- `TypeError` of the call -/
  | call
  /-- `ValueError`: arrays of different shapes -/
  | shape
deriving DecidableEq, Repr

variable {K : Type} [Field K]

/-- `Problem.inner_forces` and `Problem.outer_forces`, `problems.py:47-57`: `v` and `t` can only be given
by name. -/
def Source.defaultForces : Source K :=
  { signature := ⟨1, 1⟩, value := fun x _ => x.map fun _ => 0 }

/-- `PoissonProblem.internal_temperature` and `outer_temperature`, `problems.py:91-97`. -/
def Source.defaultTemperature : Source K :=
  { signature := ⟨1, 2⟩, value := fun x _ => List.replicate x.length 0 }

/-- `node_source` at a new time, `body_forces.py:53`: the source is called with a node and the time; the
rows of an array have the same length. -/
def Source.rows (s : Source K) (nodes : List (List K)) (time : K) : Except SourceError (List (List K)) :=
  if nodes ≠ [] ∧ s.signature.accepts 2 = false then .error .call
  else
    let rows := nodes.map fun x => s.value x time
    if rows.all fun r => r.length == (rows.headD []).length then .ok rows else .error .shape

/-- The length of the result of an operation of numpy on axes of the given lengths. -/
def broadcast (m n : ℕ) : Except SourceError ℕ :=
  if m = n then .ok m else if m = 1 then .ok n else if n = 1 then .ok m else .error .shape

/-- Entry of a row that may be repeated along its axis. -/
def broadcastEntry (row : List K) (a : ℕ) : K := row.getD (if row.length = 1 then 0 else a) 0

/-- `integrate` at a new time, `body_forces.py:68-89`: `volume` is `volume_at_nodes` and `surface` is the
result of `get_surface_per_boundary_node_numba`. -/
def integrateSources (volume : ℕ → ℕ → K) (surface : ℕ → K) (inner outer : Source K)
    (nodes : List (List K)) (time : K) : Except SourceError (List K) := do
  let f ← inner.rows nodes time
  let g ← outer.rows nodes time
  let N := nodes.length
  let columns ← broadcast (f.headD []).length (g.headD []).length
  return (List.range (columns * N)).map fun r =>
    (∑ q ∈ Finset.range N, volume (r % N) q * broadcastEntry (f.getD q []) (r / N)) +
      surface (r % N) * broadcastEntry (g.getD (r % N) []) (r / N)

/-- `a + b` of one-dimensional arrays. -/
def addArrays (a b : List K) : Except SourceError (List K) := do
  let n ← broadcast a.length b.length
  return (List.range n).map fun r => broadcastEntry a r + broadcastEntry b r

/-- `np.linalg.solve(matrix, vector)` for a square matrix with `n` rows, `conmech/solvers/direct.py:84`;
`solve` is the numerical method. -/
def linalgSolve (solve : List K → List K) (n : ℕ) (vector : List K) : Except SourceError (List K) :=
  if vector.length = n then .ok (solve vector) else .error .shape

end Conmech
