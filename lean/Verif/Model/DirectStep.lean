import Verif.Model.OptimisedStep
/-!
`solve` of the direct solver. Transcription of `conmech/solvers/solver.py` 82-101 together with `direct.py`
51-92 and `solver_methods.py` 61-148. `scipy.optimize.fsolve` and `np.linalg.solve` are external.
-/
namespace Conmech

variable {K : Type _} [Field K]

/-- What `solve` of the direct solver may raise: `numba.njit` is given something that is not a function
(already in the constructor, `solver_methods.py` 98), arrays do not fit, or the matrix is singular. -/
inductive DirectError where
  | notFunction
  | shape
  | singular
  deriving DecidableEq

/-- What the direct solver reads from the body and itself besides the system (`direct.py` 65-82).
`dimension` is the length of the normals. -/
structure DirectSetting (K : Type _) where
  sqrt : K → K
  dimension : ℕ
  nodes : ℕ → ℕ → K
  surfaces : List (Surface K)
  displacement : ℕ → K
  volumeMultiplier : ℕ → ℕ → K
  timeStep : K

/-- The root finder, given the number of unknowns, the equations and the initial guess. -/
abbrev RootFinder (K : Type _) := ℕ → ((ℕ → K) → ℕ → K) → (ℕ → K) → ℕ → K

/-- The solver of linear systems, given their size; nothing if the matrix is singular. -/
abbrev LinearSolver (K : Type _) := ℕ → (ℕ → ℕ → K) → (ℕ → K) → Option (ℕ → K)

/-- `direct.py` 68-82 for an equation with one entry (`solver_methods.py` 66-95): `fsolve` refuses
functions whose values do not have the length of the guess. -/
def solveScalar (fsolve : RootFinder K) (m : DirectSetting K) (contact : K → K → K → K) (n : ℕ) (S : System K)
    (len : ℕ) (guess : ℕ → K) : Except DirectError (ℕ → K) :=
  if len = 1 ∧ n = 1 then
    .ok (fsolve len (fun x _ => interiorEnergy contact n S.lhs S.rhs m.displacement m.volumeMultiplier
      m.timeStep ⟨len, x⟩) guess)
  else .error .shape

/-- `direct.py` 59-92: `_solve_impl` for a system with `n` equations and an initial guess of length `len`.
`make_equation` is called without a dimension, hence with its default, two: the mean of two entries is
multiplied with the normal (`solver_methods.py` 111-115), `np.dot(lhs, var)` needs as many columns as
unknowns (144), and the linear solution is filled up with zeros (86-91). -/
def directImpl (fsolve : RootFinder K) (linalg : LinearSolver K) (m : DirectSetting K) (init : DirectInit K)
    (n : ℕ) (S : System K) (len : ℕ) (guess : ℕ → K) : Except DirectError (ℕ → K) :=
  match init with
  | .linear =>
    match linalg n S.lhs S.rhs with
    | none => .error .singular
    | some x => .ok fun r => if r < n then x r else 0
  | .general contact => solveScalar fsolve m contact n S len guess
  | .equation .missing => solveScalar fsolve m (fun _ _ _ => 0) n S len guess
  | .equation (.number _) => .error .notFunction
  | .equation (.function jn) =>
    if n = len ∧ (m.dimension = 2 ∨ m.surfaces = []) then
      .ok (fsolve len (fun x => directEquation m.sqrt jn 2 m.nodes m.surfaces S.lhs S.rhs ⟨len, x⟩) guess)
    else .error .shape

/-- `solve`, `solver.py` 82-101: the prescribed values are written over the result. -/
def directSolve (fsolve : RootFinder K) (linalg : LinearSolver K) (m : DirectSetting K) (init : DirectInit K)
    (N dim : ℕ) (bs : List (CondBoundary K)) (S : System K) (len : ℕ) (guess : ℕ → K) :
    Except DirectError (ℕ → K) :=
  match directImpl fsolve linalg m init (dim * N) S len guess with
  | .error e => .error e
  | .ok x => .ok (solverSolve (fun _ => x) N dim bs guess)

end Conmech
