import Verif.Model.Registry
import Verif.Model.Schur
/-
Model of the solver classes: `conmech/solvers/solver.py`, `direct.py`,
`optimization/global_optimization.py`, `optimization/schur_complement.py`.
-/
namespace Conmech

/-- The registered solver classes. -/
inductive SolverClass where
  | direct
  | staticGlobal | quasistaticGlobal | quasistaticRelaxedGlobal | dynamicGlobal
  | staticSchur | quasistaticSchur | quasistaticRelaxedSchur | dynamicSchur
deriving DecidableEq, Repr

/-- The class is derived from `SchurComplementOptimization`. -/
def SolverClass.isSchur : SolverClass → Bool
  | .staticSchur | .quasistaticSchur | .quasistaticRelaxedSchur | .dynamicSchur => true
  | _ => false

/-- `__str__`: `direct.py:48-49`, `global_optimization.py:13-14`, `schur_complement.py:65-66`. -/
def SolverClass.str : SolverClass → String
  | .direct => "direct"
  | .staticGlobal | .quasistaticGlobal | .quasistaticRelaxedGlobal | .dynamicGlobal =>
    "global optimization"
  | .staticSchur | .quasistaticSchur | .quasistaticRelaxedSchur | .dynamicSchur => "schur"

/-- The registrations in the order in which the modules are imported, `conmech/solvers/__init__.py`;
the decorators of one class are applied from bottom to top: `direct.py:18-19`,
`global_optimization.py:25, 30, 43, 55`, `schur_complement.py:142, 147, 161-163, 177`. -/
def conmechRegistrations : List (DynamismArg × List String × SolverClass) :=
  [(.one .static, ["direct"], .direct),
   (.one .dynamic, ["direct"], .direct),
   (.one .static, ["global", "global optimization"], .staticGlobal),
   (.one .quasistatic, ["global", "global optimization"], .quasistaticGlobal),
   (.one .quasistaticRelaxation, ["global", "global optimization"], .quasistaticRelaxedGlobal),
   (.one .dynamic, ["global", "global optimization"], .dynamicGlobal),
   (.one .static, ["schur", "schur complement", "schur complement method"], .staticSchur),
   (.one .quasistatic, ["schur", "schur complement", "schur complement method"], .quasistaticSchur),
   (.one .quasistaticRelaxation, ["schur", "schur complement", "schur complement method"],
    .quasistaticRelaxedSchur),
   (.one .dynamic, ["schur", "schur complement", "schur complement method"], .dynamicSchur)]

/-- The registry after a sequence of registrations; stops at the first failure. -/
def registerAll (lower : String → String) {Solver : Type _} :
    List (DynamismArg × List String × Solver) → Registry Solver →
      Registry Solver × Option RegistryError
  | [], r => (r, none)
  | (arg, names, solver) :: rest, r =>
    match register lower arg names solver r with
    | (r', some e) => (r', some e)
    | (r', none) => registerAll lower rest r'

variable {K : Type _} [Field K]

/-- The fields of a `Solver` (`conmech/solvers/solver.py:36-65`) together with the system held by its
statement and, for Schur solvers, the condensed data. -/
structure SolverState (K : Type _) where
  timeStep : K
  currentTime : K
  bVector : ℕ → K
  uVector : ℕ → K
  vVector : ℕ → K
  tVector : ℕ → K
  pVector : ℕ → K
  system : System K
  schur : Option (SchurSolver K)

/-- `Solver.__init__`, `conmech/solvers/solver.py:28-65`, and for Schur solvers
`schur_complement.py:32-42`. -/
def solverInit (inv : ℕ → (ℕ → ℕ → K) → ℕ → ℕ → K) (cls : SolverClass) (kind : StatementKind)
    (ops : Operators K) (bs : List (CondBoundary K)) (contactCount : ℕ) (drivingVector : Bool)
    (timeStep : K) : Except StatementError (SolverState K) := do
  let zero : ℕ → K := fun _ => 0
  let system ← kind.update ops bs
    { absement := some zero, displacement := some zero, velocity := some zero,
      temperature := some zero, electricPotential := some zero, timeStep := some timeStep,
      time := some 0 }
  return { timeStep := timeStep, currentTime := 0, bVector := zero, uVector := zero, vVector := zero
           tVector := zero, pVector := zero, system := system
           schur := if cls.isSchur then
             some (SchurSolver.init inv ops.nodesCount contactCount (kind.dimensionIn ops.dimension)
               drivingVector system) else none }

/-- The variables given to `statement.update` by `iterate`; `none` where `iterate` is the empty
method of `Solver` (`solver.py:70-71`), `global_optimization.py:30-66`,
`schur_complement.py:147-190`. -/
def SolverClass.iterateVariables (s : SolverState K) : SolverClass → Option (Variables K)
  | .direct | .staticGlobal | .staticSchur => none
  | .quasistaticGlobal | .quasistaticSchur => some
    { displacement := some s.uVector, electricPotential := some s.pVector,
      timeStep := some s.timeStep, time := some s.currentTime }
  | .quasistaticRelaxedGlobal => some
    { absement := some s.bVector, displacement := some s.uVector, timeStep := some s.timeStep }
  | .quasistaticRelaxedSchur => some
    { absement := some s.bVector, displacement := some s.uVector, timeStep := some s.timeStep,
      time := some s.currentTime }
  | .dynamicGlobal | .dynamicSchur => some
    { displacement := some s.uVector, velocity := some s.vVector, temperature := some s.tVector,
      electricPotential := some s.pVector, timeStep := some s.timeStep,
      time := some s.currentTime }

/-- Update of the statement followed, for Schur solvers, by `recalculate_forces`. -/
def SolverState.updateSystem (s : SolverState K) (kind : StatementKind) (ops : Operators K)
    (bs : List (CondBoundary K)) (var : Variables K) : Except StatementError (SolverState K) := do
  let system ← kind.update ops bs var
  return { s with system := system, schur := s.schur.map fun c => c.recalculateForces system.rhs }

/-- `iterate` -/
def SolverState.iterate (s : SolverState K) (cls : SolverClass) (kind : StatementKind)
    (ops : Operators K) (bs : List (CondBoundary K)) : Except StatementError (SolverState K) :=
  match cls.iterateVariables s with
  | none => .ok s
  | some var => s.updateSystem kind ops bs var

end Conmech
