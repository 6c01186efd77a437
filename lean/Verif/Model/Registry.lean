import Verif.Model.Problems
/-
Model of `conmech/solvers/_solvers.py`.
-/
namespace Conmech

/-- The keys of `SolversRegistry.solvers`, `conmech/solvers/_solvers.py:14-19`. -/
inductive Dynamism where
  | static | quasistatic | quasistaticRelaxation | dynamic
deriving DecidableEq, Repr

/-- `SolversRegistry.solvers`: for each kind of problem a dictionary of names. A dictionary is the
list of its items in insertion order. -/
def Registry (Solver : Type _) := Dynamism → List (String × Solver)

/-- The first argument of `register`: one kind of problem, the star, or a string which is no key. -/
inductive DynamismArg where
  | star
  | one (d : Dynamism)
  | other

/-- What `register` does when applied to a class. -/
inductive RegistryError where
  /-- `assert lower_name not in dyn` fails -/
  | nameTaken
  /-- `KeyError` of `SolversRegistry.solvers[dynamism_type]` in `register` -/
  | unknownDynamism
  /-- `KeyError` of `dyn[solver_name.lower()]` -/
  | unknownName
  /-- `ValueError("Unsupported class")` -/
  | unsupported
deriving DecidableEq, Repr

variable {Solver : Type _}

/-- `dynamism_types`, `_solvers.py:23-26`. -/
def DynamismArg.types : DynamismArg → List Dynamism
  | .star => [.static, .quasistatic, .dynamic]
  | .one d => [d]
  | .other => []

/-- `dyn[lower_name] = solver` for a name that is not in the dictionary yet. -/
def Registry.insert (r : Registry Solver) (d : Dynamism) (key : String) (solver : Solver) :
    Registry Solver := fun e => if e = d then r e ++ [(key, solver)] else r e

/-- The inner loop, `_solvers.py:31-34`. The error is the failed assertion; names entered before it
stay in the dictionary. -/
def registerNames (lower : String → String) (solver : Solver) (d : Dynamism) :
    List String → Registry Solver → Registry Solver × Option RegistryError
  | [], r => (r, none)
  | name :: names, r =>
    if ((r d).lookup (lower name)).isSome then (r, some .nameTaken)
    else registerNames lower solver d names (r.insert d (lower name) solver)

/-- The outer loop, `_solvers.py:29-30`. -/
def registerTypes (lower : String → String) (solver : Solver) (names : List String) :
    List Dynamism → Registry Solver → Registry Solver × Option RegistryError
  | [], r => (r, none)
  | d :: ds, r =>
    match registerNames lower solver d names r with
    | (r', some e) => (r', some e)
    | (r', none) => registerTypes lower solver names ds r'

/-- `register(dynamism, *names)(solver)`, `_solvers.py:21-37`. -/
def register (lower : String → String) (arg : DynamismArg) (names : List String) (solver : Solver)
    (r : Registry Solver) : Registry Solver × Option RegistryError :=
  match arg with
  | .other => (r, some .unknownDynamism)
  | arg => registerTypes lower solver names arg.types r

/-- The empty dictionaries, `_solvers.py:14-19`. -/
def Registry.empty : Registry Solver := fun _ => []

/-- The choice of the kind of problem, `_solvers.py:41-51`. -/
def dynamismOf (c : ProblemClass) : Except RegistryError Dynamism :=
  if c.isInstance .RelaxationQuasistaticProblem then .ok .quasistaticRelaxation
  else if c.isInstance .StaticProblem then .ok .static
  else if c.isInstance .QuasistaticProblem then .ok .quasistatic
  else if c.isInstance .DynamicProblem then .ok .dynamic
  else .error .unsupported

/-- `get_by_name`, `_solvers.py:39-53`. -/
def getByName (lower : String → String) (r : Registry Solver) (name : String) (c : ProblemClass) :
    Except RegistryError Solver := do
  let d ← dynamismOf c
  match (r d).lookup (lower name) with
  | some s => .ok s
  | none => .error .unknownName

end Conmech
