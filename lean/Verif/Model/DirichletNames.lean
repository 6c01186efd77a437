import Verif.Model.Statement
/-
Model of the names of boundaries: `conmech/mesh/boundaries_description.py`, the registration in
`conmech/mesh/boundaries_factory.py:230-251`, `Boundaries.__init__` and
`Statement.find_dirichlet_conditions`.
-/
namespace Conmech

/-- A keyword argument of `BoundariesDescription`: the name, whether the indicator selects at least
one surface node of the mesh, and whether the value is a tuple with a condition,
`conmech/mesh/boundaries_description.py:14-21`. -/
structure Declared where
  name : String
  hasNodes : Bool
  hasCondition : Bool

/-- Names of parameters `Boundaries(...)` is called with explicitly,
`conmech/mesh/boundaries_factory.py:244-251` (`self` is passed by the call). -/
def reservedNames : List String :=
  ["self", "nodes", "boundary_internal_indices", "contact", "neumann", "dirichlet"]

/-- The loop over the other boundaries, `conmech/mesh/boundaries_factory.py:230-242`: names which get
registered, or the `KeyError` of `conditions[name]`. -/
def otherNames : List Declared → Except String (List String)
  | [] => .ok []
  | d :: ds =>
    if d.name = "contact" ∨ d.name = "dirichlet" then otherNames ds
    else if d.hasNodes then
      if d.hasCondition then
        match otherNames ds with
        | .ok rest => .ok (d.name :: rest)
        | .error e => .error e
      else .error "KeyError"
    else otherNames ds

/-- Keys of `Boundaries.boundaries` after construction, `conmech/mesh/boundaries_factory.py:244-251`,
`conmech/mesh/boundaries.py:70-75`; passing one of the explicit names again is a `TypeError`. -/
def registeredNames (ds : List Declared) : Except String (List String) :=
  match otherNames ds with
  | .error e => .error e
  | .ok others =>
    if others.any (fun n => reservedNames.contains n) then .error "TypeError"
    else .ok (["contact", "neumann", "dirichlet"] ++ others)

/-- `self.dirichlet_cond_name + "_" + str(i)`, `conmech/dynamics/statement.py:61`. -/
def numberedName (base : String) (i : Nat) : String := base ++ "_" ++ toString i

/-- The `while True` loop of `find_dirichlet_conditions`, `conmech/dynamics/statement.py:60-66`, with
a bound on the number of iterations. -/
def numberedLoop (base : String) (names : List String) : Nat → Nat → List String
  | 0, _ => []
  | fuel + 1, i =>
    if numberedName base i ∈ names then
      numberedName base i :: numberedLoop base names fuel (i + 1)
    else []

/-- `find_dirichlet_conditions`, `conmech/dynamics/statement.py:54-66`. Each iteration of the loop
finds another key of the dictionary, so one more iteration than there are keys is enough (that the
bound is never the reason to stop is part of `C15_found_names`). -/
def findDirichletConditions (base : String) (names : List String) : List String :=
  if base ∈ names then [base] else numberedLoop base names (names.length + 1) 0

/-- `self.dirichlet_cond_name`: set by `Statement.__init__`, `conmech/dynamics/statement.py:27`, and
changed by `PiezoelectricStatement.__init__`, line 232, only. -/
def StatementKind.dirichletCondName : StatementKind → String
  | .piezoelectric => "piezo_" ++ "dirichlet"
  | _ => "dirichlet"

end Conmech
