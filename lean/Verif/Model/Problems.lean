import Verif.Model.Statement
/-
Model of the class hierarchy of `conmech/scenarios/problems.py` and of Python's method resolution.
-/
namespace Conmech

/-- The problem classes, `conmech/scenarios/problems.py:33-224`. -/
inductive ProblemClass where
  | object | ABC
  | Problem | StaticProblem | TimeDependentProblem | QuasistaticProblem | DynamicProblem
  | PoissonProblem | WaveProblem | ContactWaveProblem | InteriorContactWaveProblem
  | DisplacementProblem | StaticDisplacementProblem | TimeDependentDisplacementProblem
  | QuasistaticDisplacementProblem | DynamicDisplacementProblem
  | TemperatureTimeDependentProblem | PiezoelectricTimeDependentProblem
  | RelaxationQuasistaticProblem | TemperatureDynamicProblem
  | PiezoelectricQuasistaticProblem | PiezoelectricDynamicProblem
deriving DecidableEq, Repr

open ProblemClass

/-- All classes of the file. -/
def ProblemClass.all : List ProblemClass :=
  [object, ABC, Problem, StaticProblem, TimeDependentProblem, QuasistaticProblem, DynamicProblem,
   PoissonProblem, WaveProblem, ContactWaveProblem, InteriorContactWaveProblem, DisplacementProblem,
   StaticDisplacementProblem, TimeDependentDisplacementProblem, QuasistaticDisplacementProblem,
   DynamicDisplacementProblem, TemperatureTimeDependentProblem, PiezoelectricTimeDependentProblem,
   RelaxationQuasistaticProblem, TemperatureDynamicProblem, PiezoelectricQuasistaticProblem,
   PiezoelectricDynamicProblem]

/-- The bases in the order written, `conmech/scenarios/problems.py`. -/
def ProblemClass.bases : ProblemClass → List ProblemClass
  | object => []
  | ABC => [object]
  | Problem => [ABC]
  | StaticProblem => [Problem, ABC]
  | TimeDependentProblem => [Problem, ABC]
  | QuasistaticProblem => [TimeDependentProblem, ABC]
  | DynamicProblem => [TimeDependentProblem, ABC]
  | PoissonProblem => [StaticProblem, ABC]
  | WaveProblem => [DynamicProblem, ABC]
  | ContactWaveProblem => [WaveProblem, ABC]
  | InteriorContactWaveProblem => [ContactWaveProblem, ABC]
  | DisplacementProblem => [Problem, ABC]
  | StaticDisplacementProblem => [DisplacementProblem, StaticProblem, ABC]
  | TimeDependentDisplacementProblem => [DisplacementProblem, ABC]
  | QuasistaticDisplacementProblem => [QuasistaticProblem, TimeDependentDisplacementProblem, ABC]
  | DynamicDisplacementProblem => [DynamicProblem, TimeDependentDisplacementProblem, ABC]
  | TemperatureTimeDependentProblem => [TimeDependentDisplacementProblem, ABC]
  | PiezoelectricTimeDependentProblem => [TimeDependentDisplacementProblem, ABC]
  | RelaxationQuasistaticProblem => [QuasistaticDisplacementProblem, ABC]
  | TemperatureDynamicProblem => [DynamicProblem, TemperatureTimeDependentProblem, ABC]
  | PiezoelectricQuasistaticProblem =>
    [QuasistaticDisplacementProblem, PiezoelectricTimeDependentProblem, ABC]
  | PiezoelectricDynamicProblem =>
    [DynamicDisplacementProblem, PiezoelectricTimeDependentProblem, ABC]

/-- The merge of C3 linearisation: take the first head that is in no tail. `fuel` bounds the length
of the result. -/
def c3Merge : Nat → List (List ProblemClass) → Option (List ProblemClass)
  | 0, _ => none
  | fuel + 1, ls =>
    let ls := ls.filter fun l => !l.isEmpty
    if ls.isEmpty then some [] else
      match (ls.filterMap List.head?).find? fun h => ls.all fun l => !l.tail.contains h with
      | none => none
      | some h =>
        (c3Merge fuel (ls.map fun l => if l.head? = some h then l.tail else l)).map (h :: ·)

/-- Python's method resolution order (`type.__mro__`). `fuel` bounds the depth of the hierarchy. -/
def mroFuel : Nat → ProblemClass → Option (List ProblemClass)
  | 0, _ => none
  | fuel + 1, c => do
    let parents ← c.bases.mapM (mroFuel fuel)
    let rest ← c3Merge 40 (parents ++ [c.bases])
    return c :: rest

/-- `cls.__mro__` -/
def ProblemClass.mro (c : ProblemClass) : List ProblemClass := (mroFuel 12 c).getD []

/-- The class method `statement` where a class defines it itself: `some none` returns `None`. -/
def ProblemClass.ownStatement : ProblemClass → Option (Option StatementKind)
  | PoissonProblem => some none
  | WaveProblem => some (some .wave)
  | StaticDisplacementProblem => some (some .staticDisplacement)
  | QuasistaticDisplacementProblem => some (some .quasistaticVelocity)
  | DynamicDisplacementProblem => some (some .dynamicVelocity)
  | RelaxationQuasistaticProblem => some (some .quasistaticRelaxation)
  | TemperatureDynamicProblem => some (some .dynamicVelocityWithTemperature)
  | PiezoelectricQuasistaticProblem => some (some .quasistaticVelocityWithPiezoelectric)
  | _ => none

/-- The class method `second_statement` where a class defines it itself. -/
def ProblemClass.ownSecondStatement : ProblemClass → Option (Option StatementKind)
  | Problem => some none
  | PoissonProblem => some (some .staticPoisson)
  | TemperatureTimeDependentProblem => some (some .temperature)
  | PiezoelectricTimeDependentProblem => some (some .piezoelectric)
  | _ => none

/-- `problem.statement(body)`: the first definition along the method resolution order; `none` is the
`NotImplementedError` of `Problem`, `problems.py:39-41`. -/
def ProblemClass.statement (c : ProblemClass) : Option (Option StatementKind) :=
  c.mro.findSome? ownStatement

/-- `problem.second_statement(body)`. -/
def ProblemClass.secondStatement (c : ProblemClass) : Option (Option StatementKind) :=
  c.mro.findSome? ownSecondStatement

/-- `isinstance(problem, base)` for a problem of class `c`. -/
def ProblemClass.isInstance (c base : ProblemClass) : Bool := c.mro.contains base

end Conmech
