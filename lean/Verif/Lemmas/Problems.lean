import Verif.Model.Problems
/-!
The method resolution orders, computed once.
-/
namespace Conmech
open ProblemClass

/-- The method resolution orders as a table. -/
def mroTable : ProblemClass → List ProblemClass
  | object => [object]
  | ABC => [ABC, object]
  | Problem => [Problem, ABC, object]
  | StaticProblem => [StaticProblem, Problem, ABC, object]
  | TimeDependentProblem => [TimeDependentProblem, Problem, ABC, object]
  | QuasistaticProblem => [QuasistaticProblem, TimeDependentProblem, Problem, ABC, object]
  | DynamicProblem => [DynamicProblem, TimeDependentProblem, Problem, ABC, object]
  | PoissonProblem => [PoissonProblem, StaticProblem, Problem, ABC, object]
  | WaveProblem => [WaveProblem, DynamicProblem, TimeDependentProblem, Problem, ABC, object]
  | ContactWaveProblem =>
    [ContactWaveProblem, WaveProblem, DynamicProblem, TimeDependentProblem, Problem, ABC, object]
  | InteriorContactWaveProblem =>
    [InteriorContactWaveProblem, ContactWaveProblem, WaveProblem, DynamicProblem,
     TimeDependentProblem, Problem, ABC, object]
  | DisplacementProblem => [DisplacementProblem, Problem, ABC, object]
  | StaticDisplacementProblem =>
    [StaticDisplacementProblem, DisplacementProblem, StaticProblem, Problem, ABC, object]
  | TimeDependentDisplacementProblem =>
    [TimeDependentDisplacementProblem, DisplacementProblem, Problem, ABC, object]
  | QuasistaticDisplacementProblem =>
    [QuasistaticDisplacementProblem, QuasistaticProblem, TimeDependentProblem,
     TimeDependentDisplacementProblem, DisplacementProblem, Problem, ABC, object]
  | DynamicDisplacementProblem =>
    [DynamicDisplacementProblem, DynamicProblem, TimeDependentProblem,
     TimeDependentDisplacementProblem, DisplacementProblem, Problem, ABC, object]
  | TemperatureTimeDependentProblem =>
    [TemperatureTimeDependentProblem, TimeDependentDisplacementProblem, DisplacementProblem,
     Problem, ABC, object]
  | PiezoelectricTimeDependentProblem =>
    [PiezoelectricTimeDependentProblem, TimeDependentDisplacementProblem, DisplacementProblem,
     Problem, ABC, object]
  | RelaxationQuasistaticProblem =>
    [RelaxationQuasistaticProblem, QuasistaticDisplacementProblem, QuasistaticProblem,
     TimeDependentProblem, TimeDependentDisplacementProblem, DisplacementProblem, Problem, ABC,
     object]
  | TemperatureDynamicProblem =>
    [TemperatureDynamicProblem, DynamicProblem, TimeDependentProblem,
     TemperatureTimeDependentProblem, TimeDependentDisplacementProblem, DisplacementProblem,
     Problem, ABC, object]
  | PiezoelectricQuasistaticProblem =>
    [PiezoelectricQuasistaticProblem, QuasistaticDisplacementProblem, QuasistaticProblem,
     TimeDependentProblem, PiezoelectricTimeDependentProblem, TimeDependentDisplacementProblem,
     DisplacementProblem, Problem, ABC, object]
  | PiezoelectricDynamicProblem =>
    [PiezoelectricDynamicProblem, DynamicDisplacementProblem, DynamicProblem,
     TimeDependentProblem, PiezoelectricTimeDependentProblem, TimeDependentDisplacementProblem,
     DisplacementProblem, Problem, ABC, object]

theorem mro_eq (c : ProblemClass) : c.mro = mroTable c := by
  cases c <;> decide +kernel

theorem isInstance_eq (c base : ProblemClass) :
    c.isInstance base = (mroTable c).contains base := by
  rw [ProblemClass.isInstance, mro_eq]

end Conmech
