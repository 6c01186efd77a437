import Verif.Model.Simulations
import Verif.Spec.Registry
/-
Specification for C78: which simulation is made for which problem, and the operators that belong to
the coefficients of a problem.
-/
namespace Conmech.Spec
open Conmech

/-- The class of problems in the signature of each constructor, `conmech/simulations/problem_solver.py`. -/
def annotated : SimulationClass → ProblemClass
  | .poisson => .Problem
  | .static | .nonHomogenous => .StaticDisplacementProblem
  | .relaxation => .RelaxationQuasistaticProblem
  | .timeDependent => .TimeDependentDisplacementProblem
  | .temperature => .TemperatureTimeDependentProblem
  | .piezoelectric => .PiezoelectricTimeDependentProblem
  | .wave => .WaveProblem

/-- The simulation made for the physics of a problem. -/
def Suits (s : SimulationClass) (c : ProblemClass) : Prop :=
  match s with
  | .poisson => c = .PoissonProblem
  | .static | .nonHomogenous => c = .StaticDisplacementProblem
  | .relaxation => c = .RelaxationQuasistaticProblem
  | .timeDependent => c = .QuasistaticDisplacementProblem ∨ c = .DynamicDisplacementProblem
  | .temperature => c = .TemperatureDynamicProblem
  | .piezoelectric => c = .PiezoelectricQuasistaticProblem ∨ c = .PiezoelectricDynamicProblem
  | .wave => c = .WaveProblem ∨ c = .ContactWaveProblem ∨ c = .InteriorContactWaveProblem

/-- The first or the second equation of problems of class `c`. -/
def EquationOf (c : ProblemClass) (kind : StatementKind) : Prop :=
  c.statement = some (some kind) ∨ c.secondStatement = some (some kind)

variable {K : Type} [Field K]

/-- The operators of a plane body of the given density with the coefficients of the problem; waves
travel with speed `speed`. -/
def planeOperators (N : ℕ) (m : BasicMatrices K) (d : ProblemData K) (density speed : K)
    (force bodyTemperature : K → ℕ → K) : Operators K :=
  { nodesCount := N, dimension := 2
    elasticity := Plane.constitutive N m.W d.muCoef d.laCoef
    viscosity := Plane.constitutive N m.W d.thCoef d.zeCoef
    acceleration := Plane.acceleration N m.U density
    poisson := poissonMatrix 2 m.W speed
    thermalExpansion := Plane.thermalExpansion N m.V d.thermalExpansion
    thermalConductivity := Plane.conductivity m.W d.thermalConductivity
    permittivity := Plane.conductivity m.W d.permittivity
    piezoelectricity := Plane.piezoelectricTensor N m.W d.piezoelectricity
    relaxation := fun time => time.elim (.error .relaxation) fun t =>
      .ok (Plane.relaxationTensor N m.W (d.relaxation t))
    force := force, bodyTemperature := bodyTemperature }

/-- The same for bodies in space of density one. There are no piezoelectric operators. -/
def spaceOperators (N : ℕ) (m : BasicMatrices K) (d : ProblemData K) (speed : K)
    (relaxation : Option K → Except StatementError (ℕ → ℕ → K))
    (force bodyTemperature : K → ℕ → K) : Operators K :=
  { nodesCount := N, dimension := 3
    elasticity := Space.constitutive N m.W d.muCoef d.laCoef
    viscosity := Space.constitutive N m.W d.thCoef d.zeCoef
    acceleration := Space.acceleration N m.U 1
    poisson := poissonMatrix 3 m.W speed
    thermalExpansion := Space.thermalExpansion N m.V d.thermalExpansion
    thermalConductivity := Space.conductivity m.W d.thermalConductivity
    permittivity := fun _ _ => 0
    piezoelectricity := fun _ _ => 0
    relaxation := relaxation
    force := force, bodyTemperature := bodyTemperature }

/-- The speed of waves: that of the problem, one for Poisson problems. -/
def waveSpeed (d : ProblemData K) (c : ProblemClass) : K :=
  if c = .PoissonProblem then 1 else d.propagation

/-- Two bodies have the same operator of this name. -/
def SameOperator (a b : Operators K) : OperatorName → Prop
  | .acceleration => a.acceleration = b.acceleration
  | .elasticity => a.elasticity = b.elasticity
  | .viscosity => a.viscosity = b.viscosity
  | .thermalExpansion => a.thermalExpansion = b.thermalExpansion
  | .thermalConductivity => a.thermalConductivity = b.thermalConductivity
  | .piezoelectricity => a.piezoelectricity = b.piezoelectricity
  | .permittivity => a.permittivity = b.permittivity
  | .poisson => a.poisson = b.poisson
  | .relaxation => a.relaxation = b.relaxation

/-- Two bodies have the same mesh and the same loads. -/
def SameLoads (a b : Operators K) : Prop :=
  a.nodesCount = b.nodesCount ∧ a.dimension = b.dimension ∧ a.force = b.force ∧
    a.bodyTemperature = b.bodyTemperature

/-- A failing statement makes the simulation fail. -/
def lift {α : Type} : Except StatementError α → Except SimulationError α
  | .ok a => .ok a
  | .error e => .error (.statement e)

end Conmech.Spec
