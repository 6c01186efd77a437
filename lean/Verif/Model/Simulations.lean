import Verif.Model.Assembly
import Verif.Model.Solvers
/-
Model of `conmech/properties/body_properties.py`, of `get_dynamics` in
`conmech/dynamics/factory/dynamics_factory_method.py` and of the constructors of the simulation classes
in `conmech/simulations/problem_solver.py`: from the coefficients of a problem to the operators that
its statements read.
-/
namespace Conmech

/-- The classes of `conmech/properties/body_properties.py:7-69`. -/
inductive PropertiesClass where
  | body | elastic | viscoelastic | relaxation | piezoelectric | temperature
  | elasticTemperature | viscoelasticTemperature | viscoelasticPiezoelectric | elasticRelaxation
  | membrane
deriving DecidableEq, Repr

/-- The bases as written, `body_properties.py:7-69`. -/
def PropertiesClass.bases : PropertiesClass → List PropertiesClass
  | .body => []
  | .elastic => [.body]
  | .viscoelastic => [.elastic]
  | .relaxation => []
  | .piezoelectric => []
  | .temperature => []
  | .elasticTemperature => [.elastic, .temperature]
  | .viscoelasticTemperature => [.viscoelastic, .temperature]
  | .viscoelasticPiezoelectric => [.viscoelastic, .piezoelectric]
  | .elasticRelaxation => [.elastic, .relaxation]
  | .membrane => [.body]

/-- `isinstance` through at most `depth` generations of bases. -/
def PropertiesClass.derives : ℕ → PropertiesClass → PropertiesClass → Bool
  | 0, c, base => c == base
  | depth + 1, c, base => c == base || c.bases.any fun d => derives depth d base

/-- `isinstance(body_prop, base)`; no class has more than three generations of bases. -/
def PropertiesClass.isInstance (c base : PropertiesClass) : Bool := derives 4 c base

/-- An object of one of these classes, `body_properties.py:7-69`. The fields that the class does not
have are never read. -/
structure BodyProperties (K : Type) where
  cls : PropertiesClass
  massDensity : K
  mu : K
  lambda : K
  theta : K
  zeta : K
  propagation : K
  thermalExpansion : ℕ → ℕ → K
  thermalConductivity : ℕ → ℕ → K
  piezoelectricity : ℕ → ℕ → ℕ → K
  permittivity : ℕ → ℕ → K
  relaxation : K → ℕ → ℕ → ℕ → K

/-- Ways in which a simulation can fail to be constructed. -/
inductive SimulationError where
  /-- `NotImplementedError` of the factory -/
  | notImplemented
  /-- `AttributeError`: the problem has no such coefficient -/
  | missingAttribute
  /-- an operator is `None` where the statement needs it -/
  | missingOperator
  /-- the statement itself fails -/
  | statement (e : StatementError)
deriving DecidableEq, Repr

/-- The attributes of `Dynamics` set in `reinitialize_matrices`, `conmech/dynamics/dynamics.py:52-78`:
the tuple returned by `get_dynamics`. -/
structure DynamicsMatrices (K : Type) where
  acceleration : ℕ → ℕ → K
  elasticity : Option (ℕ → ℕ → K)
  viscosity : Option (ℕ → ℕ → K)
  thermalExpansion : Option (ℕ → ℕ → K)
  thermalConductivity : Option (ℕ → ℕ → K)
  piezoelectricity : Option (ℕ → ℕ → K)
  permittivity : Option (ℕ → ℕ → K)
  poisson : Option (ℕ → ℕ → K)

variable {K : Type} [Field K]

/-- `get_dynamics` with the factory for triangles, `dynamics_factory_method.py:51-97`. -/
def getDynamics2 (N : ℕ) (m : BasicMatrices K) (p : BodyProperties K) : DynamicsMatrices K :=
  { acceleration := Plane.acceleration N m.U p.massDensity
    poisson := if p.cls.isInstance .membrane then some (poissonMatrix 2 m.W p.propagation) else none
    elasticity :=
      if p.cls.isInstance .elastic then some (Plane.constitutive N m.W p.mu p.lambda) else none
    viscosity :=
      if p.cls.isInstance .viscoelastic then some (Plane.constitutive N m.W p.theta p.zeta) else none
    thermalExpansion :=
      if p.cls.isInstance .temperature then some (Plane.thermalExpansion N m.V p.thermalExpansion)
      else none
    thermalConductivity :=
      if p.cls.isInstance .temperature then some (Plane.conductivity m.W p.thermalConductivity)
      else none
    piezoelectricity :=
      if p.cls.isInstance .piezoelectric then
        some (Plane.piezoelectricTensor N m.W p.piezoelectricity) else none
    permittivity :=
      if p.cls.isInstance .piezoelectric then some (Plane.conductivity m.W p.permittivity)
      else none }

/-- `get_dynamics` with the factory for tetrahedra, `dynamics_factory_method.py:51-97`; the piezoelectric
methods raise, `_dynamics_factory_3d.py:200-204`. -/
def getDynamics3 (N : ℕ) (m : BasicMatrices K) (p : BodyProperties K) :
    Except SimulationError (DynamicsMatrices K) :=
  if p.cls.isInstance .piezoelectric then .error .notImplemented else .ok
  { acceleration := Space.acceleration N m.U p.massDensity
    poisson := if p.cls.isInstance .membrane then some (poissonMatrix 3 m.W p.propagation) else none
    elasticity :=
      if p.cls.isInstance .elastic then some (Space.constitutive N m.W p.mu p.lambda) else none
    viscosity :=
      if p.cls.isInstance .viscoelastic then some (Space.constitutive N m.W p.theta p.zeta) else none
    thermalExpansion :=
      if p.cls.isInstance .temperature then some (Space.thermalExpansion N m.V p.thermalExpansion)
      else none
    thermalConductivity :=
      if p.cls.isInstance .temperature then some (Space.conductivity m.W p.thermalConductivity)
      else none
    piezoelectricity := none
    permittivity := none }

/-- `get_dynamics`, `dynamics_factory_method.py:51-97`, with `get_factory`, lines 14-22. -/
def getDynamics (dim N : ℕ) (m : BasicMatrices K) (p : BodyProperties K) :
    Except SimulationError (DynamicsMatrices K) :=
  if dim = 2 then .ok (getDynamics2 N m p)
  else if dim = 3 then getDynamics3 N m p
  else .error .notImplemented

/-- The coefficients that problem classes declare, `conmech/scenarios/problems.py`. -/
inductive Coefficient where
  | muCoef | laCoef | thCoef | zeCoef | timeStep | propagation
  | thermalExpansion | thermalConductivity | piezoelectricity | permittivity | relaxation
deriving DecidableEq, Repr

/-- The declarations in the body of each class, `problems.py:65, 102, 129-130, 146-148, 169-170,
183-184, 196`. -/
def ProblemClass.ownCoefficients : ProblemClass → List Coefficient
  | .TimeDependentProblem => [.timeStep]
  | .WaveProblem => [.propagation]
  | .DisplacementProblem => [.muCoef, .laCoef]
  | .TimeDependentDisplacementProblem => [.thCoef, .zeCoef, .timeStep]
  | .TemperatureTimeDependentProblem => [.thermalExpansion, .thermalConductivity]
  | .PiezoelectricTimeDependentProblem => [.piezoelectricity, .permittivity]
  | .RelaxationQuasistaticProblem => [.relaxation]
  | _ => []

/-- `hasattr(problem, coefficient)` for a problem that defines what its classes declare. -/
def ProblemClass.declares (c : ProblemClass) (a : Coefficient) : Bool :=
  c.mro.any fun d => d.ownCoefficients.contains a

/-- The values of the coefficients. -/
structure ProblemData (K : Type) where
  muCoef : K
  laCoef : K
  thCoef : K
  zeCoef : K
  propagation : K
  thermalExpansion : ℕ → ℕ → K
  thermalConductivity : ℕ → ℕ → K
  piezoelectricity : ℕ → ℕ → ℕ → K
  permittivity : ℕ → ℕ → K
  relaxation : K → ℕ → ℕ → ℕ → K

/-- The classes derived from `ProblemSolver`, `conmech/simulations/problem_solver.py`. -/
inductive SimulationClass where
  | poisson | static | nonHomogenous | relaxation | timeDependent | temperature | piezoelectric | wave
deriving DecidableEq, Repr

/-- The attributes of the problem read by the constructors, `problem_solver.py:272-275, 304-308, 354-359,
420-426, 488-496, 581-589, 681`. -/
def SimulationClass.reads : SimulationClass → List Coefficient
  | .poisson => []
  | .static | .nonHomogenous => [.muCoef, .laCoef]
  | .relaxation => [.muCoef, .laCoef, .relaxation]
  | .timeDependent => [.muCoef, .laCoef, .thCoef, .zeCoef]
  | .temperature =>
    [.muCoef, .laCoef, .thCoef, .zeCoef, .thermalExpansion, .thermalConductivity]
  | .piezoelectric => [.muCoef, .laCoef, .thCoef, .zeCoef, .piezoelectricity, .permittivity]
  | .wave => [.propagation]

/-- Fields a class does not have. -/
def BodyProperties.blank (cls : PropertiesClass) (massDensity : K) : BodyProperties K :=
  { cls := cls, massDensity := massDensity, mu := 0, lambda := 0, theta := 0, zeta := 0
    propagation := 0, thermalExpansion := fun _ _ => 0, thermalConductivity := fun _ _ => 0
    piezoelectricity := fun _ _ _ => 0, permittivity := fun _ _ => 0, relaxation := fun _ _ _ _ => 0 }

/-- `body_prop` in the constructors, `problem_solver.py:272-275, 304-308, 354-359, 420-426, 488-496,
581-589, 681`. -/
def SimulationClass.bodyProperties (d : ProblemData K) : SimulationClass → BodyProperties K
  | .poisson => { BodyProperties.blank .membrane 1 with propagation := 1 }
  | .static | .nonHomogenous =>
    { BodyProperties.blank .elastic 1 with mu := d.muCoef, lambda := d.laCoef }
  | .relaxation =>
    { BodyProperties.blank .elasticRelaxation 1 with
      mu := d.muCoef, lambda := d.laCoef, relaxation := d.relaxation }
  | .timeDependent =>
    { BodyProperties.blank .viscoelastic 1 with
      mu := d.muCoef, lambda := d.laCoef, theta := d.thCoef, zeta := d.zeCoef }
  | .temperature =>
    { BodyProperties.blank .viscoelasticTemperature 1 with
      mu := d.muCoef, lambda := d.laCoef, theta := d.thCoef, zeta := d.zeCoef
      thermalExpansion := d.thermalExpansion, thermalConductivity := d.thermalConductivity }
  | .piezoelectric =>
    { BodyProperties.blank .viscoelasticPiezoelectric (1 / 10) with
      mu := d.muCoef, lambda := d.laCoef, theta := d.thCoef, zeta := d.zeCoef
      piezoelectricity := d.piezoelectricity, permittivity := d.permittivity }
  | .wave => { BodyProperties.blank .membrane 1 with propagation := d.propagation }

/-- The matrices of the body made by the constructor of a simulation for a problem of class `c`,
`problem_solver.py:48-67` with the constructors of the subclasses. -/
def SimulationClass.matrices (s : SimulationClass) (c : ProblemClass) (dim N : ℕ)
    (m : BasicMatrices K) (d : ProblemData K) : Except SimulationError (DynamicsMatrices K) :=
  if s.reads.all c.declares then getDynamics dim N m (s.bodyProperties d)
  else .error .missingAttribute

/-- The operators of `body.dynamics` that statements read. -/
inductive OperatorName where
  | acceleration | elasticity | viscosity | thermalExpansion | thermalConductivity
  | piezoelectricity | permittivity | poisson | relaxation
deriving DecidableEq, Repr

/-- The operators mentioned in the methods of each statement, `conmech/dynamics/statement.py:69-263`. -/
def StatementKind.reads : StatementKind → List OperatorName
  | .staticPoisson => [.poisson]
  | .wave => [.acceleration, .poisson]
  | .staticDisplacement => [.elasticity]
  | .quasistaticRelaxation => [.elasticity, .relaxation]
  | .quasistaticVelocity => [.viscosity, .elasticity]
  | .dynamicVelocity => [.viscosity, .acceleration, .elasticity]
  | .dynamicVelocityWithTemperature => [.viscosity, .acceleration, .elasticity, .thermalExpansion]
  | .temperature => [.acceleration, .thermalConductivity, .thermalExpansion]
  | .piezoelectric => [.permittivity, .piezoelectricity]
  | .quasistaticVelocityWithPiezoelectric => [.viscosity, .elasticity, .piezoelectricity]
  | .dynamicVelocityWithPiezoelectric => [.viscosity, .acceleration, .elasticity, .piezoelectricity]

/-- The operator is not `None`. The relaxation operator is a method: it raises `TypeError` unless the
properties are `ElasticRelaxationProperties`, `dynamics.py:89-101`, and `NotImplementedError` on
tetrahedra (`_abstract_dynamics_factory.py:20-21` is not overridden). -/
def DynamicsMatrices.has (m : DynamicsMatrices K) (dim : ℕ) (cls : PropertiesClass) :
    OperatorName → Bool
  | .acceleration => true
  | .elasticity => m.elasticity.isSome
  | .viscosity => m.viscosity.isSome
  | .thermalExpansion => m.thermalExpansion.isSome
  | .thermalConductivity => m.thermalConductivity.isSome
  | .piezoelectricity => m.piezoelectricity.isSome
  | .permittivity => m.permittivity.isSome
  | .poisson => m.poisson.isSome
  | .relaxation => cls.isInstance .elasticRelaxation && dim == 2

/-- What a statement sees of the body: `N` nodes, the matrices, the relaxation operator for the
stiffness `W` and the sources. -/
def DynamicsMatrices.operators (m : DynamicsMatrices K) (dim N : ℕ) (W : ℕ → ℕ → ℕ → ℕ → K)
    (p : BodyProperties K) (force bodyTemperature : K → ℕ → K) : Operators K :=
  { nodesCount := N, dimension := dim
    elasticity := m.elasticity.getD fun _ _ => 0
    viscosity := m.viscosity.getD fun _ _ => 0
    acceleration := m.acceleration
    poisson := m.poisson.getD fun _ _ => 0
    thermalExpansion := m.thermalExpansion.getD fun _ _ => 0
    thermalConductivity := m.thermalConductivity.getD fun _ _ => 0
    permittivity := m.permittivity.getD fun _ _ => 0
    piezoelectricity := m.piezoelectricity.getD fun _ _ => 0
    relaxation := fun time => time.elim (.error .relaxation) fun t =>
      .ok (Plane.relaxationTensor N W (p.relaxation t))
    force := force, bodyTemperature := bodyTemperature }

/-- The system that a statement of a simulation assembles: construction of the body, then
`Statement.update`. -/
def SimulationClass.system (s : SimulationClass) (c : ProblemClass) (kind : StatementKind)
    (dim N : ℕ) (m : BasicMatrices K) (d : ProblemData K) (force bodyTemperature : K → ℕ → K)
    (bs : List (CondBoundary K)) (var : Variables K) : Except SimulationError (System K) :=
  match s.matrices c dim N m d with
  | .error e => .error e
  | .ok dyn =>
    let p := s.bodyProperties d
    if kind.reads.all (dyn.has dim p.cls) then
      match kind.update (dyn.operators dim N m.W p force bodyTemperature) bs var with
      | .ok S => .ok S
      | .error e => .error (.statement e)
    else .error .missingOperator

end Conmech
