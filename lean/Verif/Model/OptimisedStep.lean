import Verif.Model.Cost
/-!
`solve` of the optimisation solvers: which functional the minimiser is given, and what becomes of its
result. Transcription of `conmech/solvers/solver.py` 82-101 together with `optimization.py` 59-142,
`global_optimization.py` 16-22 and `schur_complement.py` 68-106. The minimiser itself is external.
-/
namespace Conmech

/-- `self.dimension_out`, the second entry of the tuple given to `super().__init__`,
`conmech/dynamics/statement.py:71, 82, 109, 120, 142, 163, 200, 231`. -/
def StatementKind.dimensionOut (meshDimension : ℕ) : StatementKind → ℕ
  | .staticPoisson => 1
  | .wave => 1
  | .staticDisplacement => meshDimension
  | .quasistaticRelaxation => 2
  | .quasistaticVelocity => 2
  | .dynamicVelocity => 2
  | .dynamicVelocityWithTemperature => 2
  | .temperature => 1
  | .piezoelectric => 1
  | .quasistaticVelocityWithPiezoelectric => 2
  | .dynamicVelocityWithPiezoelectric => 2

variable {K : Type _} [Field K]

/-- What the functional reads besides the vectors and the system: the square root, the conditions of the
law, the nodes of the mesh and its contact surfaces (`optimization.py` 131-141). -/
structure ContactSetting (K : Type _) where
  sqrt : K → K
  conditions : Conditions K
  nodes : ℕ → ℕ → K
  surfaces : List (Surface K)

/-- The tuple `args` of `optimization.py` 131-141 without the system, for the arguments that `solve` hands
on (`solver.py` 82-88): the old values are `v_vector`, the displacement is `u_vector`. Their length is the
number of nodes times the dimension of the mesh (`solver.py` 44-45). The dimensions are those given to
`make_cost_functional` (`optimization.py` 74-81). -/
def contactArguments (m : ContactSetting K) (kind : StatementKind) (ops : Operators K) (s : SolverState K) :
    ContactData K where
  variableDimension := kind.dimensionOut ops.dimension
  problemDimension := kind.dimensionIn ops.dimension
  meshDimension := ops.dimension
  nodes := m.nodes
  surfaces := m.surfaces
  old := ⟨ops.nodesCount * ops.dimension, s.vVector⟩
  staticDisplacement := ⟨ops.nodesCount * ops.dimension, s.uVector⟩
  dt := s.timeStep

/-- `_solve_impl` for an initial guess of length `len`: the global solvers minimise over all unknowns with
the matrices of the statement (`global_optimization.py` 16-22), the others over the unknowns of the contact
nodes with the condensed matrices (`schur_complement.py` 68-106). `minimise` is the external minimiser,
given the number of unknowns, the functional and the initial guess (`optimization.py` 144-241). -/
def optimisedImpl (minimise : ℕ → ((ℕ → K) → K) → (ℕ → K) → ℕ → K) (m : ContactSetting K)
    (kind : StatementKind) (ops : Operators K) (len : ℕ) (s : SolverState K) (guess : ℕ → K) : ℕ → K :=
  let d := contactArguments m kind ops s
  match s.schur with
  | some c =>
    let size := c.dimension * c.contactCount
    c.solveImpl (fun lhs rhs guess =>
      minimise size (fun x => costFunctional m.sqrt m.conditions d size lhs rhs ⟨size, x⟩) guess) len guess
  | none =>
    minimise len (fun x => costFunctional m.sqrt m.conditions d
      (kind.dimensionIn ops.dimension * ops.nodesCount) s.system.lhs s.system.rhs ⟨len, x⟩) guess

/-- `solve`, `solver.py` 82-101. -/
def optimisedSolve (minimise : ℕ → ((ℕ → K) → K) → (ℕ → K) → ℕ → K) (m : ContactSetting K)
    (kind : StatementKind) (ops : Operators K) (bs : List (CondBoundary K)) (len : ℕ) (s : SolverState K)
    (guess : ℕ → K) : ℕ → K :=
  solverSolve (optimisedImpl minimise m kind ops len s) ops.nodesCount (kind.dimensionIn ops.dimension) bs
    guess

end Conmech
