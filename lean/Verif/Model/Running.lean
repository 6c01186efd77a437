import Verif.Model.State
import Verif.Model.Solvers
/-
Model of the time loops of `conmech/simulations/problem_solver.py`.

`Solver.solve` (minimisation, Newton iteration or linear solve, followed by writing the prescribed
values) is a parameter: any function of the solver object and of the initial guess. Printing, `done`,
`to_do` and measured times are left out. Floating point numbers are elements of a field.
-/
namespace Conmech

variable {K : Type} [Field K] [DecidableEq K] {V : Type}

/-- The attribute `coordinates` of a `ProblemSolver`. -/
inductive Coordinates where
  | displacement | velocity | temperature
deriving DecidableEq, Repr

/-- What does not change while a `ProblemSolver` runs: the mesh, the class and the statement of
`step_solver`, the operators of the body, the imposed boundaries and `step_solver.solve`. -/
structure Engine (K : Type) where
  grid : Grid K
  cls : SolverClass
  kind : StatementKind
  ops : Operators K
  boundaries : List (CondBoundary K)
  solve : SolverState K → (ℕ → K) → ℕ → K

/-- `step_solver`, the state and the product objects. -/
structure Simulation (K V : Type) where
  solver : SolverState K
  state : State K
  store : ProductStore K V

/-- Errors of a statement as errors of the run. -/
def liftStatement {α : Type} : Except StatementError α → Except (RunError StatementError) α
  | .ok a => .ok a
  | .error e => .error (.statement e)

namespace Engine

/-- `step_solver.iterate()` -/
def iterate (e : Engine K) (s : SolverState K) : Except (RunError StatementError) (SolverState K) :=
  liftStatement (s.iterate e.cls e.kind e.ops e.boundaries)

/-- `state[item]`, `conmech/state/state.py:90-94`. -/
def item (s : State K) : Coordinates → Except (RunError StatementError) (ℕ → ℕ → K)
  | .displacement => .ok s.displacement
  | .velocity => .ok s.velocity
  | .temperature => .error .unknownCoordinates

/-- `find_solution`, `problem_solver.py:187-190`; the guess is kept flat. -/
def findSolution (e : Engine K) (c : Coordinates) (solver : SolverState K) (s : State K) :
    Except (RunError StatementError) (ℕ → K) := do
  let array ← item s c
  return e.solve solver (State.flatten e.grid array)

/-- The body of the loop of `run`, `problem_solver.py:157-183`. -/
def step (e : Engine K) (c : Coordinates) (sim : Simulation K V) :
    Except (RunError StatementError) (Simulation K V) := do
  let solver := { sim.solver with currentTime := sim.solver.currentTime + sim.solver.timeStep }
  let solution ← e.findSolution c solver sim.state
  match c with
  | .displacement =>
    let (state, store) ← sim.state.setDisplacement e.grid solution solver.currentTime true sim.store
    let solver := { solver with
      bVector := State.flatten e.grid state.absement
      uVector := State.flatten e.grid state.displacement }
    let solver ← e.iterate solver
    return { solver := solver, state := state, store := store }
  | .velocity =>
    let (state, store) ← sim.state.setVelocity e.grid solution solver.currentTime true sim.store
    let solver := { solver with
      uVector := State.flatten e.grid state.displacement
      vVector := State.flatten e.grid state.velocity }
    let solver ← e.iterate solver
    return { solver := solver, state := state, store := store }
  | .temperature => .error .unknownCoordinates

/-- `for _ in range(n): …` -/
def steps (e : Engine K) (c : Coordinates) :
    ℕ → Simulation K V → Except (RunError StatementError) (Simulation K V)
  | 0, sim => .ok sim
  | n + 1, sim => do
    let sim ← e.step c sim
    e.steps c n sim

/-- `for prod in products: state.inject_product(prod)`, `problem_solver.py:153-155`. -/
def inject (products : List ℕ) (sim : Simulation K V) : Simulation K V :=
  { sim with
    state := products.foldl (fun s id => s.injectProduct (sim.store.get id).name id) sim.state }

/-- `run`, `problem_solver.py:139-185`; `range(n)` is empty for negative `n`. Not giving products is
the same as giving an empty list. -/
def run (e : Engine K) (c : Coordinates) (products : List ℕ) (n : ℤ) (sim : Simulation K V) :
    Except (RunError StatementError) (Simulation K V) :=
  e.steps c n.toNat (inject products sim)

/-- `np.diff(values)` -/
def diff : List ℤ → List ℤ
  | a :: b :: rest => (b - a) :: diff (b :: rest)
  | _ => []

/-- `output_step = (0, *output_step) if output_step else (0, n_steps)` followed by `np.diff`,
`problem_solver.py:389, 402, 455, 468, 716, 729`. A missing and an empty list are both false. -/
def outputDiffs (nSteps : ℤ) (outputStep : List ℤ) : List ℤ :=
  diff (if outputStep = [] then [0, nSteps] else 0 :: outputStep)

/-- `for n in output_step: self.run(…); results.append(state.copy())`,
`problem_solver.py:406-409, 472-475, 733-736`. -/
def outputs (e : Engine K) (c : Coordinates) (products : List ℕ) :
    List ℤ → Simulation K V →
      Except (RunError StatementError) (List (State K) × Simulation K V)
  | [], sim => .ok ([], sim)
  | n :: rest, sim => do
    let sim ← e.run c products n sim
    let (result, store) := sim.state.copy e.grid sim.store
    let (results, sim) ← e.outputs c products rest { sim with store := store }
    return (result :: results, sim)

/-- The arguments of `solve`. -/
structure Arguments (K : Type) where
  nSteps : ℤ
  outputStep : List ℤ := []
  initialAbsement : ℕ → ℕ → K
  initialDisplacement : ℕ → ℕ → K
  initialVelocity : ℕ → ℕ → K
  products : List ℕ := []

/-- `TimeDependentSolver.solve`, `problem_solver.py:437-478`. -/
def timeDependentSolve (e : Engine K) (a : Arguments K) (solver : SolverState K)
    (store : ProductStore K V) :
    Except (RunError StatementError) (List (State K) × Simulation K V) := do
  let diffs := outputDiffs a.nSteps a.outputStep
  let state := { State.new e.grid .plain with
    displacement := a.initialDisplacement, velocity := a.initialVelocity }
  let solver ← e.iterate { solver with
    uVector := State.flatten e.grid state.displacement
    vVector := State.flatten e.grid state.velocity }
  e.outputs .velocity a.products diffs { solver := solver, state := state, store := store }

/-- `QuasistaticRelaxation.solve`, `problem_solver.py:369-411`. -/
def relaxationSolve (e : Engine K) (a : Arguments K) (solver : SolverState K)
    (store : ProductStore K V) :
    Except (RunError StatementError) (List (State K) × Simulation K V) := do
  let diffs := outputDiffs a.nSteps a.outputStep
  let state := { State.new e.grid .plain with
    absement := a.initialAbsement, displacement := a.initialDisplacement }
  let solver ← e.iterate { solver with
    bVector := State.flatten e.grid state.absement
    uVector := State.flatten e.grid state.displacement }
  e.outputs .displacement a.products diffs { solver := solver, state := state, store := store }

/-- `WaveSolver.solve`, `problem_solver.py:691-738`; `resume` is the argument `state`. -/
def waveSolve (e : Engine K) (a : Arguments K) (resume : Option (State K)) (solver : SolverState K)
    (store : ProductStore K V) :
    Except (RunError StatementError) (List (State K) × Simulation K V) := do
  let diffs := outputDiffs a.nSteps a.outputStep
  let state := match resume with
    | none => { State.new e.grid .plain with
        displacement := a.initialDisplacement, velocity := a.initialVelocity }
    | some state => state
  let solver ← e.iterate { solver with
    currentTime := state.time
    uVector := State.flatten e.grid state.displacement
    vVector := State.flatten e.grid state.velocity }
  e.outputs .velocity a.products diffs { solver := solver, state := state, store := store }

/-- `StaticSolver.solve`, `problem_solver.py:320-339`. -/
def staticSolve (e : Engine K) (initialDisplacement : ℕ → ℕ → K) (products : List ℕ)
    (solver : SolverState K) (store : ProductStore K V) :
    Except (RunError StatementError) (State K × Simulation K V) := do
  let state := { State.new e.grid .plain with displacement := initialDisplacement }
  let solver ← e.iterate { solver with uVector := State.flatten e.grid state.displacement }
  let sim ← e.run .displacement products 1 { solver := solver, state := state, store := store }
  return (sim.state, sim)

/-- `PoissonSolver.solve`, `problem_solver.py:284-295`; the engine is that of
`second_step_solver`. -/
def poissonSolve (e : Engine K) (solver : SolverState K) :
    Except (RunError StatementError) (State K × SolverState K) := do
  let state := State.new e.grid .temperature
  let temperature : ℕ → K := fun _ => 0
  let solver ← e.iterate { solver with tVector := temperature }
  return (state.setScalar (e.solve solver temperature), solver)

end Engine

/-! ### Coupled problems -/

/-- Both solvers of a coupled problem. `exceeds` tells whether the residual norm computed from the new
and old solutions is greater than `1e-3`; nothing is assumed about it, so that it may be infinite or
not a number. -/
structure CoupledEngine (K : Type) where
  first : Engine K
  second : Engine K
  stateKind : StateKind
  exceeds : (solution oldSolution solutionT oldSolutionT : ℕ → K) → Bool

/-- `step_solver`, `second_step_solver` and the two solutions. -/
structure Coupled (K : Type) where
  first : SolverState K
  second : SolverState K
  solution : ℕ → K
  solutionT : ℕ → K

namespace CoupledEngine

/-- The body of the loop of `find_solution_uzawa` up to the computation of the norm,
`problem_solver.py:204-241`. -/
def pass (e : CoupledEngine K) (oldU oldV oldT oldP : ℕ → K) (c : Coupled K) :
    Except (RunError StatementError) (Coupled K) := do
  let first ← liftStatement (c.first.updateSystem e.first.kind e.first.ops e.first.boundaries
    { displacement := some oldU, velocity := some oldV, temperature := some c.solutionT,
      electricPotential := some c.solutionT, timeStep := some c.first.timeStep,
      time := some c.first.currentTime })
  let solution := e.first.solve first c.solution
  let u : ℕ → K := fun i => oldU i + c.first.timeStep * solution i
  let second ← liftStatement (c.second.updateSystem e.second.kind e.second.ops e.second.boundaries
    { displacement := some u, velocity := some solution, temperature := some oldT,
      electricPotential := some oldP, timeStep := some c.second.timeStep })
  let solutionT := e.second.solve second c.solutionT
  return { first := first, second := second, solution := solution, solutionT := solutionT }

/-- The loop of `find_solution_uzawa`, `problem_solver.py:201-247`. `fuel` bounds the number of times
the condition is evaluated; `large` is `norm > 1e-3`; the result includes the number of passes. -/
def loop (e : CoupledEngine K) (oldU oldV oldT oldP : ℕ → K) :
    ℕ → (fuse minimumIter : ℤ) → (large : Bool) → (passes : ℕ) → Coupled K →
      Except (RunError StatementError) (Coupled K × ℕ)
  | 0, _, _, _, _, _ => .error .unfinished
  | fuel + 1, fuse, minimumIter, large, passes, c =>
    if minimumIter > 0 ∨ (large = true ∧ fuse ≠ 0) then do
      let c' ← e.pass oldU oldV oldT oldP c
      e.loop oldU oldV oldT oldP fuel (fuse - 1) (minimumIter - 1)
        (e.exceeds c'.solution c.solution c'.solutionT c.solutionT) (passes + 1) c'
    else return (c, passes)

/-- The assignments at the end of `find_solution_uzawa`, `problem_solver.py:249-263`. -/
def finish (oldU : ℕ → K) (c : Coupled K) : Coupled K :=
  { c with
    first := { c.first with
      vVector := c.solution
      uVector := fun i => oldU i + c.first.timeStep * c.solution i
      pVector := c.solutionT
      tVector := c.solutionT }
    second := { c.second with
      vVector := c.solution
      uVector := fun i => oldU i + c.second.timeStep * c.solution i
      pVector := c.solutionT
      tVector := c.solutionT } }

/-- `find_solution_uzawa`, `problem_solver.py:192-263`, and the number of passes. -/
def findSolutionUzawa (e : CoupledEngine K) (fuel : ℕ) (c : Coupled K) :
    Except (RunError StatementError) (Coupled K × ℕ) := do
  let (c', n) ← e.loop c.first.uVector c.first.vVector c.first.tVector c.first.pVector fuel 10 5 true 0 c
  return (finish c.first.uVector c', n)

/-- The solvers and solutions, the state and the product objects. -/
structure Run (K V : Type) where
  coupled : Coupled K
  state : State K
  store : ProductStore K V

/-- The body of the inner loop of `solve`, `problem_solver.py:555-570, 649-664`. -/
def step (e : CoupledEngine K) (fuel : ℕ) (r : Run K V) :
    Except (RunError StatementError) (Run K V) := do
  let c := r.coupled
  let c := { c with
    first := { c.first with currentTime := c.first.currentTime + c.first.timeStep }
    second := { c.second with currentTime := c.second.currentTime + c.second.timeStep } }
  let (c, _) ← e.findSolutionUzawa fuel c
  let (s, store) ← r.state.setVelocity e.first.grid c.solution c.first.currentTime true r.store
  return { coupled := c, state := s.setScalar c.solutionT, store := store }

/-- `for _ in range(n)` -/
def steps (e : CoupledEngine K) (fuel : ℕ) :
    ℕ → Run K V → Except (RunError StatementError) (Run K V)
  | 0, r => .ok r
  | n + 1, r => do
    let r ← e.step fuel r
    e.steps fuel n r

/-- The outer loop of `solve`, `problem_solver.py:552-573, 646-669`. -/
def outputs (e : CoupledEngine K) (fuel : ℕ) : List ℤ → Run K V →
    Except (RunError StatementError) (List (State K) × Run K V)
  | [], r => .ok ([], r)
  | n :: rest, r => do
    let r ← e.steps fuel n.toNat r
    let (result, store) := r.state.copy e.first.grid r.store
    let (results, r) ← e.outputs fuel rest { r with store := store }
    return (result :: results, r)

/-- The state and the solvers after the initial values have been set and both solvers have iterated,
`problem_solver.py:526-549, 621-643`. The first initial guess is `state.velocity.reshape(2, -1)`, the
velocities node by node. -/
def start (e : CoupledEngine K) (a : Engine.Arguments K) (initialScalar : ℕ → K)
    (first second : SolverState K) :
    Except (RunError StatementError) (Coupled K × State K) := do
  let g := e.first.grid
  let s := { State.new g e.stateKind with
    displacement := a.initialDisplacement, velocity := a.initialVelocity }
  let s := s.setScalar initialScalar
  let write (solver : SolverState K) : SolverState K :=
    let solver := { solver with
      uVector := State.flatten g s.displacement
      vVector := State.flatten g s.velocity }
    match e.stateKind with
    | .plain => solver
    | .temperature => { solver with tVector := initialScalar }
    | .piezoelectric => { solver with pVector := initialScalar }
  let first ← e.first.iterate (write first)
  let second ← e.second.iterate (write second)
  return ({ first := first, second := second
            solution := fun k => s.velocity (k / g.dimension) (k % g.dimension)
            solutionT := initialScalar }, s)

/-- `TemperatureTimeDependentSolver.solve` and `PiezoelectricTimeDependentSolver.solve`,
`problem_solver.py:504-573, 599-669`. The first yields the states one by one, here they are
collected. -/
def solve (e : CoupledEngine K) (fuel : ℕ) (a : Engine.Arguments K) (initialScalar : ℕ → K)
    (first second : SolverState K) (store : ProductStore K V) :
    Except (RunError StatementError) (List (State K) × Run K V) := do
  let (c, s) ← e.start a initialScalar first second
  e.outputs fuel (Engine.outputDiffs a.nSteps a.outputStep) { coupled := c, state := s, store := store }

end CoupledEngine
end Conmech
