import Verif.Model.Minimise
import Verif.Model.OptimisedStep
/-!
`solve` of the optimisation solvers with the method "constrained": `conmech/solvers/optimization/optimization.py`
203-225 together with `solver.py` 82-101, `global_optimization.py` 16-22 and `schur_complement.py` 68-106.
`scipy.optimize.minimize` with a constraint is external.
-/
namespace Conmech

variable {K : Type _} [Field K] [LinearOrder K]

/-- The external minimiser: it is given the number of unknowns, the functional, the function `constr` whose
values have to be non-negative, and the initial guess. -/
abbrev ConstrainedMinimiser (K : Type _) :=
  ℕ → ((ℕ → K) → K) → ((ℕ → K) → Option K) → (ℕ → K) → ℕ → K

/-- `_solve_impl`, `optimization.py` 203-225. `contactCount` is `boundaries.contact_nodes_count`. The
functional is that of the other methods, see `optimisedImpl`. `constr` is given the unknowns of the
functional, hence with the condensed method those of the contact nodes only. It raises, whatever it is given,
if there is nothing to take the minimum of (`none`). -/
def constrainedImpl (minimise : ConstrainedMinimiser K) (m : ContactSetting K) (contactCount : ℕ)
    (kind : StatementKind) (ops : Operators K) (len : ℕ) (s : SolverState K) (guess : ℕ → K) :
    Option (ℕ → K) :=
  let d := contactArguments m kind ops s
  match s.schur with
  | some c =>
    let size := c.dimension * c.contactCount
    match constr contactCount size (c.truncateFreeNodes len guess) with
    | none => none
    | some _ => some (c.solveImpl (fun lhs rhs guess =>
        minimise size (fun x => costFunctional m.sqrt m.conditions d size lhs rhs ⟨size, x⟩)
          (constr contactCount size) guess) len guess)
  | none =>
    match constr contactCount len guess with
    | none => none
    | some _ => some (minimise len (fun x => costFunctional m.sqrt m.conditions d
        (kind.dimensionIn ops.dimension * ops.nodesCount) s.system.lhs s.system.rhs ⟨len, x⟩)
        (constr contactCount len) guess)

/-- `solve`, `solver.py` 82-101: the prescribed values are written over the result. -/
def constrainedSolve (minimise : ConstrainedMinimiser K) (m : ContactSetting K) (contactCount : ℕ)
    (kind : StatementKind) (ops : Operators K) (bs : List (CondBoundary K)) (len : ℕ) (s : SolverState K)
    (guess : ℕ → K) : Option (ℕ → K) :=
  match constrainedImpl minimise m contactCount kind ops len s guess with
  | none => none
  | some x => some (solverSolve (fun _ => x) ops.nodesCount (kind.dimensionIn ops.dimension) bs guess)

end Conmech
