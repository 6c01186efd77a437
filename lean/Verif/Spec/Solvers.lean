import Verif.Model.Solvers
/-
Specification for C20, C46, C59, C61.
-/
namespace Conmech.Spec
variable {K : Type _} [Field K]

/-- A solver of class `cls` is registered for problems of class `c`, and `kind` is one of the
statements this problem is made of. -/
def Registered (c : ProblemClass) (cls : SolverClass) (kind : StatementKind) : Prop :=
  (∃ d, dynamismOf c = .ok d ∧ ∃ e ∈ conmechRegistrations, d ∈ e.1.types ∧ e.2.2 = cls) ∧
  (c.statement = some (some kind) ∨ c.secondStatement = some (some kind))

/-- All variables of the current state. -/
def currentVariables (s : SolverState K) : Variables K where
  absement := some s.bVector
  displacement := some s.uVector
  velocity := some s.vVector
  temperature := some s.tVector
  electricPotential := some s.pVector
  timeStep := some s.timeStep
  time := some s.currentTime

/-- What a problem solver writes into the solver between two steps. -/
structure Written (K : Type _) where
  time : K
  b : ℕ → K
  u : ℕ → K
  v : ℕ → K
  t : ℕ → K
  p : ℕ → K

/-- The solver with new values of its vectors and of its clock. -/
def write (s : SolverState K) (w : Written K) : SolverState K :=
  { s with currentTime := w.time, bVector := w.b, uVector := w.u, vVector := w.v, tVector := w.t
           pVector := w.p }

/-- Any number of steps: new values are written, then `iterate` is called. -/
def steps (cls : SolverClass) (kind : StatementKind) (ops : Operators K)
    (bs : List (CondBoundary K)) : SolverState K → List (Written K) → Except StatementError (SolverState K)
  | s, [] => .ok s
  | s, w :: ws => do
    let s' ← (write s w).iterate cls kind ops bs
    steps cls kind ops bs s' ws

/-- Statements whose unknown is a displacement or a velocity. -/
def IsDisplacementKind : StatementKind → Bool
  | .staticDisplacement | .quasistaticRelaxation | .quasistaticVelocity | .dynamicVelocity
  | .dynamicVelocityWithTemperature | .quasistaticVelocityWithPiezoelectric
  | .dynamicVelocityWithPiezoelectric => true
  | _ => false

end Conmech.Spec
