import Verif.Model.Solvers
import Mathlib.Data.Finset.Basic
import Mathlib.Data.List.Basic
/-
Transcription of the choice of the numerical minimiser, `conmech/solvers/optimization/optimization.py`
40-55 and 116-241, and of the way its options take from `solve` of the runners to it. The minimisers
themselves are external. `lower` is Python's `str.lower`. Measured times and `disp` are left out.
-/
namespace Conmech

/-- `QSMLM_NAMES`, `optimization.py:40-46`. -/
def qsmlmNames : List String :=
  ["quasi secant method", "limited memory quasi secant method", "quasi secant method limited memory",
   "qsm", "qsmlm"]

/-- `GLOBAL_QSMLM_NAMES`, `optimization.py:47-53`. -/
def globalQsmlmNames : List String :=
  ["global quasi secant method", "global limited memory quasi secant method",
   "global quasi secant method limited memory", "globqsm", "globqsmlm"]

/-- `ADAM_NAMES`, `optimization.py:55`. -/
def adamNames : List String := ["adam", "torch_adam"]

/-- `optimization.py:194-198` -/
def discontinuousNames : List String :=
  ["discontinuous gradient", "discontinuous gradient method", "dg"]

/-- `s.startswith(prefix)` -/
def startsWith (s pre : String) : Bool := pre.toList.isPrefixOf s.toList

/-- The keyword arguments `method`, `maxiter` and `tol` of `solve`; `none` if they are not given. -/
structure MinimiseOptions (K : Type _) where
  method : Option String := none
  maxiter : Option ℕ := none
  tol : Option K := none

/-- The external function that is called. -/
inductive Backend where
  | adam | qsmlm | globalQsmlm | discontinuous | constrained
  | scipy (method : String)
  deriving DecidableEq

/-- What the external function is given: the functional, the derivative (if any), the limit of the
number of iterations and the tolerance (if it takes one). -/
structure MinimiseCall (K L D : Type _) where
  backend : Backend
  functional : L
  derivative : Option D
  maxiter : ℕ
  tol : Option K

/-- Calling `None`. -/
inductive MinimiseError where
  | notCallable
  deriving DecidableEq

/-- `Optimization._solve_impl`, `optimization.py:116-241`. `rows` is `len(initial_guess)`,
`tolDefault` is `1e-12`, `loss` and `subgradient` are the attributes of the solver and `minimizer` is
its attribute of this name, which is made of these two. The result contains the new value of that
attribute. `int(len(initial_guess) * 1e3)` is taken to be exact. -/
def minimise {K L D : Type _} (lower : String → String) (tolDefault : K) (loss : L)
    (subgradient : Option D) (rows : ℕ) (o : MinimiseOptions K) (minimizer : Option (L × Option D)) :
    Except MinimiseError (MinimiseCall K L D × Option (L × Option D)) :=
  let method := o.method.getD "BFGS"
  let maxiter := o.maxiter.getD (rows * 1000)
  let tol := o.tol.getD tolDefault
  let isQsmlm := qsmlmNames.contains (lower method)
  let isGlobal := globalQsmlmNames.any fun pre => startsWith (lower method) pre
  let minimizer := if minimizer.isNone && (isQsmlm || isGlobal) then some (loss, subgradient)
    else minimizer
  if adamNames.contains (lower method) then
    .ok (⟨.adam, loss, subgradient, maxiter * 100, none⟩, minimizer)
  else if isQsmlm then
    match minimizer with
    | some (l, d) => .ok (⟨.qsmlm, l, d, maxiter, none⟩, minimizer)
    | none => .error .notCallable
  else if isGlobal then
    match minimizer with
    | some _ => .ok (⟨.globalQsmlm, loss, subgradient, maxiter, none⟩, minimizer)
    | none => .error .notCallable
  else if discontinuousNames.contains (lower method) then
    .ok (⟨.discontinuous, loss, none, 10000, none⟩, minimizer)
  else if lower method = "constrained" then
    .ok (⟨.constrained, loss, none, o.maxiter.getD (rows * 1000000000), some tol⟩, minimizer)
  else if startsWith method "gradiented " then
    .ok (⟨.scipy (String.ofList (method.toList.drop "gradiented ".length)), loss, subgradient, maxiter,
      some tol⟩, minimizer)
  else
    .ok (⟨.scipy method, loss, none, maxiter, some tol⟩, minimizer)

/-- The classes of runners, `simulations/problem_solver.py`. -/
inductive RunnerKind where
  | poisson | static | relaxation | timeDependent | temperature | piezoelectric | wave
  deriving DecidableEq

/-- The options with which `step_solver.solve` is called: `run` and `find_solution` hand them on
(`problem_solver.py:159-163, 186-189, 291, 336, 407, 474, 735`), `find_solution_uzawa` has no such
arguments and calls `solve` without any (216, 238), so that those of the `solve` of coupled problems
(514, 607) end there. -/
def RunnerKind.options {K : Type _} (r : RunnerKind) (o : MinimiseOptions K) : MinimiseOptions K :=
  match r with
  | .temperature | .piezoelectric => {}
  | _ => o

/-- Shapes of arrays with one or two axes. -/
inductive ArrayShape where
  | flat (n : ℕ)
  | table (rows columns : ℕ)
  deriving DecidableEq

/-- `len(array)` -/
def ArrayShape.len : ArrayShape → ℕ
  | .flat n => n
  | .table r _ => r

/-- The number of entries. -/
def ArrayShape.size : ArrayShape → ℕ
  | .flat n => n
  | .table r c => r * c

/-- The shape of the initial guess of the first equation in `find_solution`
(`problem_solver.py:187`). -/
def guessShape (meshDimension nodesCount : ℕ) : ArrayShape := .table meshDimension nodesCount

/-- `truncate_free_nodes`, `schur_complement.py:108-115`, and the removal of the second half for a
driving vector (84-86). -/
def truncatedShape (dimensionIn contactCount : ℕ) (driving : Bool) : ArrayShape → ArrayShape := fun s =>
  if dimensionIn = 2 ∨ driving then
    .table 1 (if driving then 2 * contactCount / 2 else 2 * contactCount)
  else
    match s with
    | .flat n => .flat (min n contactCount)
    | .table r c => .table (min r contactCount) c

/-- What `Optimization._solve_impl` gets as `initial_guess`. -/
def SolverClass.guess (cls : SolverClass) (dimensionIn contactCount : ℕ) (driving : Bool) (s : ArrayShape) :
    ArrayShape :=
  if cls.isSchur then truncatedShape dimensionIn contactCount driving s else s

/-- `constr`, `optimization.py:206-210`: the least of the entries from the middle of the vector on, one
for each contact node; the result has to be non-negative. `np.min` fails for an empty array. -/
def constr {K : Type _} [LinearOrder K] (contactNodesCount n : ℕ) (x : ℕ → K) : Option K :=
  let offset := n / 2
  let t := (List.range (min contactNodesCount (n - offset))).map fun i => x (offset + i)
  match t with
  | [] => none
  | a :: rest => some (rest.foldl min a)

end Conmech
