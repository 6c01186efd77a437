import Mathlib.Algebra.Order.Field.Basic
import Mathlib.Algebra.BigOperators.Group.List.Basic
/-
Model of what is handed to matplotlib and networkx: `conmech/plotting/membrane.py:15-72`,
`conmech/plotting/drawer.py`. Numbers are exact; colours, labels of axes and sizes are left out.
-/
namespace Conmech

section LimitPoints

variable {K : Type} [Field K]

/-- The variables of `plot_limit_points`: the buffer, `buff_size`, the points given to `plt.scatter`, one
list for each call, and whether a call had the label. -/
structure LimitPlot (K : Type) where
  buff : List (K × K)
  size : ℕ
  scatters : List (List (K × K))
  labels : List Bool

/-- The start, `membrane.py:48-49`. -/
def LimitPlot.start : LimitPlot K :=
  { buff := List.replicate 1100 (0, 0), size := 0, scatters := [], labels := [] }

/-- One pass of the inner loop, `membrane.py:51-54`; `none` is an `IndexError`. -/
def LimitPlot.write (p : LimitPlot K) (time zero : K) : Option (LimitPlot K) :=
  if p.size < p.buff.length then
    some { p with buff := p.buff.set p.size (time, zero), size := p.size + 1 }
  else none

/-- `membrane.py:55-58`: `label` is `None` after the first call. -/
def LimitPlot.flush (p : LimitPlot K) : LimitPlot K :=
  if p.size = 1000 then
    { p with
      size := 0
      scatters := p.scatters ++ [p.buff]
      labels := p.labels ++ [p.labels.isEmpty] }
  else p

/-- One pass of the outer loop, `membrane.py:50-58`. -/
def LimitPlot.step (p : LimitPlot K) (entry : K × List K) : Option (LimitPlot K) :=
  (entry.2.foldlM (fun (q : LimitPlot K) zero => q.write entry.1 zero) p).map LimitPlot.flush

/-- `membrane.py:59-60` -/
def LimitPlot.finish (p : LimitPlot K) : LimitPlot K :=
  if 0 < p.size then
    { p with
      scatters := p.scatters ++ [p.buff.take p.size]
      labels := p.labels ++ [p.labels.isEmpty] }
  else p

/-- `plot_limit_points`, `membrane.py:40-66`, for the items of `prod.data`. -/
def plotLimitPoints (data : List (K × List K)) : Option (LimitPlot K) :=
  (data.foldlM LimitPlot.step LimitPlot.start).map LimitPlot.finish

end LimitPoints

/-- The arguments `(rows, cols, i)` of `add_subplot` in `plot_in_columns` for this number of states,
`membrane.py:26-30`. -/
def columnSubplots (states : ℕ) : List (ℕ × ℕ × ℕ) :=
  (List.range states).map fun k => (states / 2, 2, k + 1)

/-- `add_subplot` raises `ValueError` unless the numbers of rows and columns are positive and the index is
from `1` to their product. -/
def subplotExists (s : ℕ × ℕ × ℕ) : Bool :=
  decide (0 < s.1 ∧ 0 < s.2.1 ∧ 1 ≤ s.2.2 ∧ s.2.2 ≤ s.1 * s.2.1)

/-- How a call of a Python function can fail. -/
inductive CallError where
  /-- a required argument is missing -/
  | missing (name : String)
  /-- an argument is given by position and by name -/
  | repeated (name : String)
  /-- too many positional arguments -/
  | tooMany
deriving DecidableEq, Repr

/-- The binding of arguments to the parameters of a function that accepts any further keywords:
`parameters` in order with `true` for those without default; `positional` arguments by number,
`keywords` by name. The result are the names that have been bound by position. -/
def bindArguments (parameters : List (String × Bool)) (positional : ℕ) (keywords : List String) :
    Except CallError (List String) :=
  if parameters.length < positional then .error .tooMany
  else
    let bound := (parameters.take positional).map Prod.fst
    match bound.find? (fun n => keywords.contains n) with
    | some n => .error (.repeated n)
    | none =>
      match (parameters.drop positional).find? (fun p => p.2 && !keywords.contains p.1) with
      | some p => .error (.missing p.1)
      | none => .ok bound

/-- The parameters of `do_plot`, `membrane.py:76-91`. -/
def doPlotParameters : List (String × Bool) :=
  [("fig", true), ("state", true), ("field", false), ("vmin", false), ("vmax", false), ("zmin", false),
   ("zmax", false), ("title", false), ("ax", false), ("elev", false), ("azim", false), ("in3d", false),
   ("x", false)]

/-- The call of `do_plot` in `plot(state, *args, **kwargs)`, `membrane.py:68-72`, with `args` further
positional arguments. -/
def plotCall (args : ℕ) (kwargs : List String) : Except CallError (List String) :=
  bindArguments doPlotParameters (1 + args) ("ax" :: kwargs)

/-- The call of `do_plot` in `plot_in_columns(states, *args, **kwargs)`, `membrane.py:31`. -/
def columnsCall (args : ℕ) (kwargs : List String) : Except CallError (List String) :=
  bindArguments doPlotParameters (2 + args) ("ax" :: "elev" :: "azim" :: "in3d" :: kwargs)

section Drawer

variable {K : Type} [Field K] [LinearOrder K]

/-- The fields of `Drawer` that are kept from one drawing to the next, `drawer.py:18-50`. -/
structure DrawerState (K : Type) where
  xMin : Option K := none
  xMax : Option K := none
  yMin : Option K := none
  yMax : Option K := none
  dirichletArrows : Option (List (K × K)) := none
  outerForcesArrows : Option (List ((K × K) × K × K)) := none

/-- What a drawer reads from the state at the time of a drawing: positions of the nodes, displaced
positions, and the outer force at the nodes. -/
structure DrawnState (K : Type) where
  nodes : List (K × K)
  displaced : List (K × K)
  force : ℕ → K × K

/-- `np.min` and `np.max` of a column; the value for an empty one is not used. -/
def lowestOf : List K → K
  | [] => 0
  | x :: xs => xs.foldl min x

/-- `np.max` -/
def highestOf : List K → K
  | [] => 0
  | x :: xs => xs.foldl max x

/-- One axis in `set_axes_limits`, `drawer.py:115-136`: the stored limits, the coordinates of the nodes
and of the displaced nodes give the new stored limits and the limits of the axis. -/
def axisLimits (low high : Option K) (nodes displaced : List K) : (K × K) × K × K :=
  let l := low.getD (min (lowestOf nodes) (lowestOf displaced))
  let h := high.getD (max (highestOf nodes) (highestOf displaced))
  let margin := (h - l) * (1 / 5)
  ((l, h), l - margin, h + margin)

/-- `set_axes_limits`, `drawer.py:113-141`: the new fields and the limits of both axes. -/
def DrawerState.setLimits (d : DrawerState K) (s : DrawnState K) :
    DrawerState K × (K × K) × K × K :=
  let x := axisLimits d.xMin d.xMax (s.nodes.map Prod.fst) (s.displaced.map Prod.fst)
  let y := axisLimits d.yMin d.yMax (s.nodes.map Prod.snd) (s.displaced.map Prod.snd)
  ({ d with xMin := some x.1.1, xMax := some x.1.2, yMin := some y.1.1, yMax := some y.1.2 },
    x.2, y.2)

/-- The edges of the graph in `draw_mesh`, `drawer.py:168-171`. -/
def meshEdges (elements : List (ℕ × ℕ × ℕ)) : List (ℕ × ℕ) :=
  elements.flatMap fun e => [(e.1, e.2.1), (e.1, e.2.2), (e.2.1, e.2.2)]

/-- `draw_dirichlet`, `drawer.py:205-228`: the points of the arrows. `boundary` lists the different nodes
of the Dirichlet boundary in the order of the set; `none` is an `IndexError`. -/
def DrawerState.drawDirichlet (d : DrawerState K) (s : DrawnState K) (boundary : List ℕ) :
    Option (DrawerState K × List (K × K)) :=
  match d.dirichletArrows with
  | some a => some (d, a)
  | none =>
    let x := boundary.map fun i => s.displaced.getD i (0, 0)
    ([0, 1].mapM fun r => x[r]?).map fun a => ({ d with dirichletArrows := some a }, a)

/-- `draw_forces`, `drawer.py:230-263`, for a scale different from zero: the points and directions of the
arrows. -/
def DrawerState.drawForces (d : DrawerState K) (s : DrawnState K) (boundary : List ℕ) :
    DrawerState K × List ((K × K) × K × K) :=
  match d.outerForcesArrows with
  | some a => (d, a)
  | none =>
    let a := boundary.map fun i => (s.displaced.getD i (0, 0), s.force i)
    ({ d with outerForcesArrows := some a }, a)

end Drawer

end Conmech
