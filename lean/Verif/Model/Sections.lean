import Mathlib.Algebra.Order.Floor.Ring
import Verif.Model.Products
import Verif.Model.Plotting
/-
Model of `conmech/state/products/verticalintersection.py`. The interpolation by matplotlib is a
parameter; numbers are exact.
-/
namespace Conmech

variable {K : Type} [Field K] [LinearOrder K] [FloorRing K]

/-- `np.linspace(start, stop, number)` -/
def linspace (start stop : K) (number : ℕ) : List K :=
  (List.range number).map fun (i : ℕ) =>
    if number = 1 then start else start + (i : K) * ((stop - start) / ((number : K) - 1))

/-- `space` in `VerticalIntersection.update`, `verticalintersection.py:32-35`, for the second coordinates
of the nodes; `int(a // b)` is the integral part of the quotient. A negative number is an error in
numpy; it does not occur. -/
def sectionSamples (heights : List K) : List K :=
  let yMin := lowestOf heights
  let yMax := highestOf heights
  let step := (heights.length : K)⁻¹ / 2
  linspace yMin yMax (⌊(yMax - yMin) / step⌋.toNat)

/-- The value stored by `VerticalIntersection.update`, `verticalintersection.py:31-42`: the samples and
the interpolated displacement there. -/
def sectionValue (interpolate : K → K → K) (level : K) (heights : List K) : List K × List K :=
  (sectionSamples heights, (sectionSamples heights).map fun y => interpolate level y)

omit [LinearOrder K] [FloorRing K] in
/-- `VerticalIntersection(x)`, `verticalintersection.py:27-29`; `format` is `f"{x:.2f}"`. The rule is
`sectionValue` for the interpolation of the state. -/
def sectionProduct {V : Type} (format : K → String) (rule : K → Snapshot K → V) (x : K) : Product K V :=
  { name := "intersection at " ++ format x, rule := some (rule x), data := [] }

omit [LinearOrder K] [FloorRing K] in
/-- `VerticalIntersectionContactLimitPoints(x, obstacle_level)`,
`intersection_contact_limit_points.py:28-31`. -/
def limitPointsProduct {V : Type} (format : K → String) (rule : K → K → Snapshot K → V)
    (x obstacleLevel : K) : Product K V :=
  { name := "limit points at " ++ format x, rule := some (rule x obstacleLevel), data := [] }

end Conmech
