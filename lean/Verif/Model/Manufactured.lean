import Mathlib.Algebra.Order.Field.Basic
import Mathlib.Data.Real.Basic
import Verif.Model.Recovery
import Verif.Model.ExampleLaws
/-
Model of the manufactured solution of `examples/example_manufactured_solution.py` and of the error norms
of the examples. `sqrt` is the square root of the number type.
-/
namespace Conmech

/-! ### The manufactured solution -/

/-- `W`, `H`, `examples/example_manufactured_solution.py:33-34`. -/
noncomputable def mmsW : ℝ := 2

@[inherit_doc mmsW] noncomputable def mmsH : ℝ := 1

/-- `LAMBDA`, `examples/example_manufactured_solution.py:43`. -/
noncomputable def lameLambda (E nu : ℝ) : ℝ := E * nu / ((1 + nu) * (1 - 2 * nu))

/-- `MU`, `examples/example_manufactured_solution.py:44`. -/
noncomputable def lameMu (E nu : ℝ) : ℝ := E / (2 * (1 + nu))

/-- `solution`, `examples/example_manufactured_solution.py:51-64`, at one node. -/
noncomputable def mmsSolution (alpha x y : ℝ) : ℝ × ℝ :=
  (alpha * (2 * x * y + x * y ^ 2), -alpha * x ^ 2 * (1 + y))

/-- `C_N_MATCHED`, `examples/example_manufactured_solution.py:48`. -/
noncomputable def mmsStiffness (lam mu : ℝ) : ℝ := lam + 2 * mu

/-- `MMS_SelfBalancing.inner_forces`, `examples/example_manufactured_solution.py:104-115`. -/
noncomputable def mmsInner (lam alpha x y : ℝ) : ℝ × ℝ :=
  (2 * lam * alpha * x, -2 * lam * alpha * (1 + y))

/-- `MMS_SelfBalancing.outer_forces`, `examples/example_manufactured_solution.py:117-144`. -/
noncomputable def mmsOuter (lam mu alpha x y : ℝ) : ℝ × ℝ :=
  let epsXX := alpha * (2 * y + y ^ 2)
  let epsYY := -alpha * x ^ 2
  let right : ℝ × ℝ :=
    if x > mmsW - 1 / 1000 then ((lam + 2 * mu) * epsXX + lam * epsYY, 0) else (0, 0)
  let result : ℝ × ℝ :=
    if y > mmsH - 1 / 1000 then (right.1 + 0, right.2 + (lam * epsXX + (lam + 2 * mu) * epsYY))
    else right
  if x > mmsW - 1 / 1000 ∧ y > mmsH - 1 / 1000 then (result.1 / 2, result.2 / 2) else result

/-! ### Error norms -/

section
variable {K : Type _} [Field K] [LinearOrder K]

/-- `areas`, `examples/example_manufactured_solution.py:163-169`. -/
def triangleArea (nodes : ℕ → ℕ → K) (e : List ℕ) : K :=
  let x1 := nodes (e.getD 0 0) 0
  let y1 := nodes (e.getD 0 0) 1
  let x2 := nodes (e.getD 1 0) 0
  let y2 := nodes (e.getD 1 0) 1
  let x3 := nodes (e.getD 2 0) 0
  let y3 := nodes (e.getD 2 0) 1
  1 / 2 * |(x2 - x1) * (y3 - y1) - (x3 - x1) * (y2 - y1)|

/-- `element_integrals`, `examples/example_manufactured_solution.py:171-188`; `diff p k` is entry `k` of
`diff[p]`. -/
def elementIntegral (nodes diff : ℕ → ℕ → K) (e : List ℕ) : K :=
  let d1 := diff (e.getD 0 0)
  let d2 := diff (e.getD 1 0)
  let d3 := diff (e.getD 2 0)
  let dot (a b : ℕ → K) : K := ∑ k ∈ Finset.range 2, a k * b k
  triangleArea nodes e / 6 * (dot d1 d1 + dot d2 d2 + dot d3 d3 + dot d1 d2 + dot d2 d3 + dot d3 d1)

/-- `np.add.at(node_sum, elements.ravel(), np.repeat(values, 3))`,
`examples/example_manufactured_solution.py:193-200`. -/
def addAtNodes (elements : List (List ℕ)) (value : List ℕ → K) : ℕ → K :=
  elements.foldl (fun acc e => e.foldl (fun (acc : ℕ → K) v => fun p =>
    if p = v then acc p + value e else acc p) acc) fun _ => 0

/-- `node_l2_errors`, `examples/example_manufactured_solution.py:193-202`. -/
def nodeL2Errors (sqrt : K → K) (elements : List (List ℕ)) (nodes exact approx : ℕ → ℕ → K) (p : ℕ) : K :=
  let diff := fun p k => exact p k - approx p k
  let area := addAtNodes elements (fun e => triangleArea nodes e / 3) p
  sqrt (addAtNodes elements (elementIntegral nodes diff) p / if area = 0 then 1 else area)

/-- `total_l2_norm`, `examples/example_manufactured_solution.py:155-191`. -/
def totalL2Norm (sqrt : K → K) (elements : List (List ℕ)) (nodes exact approx : ℕ → ℕ → K) : K :=
  sqrt ((elements.map (elementIntegral nodes fun p k => exact p k - approx p k)).sum)

/-- `_relative_temperature_error`, `examples/BartmanSzwarc_Ochal_Tarzia_2026.py:139-191`, for a reference
mesh with elements; `interpolated` is the other temperature at the nodes of the reference mesh. -/
def temperatureError (sqrt : K → K) (elements : List (List ℕ)) (nodes : ℕ → ℕ → K)
    (reference interpolated : ℕ → K) : K :=
  let diff := fun p => reference p - interpolated p
  sqrt (max (elements.foldl (fun l2 e =>
    let a0 := diff (e.getD 0 0)
    let a1 := diff (e.getD 1 0)
    let a2 := diff (e.getD 2 0)
    l2 + triangleArea nodes e / 12 *
      (2 * (a0 * a0 + a1 * a1 + a2 * a2) + 2 * (a0 * a1 + a0 * a2 + a1 * a2))) 0) 0)

/-- `compare`, `examples/error_estimates.py:15-77`: `u p k` are the displacements of the reference and
`h p k` the interpolated ones of the other state at its nodes. -/
def compareStates (sqrt : K → K) (elements : List (List ℕ)) (nodes u h : ℕ → ℕ → K) : K :=
  elements.foldl (fun ut e =>
    let e0 := e.getD 0 0
    let e1 := e.getD 1 0
    let e2 := e.getD 2 0
    let grad (f : ℕ → ℕ → K) (k : ℕ) :=
      calculateDxDy (nodes e0) (f e0 k) (nodes e1) (f e1 k) (nodes e2) (f e2 k)
    ut + sqrt ((u e0 0 + u e1 0 + u e2 0 - (h e0 0 + h e1 0 + h e2 0)) ^ 2 +
      (u e0 1 + u e1 1 + u e2 1 - (h e0 1 + h e1 1 + h e2 1)) ^ 2 +
      ((grad u 0).1 - (grad h 0).1) ^ 2 + ((grad u 1).2 - (grad h 1).2) ^ 2 +
      ((grad u 0).2 - (grad h 0).2 + (grad u 1).1 - (grad h 1).1) ^ 2)) 0

/-- `error_estimates`, `examples/error_estimates.py:95-117`: the number stored for one state. -/
def errorEstimate (sqrt : K → K) (elements : List (List ℕ)) (nodes u h : ℕ → ℕ → K) : K :=
  compareStates sqrt elements nodes u h / (elements.length : K)
end
end Conmech
