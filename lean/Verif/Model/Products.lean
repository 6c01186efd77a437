import Mathlib.Algebra.Order.Field.Basic
import Verif.Model.State
/-
Model of `conmech/state/products/product.py` (the restriction to a range of times),
`conmech/state/products/penetration.py` and of `estimate_zeros` in
`conmech/state/products/intersection_contact_limit_points.py`.

Numbers are exact. The interpolation by matplotlib that produces the function given to
`estimate_zeros` and the root finder of scipy are parameters.
-/
namespace Conmech

section Ranges

variable {K : Type} [LinearOrder K] {V : Type}

/-- `del d[key]`; `none` is a `KeyError`. -/
def dictDel {α β : Type} [DecidableEq α] (key : α) : List (α × β) → Option (List (α × β))
  | [] => none
  | (k, v) :: rest => if k = key then some rest else (dictDel key rest).map ((k, v) :: ·)

/-- `Product.range`, `conmech/state/products/product.py:37-42`. -/
def Product.range (p : Product K V) (start stop : K) : Option (Product K V) :=
  (p.data.map Prod.fst).foldlM
    (fun (result : Product K V) key =>
      if key ≤ start ∨ stop < key then
        (dictDel key result.data).map fun d => { result with data := d }
      else some result)
    p.copy

end Ranges

section Penetrations

variable {K : Type} [Field K] [LinearOrder K]

/-- `np.min` of a non-empty list. -/
def npMin : K → List K → K
  | x, [] => x
  | x, y :: rest => npMin (min x y) rest

/-- The value stored by `Penetration.update`, `conmech/state/products/penetration.py:34-38`.
`contact_indices` is `slice(0, contact_nodes_count)`, `conmech/mesh/mesh.py:185`. -/
def penetrationValue (contactNodes : ℕ) (s : Snapshot K) : K :=
  match (List.range contactNodes).map fun i => s.displacedNodes i 1 with
  | x :: rest => npMin x rest
  | [] => 0

/-- `Penetration()`, `penetration.py:30-31`. -/
def penetration (contactNodes : ℕ) : Product K K :=
  { name := "penetration", rule := some (penetrationValue contactNodes), data := [] }

end Penetrations

section Zeros

variable {K : Type} [Field K] [LinearOrder K]

/-- How `estimate_zeros` can fail to return. -/
inductive ZeroError where
  /-- `ValueError` of `opt.brentq`, raised when the signs at the ends do not differ -/
  | rootFinder
  /-- not an exception: the model gave up waiting for the loop to end -/
  | unfinished
deriving DecidableEq, Repr

/-- `np.sign` -/
def signOf (x : K) : K := if 0 < x then 1 else if x < 0 then -1 else 0

/-- The loop of `estimate_zeros`, `intersection_contact_limit_points.py:59-66`, for a number of
passes. -/
def zerosLoop (brentq : (K → K) → K → K → Option K) (func : K → K) (xmax step : K) :
    ℕ → K → K → List K → Except ZeroError (List K)
  | 0, _, _, _ => .error .unfinished
  | n + 1, x, sign, zeros =>
    if x ≤ xmax then
      let fx := func x
      let appended : Except ZeroError (List K) :=
        if fx = 0 then .ok (zeros ++ [x])
        else if (fx < 0 ∧ 0 < sign) ∨ (0 < fx ∧ sign < 0) then
          match brentq func (x - step) x with
          | some root => .ok (zeros ++ [root])
          | none => .error .rootFinder
        else .ok zeros
      match appended with
      | .ok zeros => zerosLoop brentq func xmax step n (x + step) (signOf fx) zeros
      | .error e => .error e
    else .ok zeros

/-- `estimate_zeros`, `intersection_contact_limit_points.py:55-67`. -/
def estimateZeros (brentq : (K → K) → K → K → Option K) (passes : ℕ) (func : K → K)
    (xmin xmax step : K) : Except ZeroError (List K) :=
  zerosLoop brentq func xmax step passes xmin (signOf (func xmin)) []

/-- The arguments of the call in `update`, `intersection_contact_limit_points.py:34-42`;
`profile` is `u_intsec`. -/
def limitPoints (brentq : (K → K) → K → K → Option K) (passes nodesCount : ℕ) (profile : K → K)
    (yMin yMax : K) : Except ZeroError (List K) :=
  estimateZeros brentq passes profile yMin yMax ((nodesCount : K)⁻¹ / 2)

end Zeros

end Conmech
