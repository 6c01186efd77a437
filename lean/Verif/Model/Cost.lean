import Verif.Model.ContactLaws
import Verif.Model.Solvers
import Mathlib.Order.Interval.Finset.Nat
/-!
`conmech/solvers/solver_methods.py`: the cost functional, its subgradient and the equation of the
direct solver; `Optimization.__init__` and `Direct.__init__`.

Flat vectors are functions on `ℕ` with a size, degrees of freedom are numbered
`coordinate * offset + node`. The contact boundary is a list of surfaces, each with its nodes and its
normal: the code pairs `contact_boundary[ei]` with `contact_normals[ei]`.
-/
namespace Conmech

variable {K : Type _} [Field K]

/-- A flat vector, `len(vector)` and its entries. -/
structure Flat (K : Type _) where
  size : ℕ
  get : ℕ → K

/-- `contact_boundary[ei]` and `contact_normals[ei]`. -/
structure Surface (K : Type _) where
  edge : List ℕ
  normal : ℕ → K

/-- `nph.py` 38-42: the distance between the first two nodes of a surface in the first two
coordinates. -/
def surfaceLength (sqrt : K → K) (nodes : ℕ → ℕ → K) (edge : List ℕ) : K :=
  sqrt ((nodes (edge.getD 0 0) 0 - nodes (edge.getD 1 0) 0) ^ 2 +
    (nodes (edge.getD 0 0) 1 - nodes (edge.getD 1 0) 1) ^ 2)

/-- `solver_methods.py` 31-32, 35-39 (and 46-47, 50-56): a node that is too large for the vector is
looked up in the vector of old values. -/
def nodeValue (dimension : ℕ) (vector full : Flat K) (node i : ℕ) : K :=
  if node < vector.size / dimension then vector.get (i * (vector.size / dimension) + node)
  else full.get (i * (full.size / dimension) + node)

/-- `solver_methods.py` 29-40: `interpolate_node_between`, the mean over the nodes of the edge. -/
def interpolateNodeBetween (edge : List ℕ) (vector full : Flat K) (dimension i : ℕ) : K :=
  edge.foldl (fun acc node => acc + nodeValue dimension vector full node i / (edge.length : K)) 0

/-- `solver_methods.py` 44-57: `get_nodes`, as the list of its columns: the mean and then the values
at the nodes. -/
def getNodes (edge : List ℕ) (vector full : Flat K) (dimension : ℕ) : List (ℕ → K) :=
  (fun i => edge.foldl
      (fun acc node => acc + nodeValue dimension vector full node i / (edge.length : K)) 0) ::
    edge.map fun node i => nodeValue dimension vector full node i

/-- `solver_methods.py` 194-195, 198 (and 292-293, 296). -/
def normalPart (dimension : ℕ) (vm normal : ℕ → K) : K :=
  if dimension = 1 then vm 0 else ∑ i ∈ Finset.range dimension, vm i * normal i

/-- `solver_methods.py` 196, 199 (and 294, 297). -/
def tangentialPart (dimension : ℕ) (vm normal : ℕ → K) : List K :=
  if dimension = 1 then []
  else (List.range dimension).map fun i => vm i - normalPart dimension vm normal * normal i

/-- The four functions built at the beginning of `make_cost_functional` (171-174) and
`make_subgradient` (268-271). -/
structure Conditions (K : Type _) where
  normal : K → K → K → K
  normalBound : K → K → K → K
  tangential : List K → List K → K → K
  tangentialBound : K → K → K → K

/-- `solver_methods.py` 171-174, 268-271: the defaults. -/
def makeConditions (normal normalBound : Condition K K) (tangential : Condition K (List K))
    (tangentialBound : Condition K K) : Conditions K where
  normal := normal.njit 0
  normalBound := normalBound.njit 1
  tangential := tangential.njit 0
  tangentialBound := tangentialBound.njit 1

/-- `solver_methods.py` 176-178, 273-275. -/
def contactCost (length normal normalBound tangential tangentialBound : K) : K :=
  length * (normalBound * normal + tangentialBound * tangential)

/-- The arguments of the functionals that stay fixed during the optimisation
(`optimization.py` 131-141). `meshDimension` is the length of the normals. -/
structure ContactData (K : Type _) where
  variableDimension : ℕ
  problemDimension : ℕ
  meshDimension : ℕ
  nodes : ℕ → ℕ → K
  surfaces : List (Surface K)
  old : Flat K
  staticDisplacement : Flat K
  dt : K

/-- `solver_methods.py` 207 (and 305): `(static_displacement_mean * normal_vector).sum()`. A mean of
length one is broadcast to the length of the normal; otherwise both lengths are equal. -/
def staticNormalPart (problemDimension meshDimension : ℕ) (mean normal : ℕ → K) : K :=
  if problemDimension = 1 then ∑ i ∈ Finset.range meshDimension, mean 0 * normal i
  else ∑ i ∈ Finset.range problemDimension, mean i * normal i

/-- `solver_methods.py` 208-210 (and 306-308), with the same broadcasting. -/
def staticTangentialPart (problemDimension meshDimension : ℕ) (mean normal : ℕ → K) : List K :=
  if problemDimension = 1 then (List.range meshDimension).map fun i =>
    mean 0 - staticNormalPart problemDimension meshDimension mean normal * normal i
  else (List.range problemDimension).map fun i =>
    mean i - staticNormalPart problemDimension meshDimension mean normal * normal i

/-- `solver_methods.py` 192-218 (and 290-316): the contribution of one sample of a surface. `count` is
`len(vms[0])`. -/
def sampleCost (sqrt : K → K) (c : Conditions K) (d : ContactData K) (s : Surface K) (count : ℕ)
    (vm : ℕ → K) : K :=
  let vmNormal := normalPart d.variableDimension vm s.normal
  let vmTangential := tangentialPart d.variableDimension vm s.normal
  let mean := interpolateNodeBetween s.edge d.staticDisplacement d.staticDisplacement
    d.problemDimension
  let staticNormal := staticNormalPart d.problemDimension d.meshDimension mean s.normal
  let staticTangential := staticTangentialPart d.problemDimension d.meshDimension mean s.normal
  contactCost (surfaceLength sqrt d.nodes s.edge / (count : K))
    (c.normal vmNormal staticNormal d.dt) (c.normalBound vmNormal staticNormal d.dt)
    (c.tangential vmTangential staticTangential d.dt)
    (c.tangentialBound vmNormal staticNormal d.dt)

/-- `solver_methods.py` 181-219: `contact_cost_functional`. The loop over surfaces is a `prange`
(a reduction), here in order. -/
def contactCostFunctional (sqrt : K → K) (c : Conditions K) (d : ContactData K) (var : Flat K) : K :=
  d.surfaces.foldl (fun cost s =>
    let vms := getNodes s.edge var d.old d.variableDimension
    vms.foldl (fun cost vm => cost + sampleCost sqrt c d s vms.length vm) cost) 0

/-- `solver_methods.py` 236-254: `cost_functional`; `ind` is `lhs.shape[0]`. -/
def costFunctional (sqrt : K → K) (c : Conditions K) (d : ContactData K) (ind : ℕ)
    (lhs : ℕ → ℕ → K) (rhs : ℕ → K) (var : Flat K) : K :=
  1 / 2 * (∑ i ∈ Finset.range ind, (∑ j ∈ Finset.range ind, lhs i j * var.get j) * var.get i) -
    (∑ i ∈ Finset.range ind, rhs i * var.get i) + contactCostFunctional sqrt c d var

/-- `cost[index] += value`. -/
def addAt (v : ℕ → K) (index : ℕ) (value : K) : ℕ → K :=
  fun k => if k = index then v k + value else v k

/-- `solver_methods.py` 318-321: one sample is distributed to all nodes of the edge. -/
def distribute (offset dimension : ℕ) (s : Surface K) (subgrad : K) (cost : ℕ → K) : ℕ → K :=
  s.edge.foldl (fun cost node => (List.range dimension).foldl (fun cost i =>
    if node < offset then addAt cost (i * offset + node) (s.normal i / (s.edge.length : K) * subgrad)
    else cost) cost) cost

/-- `solver_methods.py` 278-323: `contact_subgradient`. -/
def contactSubgradient (sqrt : K → K) (c : Conditions K) (d : ContactData K) (var : Flat K) : ℕ → K :=
  d.surfaces.foldl (fun cost s =>
    let vms := getNodes s.edge var d.old d.variableDimension
    vms.foldl (fun cost vm => distribute (var.size / d.variableDimension) d.variableDimension s
      (sampleCost sqrt c d s vms.length vm) cost) cost) fun _ => 0

/-- `solver_methods.py` 327-349: the function returned by `make_subgradient`. Its first `ind` entries
are set, the others are zero. -/
def subgradientFunctional (sqrt : K → K) (c : Conditions K) (d : ContactData K) (onlyBoundary : Bool)
    (ind : ℕ) (lhs : ℕ → ℕ → K) (rhs : ℕ → K) (var : Flat K) : ℕ → K :=
  fun k =>
    if k < ind then
      if onlyBoundary then contactSubgradient sqrt c d var k
      else (∑ j ∈ Finset.range ind, lhs k j * var.get j) - rhs k + contactSubgradient sqrt c d var k
    else 0

/-- `solver_methods.py` 101-128: `contact_part` of the direct equation. -/
def contactPart (sqrt : K → K) (jn : K → K → K → K) (problemDimension : ℕ) (nodes : ℕ → ℕ → K)
    (surfaces : List (Surface K)) (u : Flat K) : ℕ → K :=
  let offset := u.size / problemDimension
  surfaces.foldl (fun contact s =>
    let node0 := s.edge.getD 0 0
    let node1 := s.edge.getD 1 0
    let ums := getNodes s.edge u u problemDimension
    ums.foldl (fun contact um =>
      let umNormal := ∑ i ∈ Finset.range problemDimension, um i * s.normal i
      let edgeLen := surfaceLength sqrt nodes s.edge / (ums.length : K)
      let jx := edgeLen * (1 / 2) * (jn umNormal 0 0 * s.normal 0)
      let jy := edgeLen * (1 / 2) * (jn umNormal 0 0 * s.normal 1)
      let contact :=
        if node0 < offset then addAt (addAt contact node0 jx) (node0 + offset) jy else contact
      if node1 < offset then addAt (addAt contact node1 jx) (node1 + offset) jy else contact)
      contact) fun _ => 0

/-- `solver_methods.py` 132-146: the equation of the direct solver; `np.dot(lhs, var)` needs
`lhs.shape[1] = len(var)`. -/
def directEquation (sqrt : K → K) (jn : K → K → K → K) (problemDimension : ℕ) (nodes : ℕ → ℕ → K)
    (surfaces : List (Surface K)) (lhs : ℕ → ℕ → K) (rhs : ℕ → K) (var : Flat K) (k : ℕ) : K :=
  (∑ j ∈ Finset.range var.size, lhs k j * var.get j) +
    contactPart sqrt jn problemDimension nodes surfaces var k - rhs k

/-- `solver_methods.py` 71-95: the functional used for interior contact (and by the direct solver
when the law has a `general_contact_condition`). -/
def interiorEnergy (contact : K → K → K → K) (ind : ℕ) (lhs : ℕ → ℕ → K) (rhs : ℕ → K)
    (displacement : ℕ → K) (volumeMultiplier : ℕ → ℕ → K) (dt : K) (var : Flat K) : K :=
  1 / 2 * (∑ i ∈ Finset.range ind, (∑ j ∈ Finset.range ind, lhs i j * var.get j) * var.get i) -
    (∑ i ∈ Finset.range ind, rhs i * var.get i) +
    1 / 2 * (∑ i ∈ Finset.range ind, (∑ j ∈ Finset.range ind,
      volumeMultiplier i j * contact (var.get j) (displacement j) dt) * 1) +
    ∑ i ∈ Finset.Ico ind var.size, var.get i * var.get i

/-- What `Optimization.__init__` stores as `self.loss`. -/
inductive Loss (K : Type _) where
  | cost (conditions : Conditions K) (variableDimension problemDimension : ℕ)
  | interior (contact : K → K → K → K)

/-- What `Optimization.__init__` stores. `make_subgradient` is called without the two dimensions,
hence with its defaults, two. -/
structure OptimizationInit (K : Type _) where
  loss : Loss K
  subgradient : Option (Conditions K)

/-- Reading an attribute that an object (or `None`) does not have. -/
inductive AttributeError where
  | mk (name : String)
  deriving DecidableEq

/-- `contact_law.<name>`, where `contact_law` may be `None`. -/
def readAttribute {A : Type _} (law : Option (ContactLaw K)) (name : String)
    (read : ContactLaw K → Option A) : Except AttributeError A :=
  match law with
  | none => .error (.mk name)
  | some l =>
    match read l with
    | none => .error (.mk name)
    | some a => .ok a

/-- `optimization.py` 59-103: `Optimization.__init__`. -/
def optimizationInit (kind : StatementKind) (dimensionOut dimensionIn : ℕ)
    (law : Option (ContactLaw K)) : Except AttributeError (OptimizationInit K) := do
  let potential ← readAttribute law "potential_normal_direction" (·.potentialNormal)
  let normalBound ← readAttribute law "normal_bound" (fun l => some l.normalBound)
  let tangential ← readAttribute law "potential_tangential_direction" (·.potentialTangential)
  let tangentialBound ← readAttribute law "tangential_bound" (fun l => some l.tangentialBound)
  let loss := Loss.cost (makeConditions potential normalBound tangential tangentialBound)
    dimensionOut dimensionIn
  let subgradient := (law.bind (·.subderivativeNormal)).map fun sub =>
    makeConditions sub .missing .missing .missing
  let loss := if kind = .wave ∧ (law.map (·.interior)) = some true then
      Loss.interior (potential.njit 0) else loss
  let loss := if kind = .staticPoisson then
      Loss.cost (makeConditions potential .missing .missing .missing) dimensionOut dimensionIn
    else loss
  return { loss := loss, subgradient := subgradient }

/-- What `Direct.__init__` stores: nothing, the energy used for a general contact condition, or an
equation. -/
inductive DirectInit (K : Type _) where
  | linear
  | general (contact : K → K → K → K)
  | equation (jn : Condition K K)

/-- `direct.py` 21-46: `Direct.__init__`. -/
def directInit (law : Option (ContactLaw K)) : Except AttributeError (DirectInit K) :=
  match law with
  | none => .ok .linear
  | some l => do
    let jn ← readAttribute (some l) "subderivative_normal_direction" (·.subderivativeNormal)
    match l.generalContact with
    | some c => return .general (c.njit 0)
    | none => return .equation jn

/-- The constructors of all solver classes, up to the call of `Optimization.__init__` or
`Direct.__init__`. The Schur complement solvers call `Optimization.__init__` first
(`schur_complement.py` 24-30), the global ones inherit it. -/
def constructSolver (cls : SolverClass) (kind : StatementKind) (dimensionOut dimensionIn : ℕ)
    (law : Option (ContactLaw K)) : Except AttributeError Unit :=
  match cls with
  | .direct => (directInit law).map fun _ => ()
  | _ => (optimizationInit kind dimensionOut dimensionIn law).map fun _ => ()

end Conmech
