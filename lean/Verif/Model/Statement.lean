import Verif.Model.Dirichlet
import Verif.Model.Schur
/-
Model of the statements of `conmech/dynamics/statement.py`.

A `StiffnessMatrix` is the function of its entries; `.SM1` and `[:ind, :ind]` only restrict the index
range, so that the entries are those of the same function. Sizes appear in the products.
-/
namespace Conmech

/-- Ways in which an update of a statement can fail. -/
inductive StatementError where
  /-- `AssertionError` -/
  | assertion
  /-- any exception raised by `dynamics.relaxation(time)` -/
  | relaxation
deriving DecidableEq, Repr

/-- `Variables`, `conmech/dynamics/statement.py:9-17`. -/
structure Variables (K : Type _) where
  absement : Option (ℕ → K) := none
  displacement : Option (ℕ → K) := none
  velocity : Option (ℕ → K) := none
  temperature : Option (ℕ → K) := none
  electricPotential : Option (ℕ → K) := none
  timeStep : Option K := none
  time : Option K := none

/-- What the statements read from `self.body`: `body.mesh.nodes_count`, `body.mesh.dimension` and the
operators of `body.dynamics`. `relaxation` is given the time, which may be missing; `force` and
`bodyTemperature` are `force.integrate` and `temperature.integrate`. -/
structure Operators (K : Type _) where
  nodesCount : ℕ
  dimension : ℕ
  elasticity : ℕ → ℕ → K
  viscosity : ℕ → ℕ → K
  acceleration : ℕ → ℕ → K
  poisson : ℕ → ℕ → K
  thermalExpansion : ℕ → ℕ → K
  thermalConductivity : ℕ → ℕ → K
  permittivity : ℕ → ℕ → K
  piezoelectricity : ℕ → ℕ → K
  relaxation : Option K → Except StatementError (ℕ → ℕ → K)
  force : K → ℕ → K
  bodyTemperature : K → ℕ → K

/-- The classes derived from `Statement`. -/
inductive StatementKind where
  | staticPoisson | wave | staticDisplacement | quasistaticRelaxation | quasistaticVelocity
  | dynamicVelocity | dynamicVelocityWithTemperature | temperature | piezoelectric
  | quasistaticVelocityWithPiezoelectric | dynamicVelocityWithPiezoelectric
deriving DecidableEq, Repr

/-- `assert var.x is not None` -/
def required {α : Type _} : Option α → Except StatementError α
  | some a => .ok a
  | none => .error .assertion

/-- `self.dimension_in`, the first entry of the tuple given to `super().__init__`,
`conmech/dynamics/statement.py:71, 82, 109, 120, 142, 163, 200, 231`. -/
def StatementKind.dimensionIn (meshDimension : ℕ) : StatementKind → ℕ
  | .staticPoisson => 1
  | .wave => 1
  | .staticDisplacement => meshDimension
  | .quasistaticRelaxation => 2
  | .quasistaticVelocity => 2
  | .dynamicVelocity => 2
  | .dynamicVelocityWithTemperature => 2
  | .temperature => 1
  | .piezoelectric => 1
  | .quasistaticVelocityWithPiezoelectric => 2
  | .dynamicVelocityWithPiezoelectric => 2

variable {K : Type _} [Field K]

/-- `update_left_hand_side` of `DynamicVelocityStatement`, `statement.py:165-172`. -/
def dynamicLhs (ops : Operators K) (var : Variables K) : Except StatementError (ℕ → ℕ → K) := do
  let dt ← required var.timeStep
  return fun r s => ops.viscosity r s + 1 / dt * ops.acceleration r s + ops.elasticity r s * dt

/-- `update_left_hand_side` of `QuasistaticVelocityStatement`, `statement.py:144-149`. -/
def quasistaticLhs (ops : Operators K) (var : Variables K) : Except StatementError (ℕ → ℕ → K) := do
  let dt ← required var.timeStep
  return fun r s => ops.viscosity r s + ops.elasticity r s * dt

/-- `update_left_hand_side` of all statements, `conmech/dynamics/statement.py:73-74, 84-90, 111-112,
122-128, 144-149, 165-172, 202-210, 234-235`. The statements with temperature or potential inherit
it from the plain ones. -/
def updateLhs (ops : Operators K) (var : Variables K) :
    StatementKind → Except StatementError (ℕ → ℕ → K)
  | .staticPoisson => .ok ops.poisson
  | .wave => do
    let dt ← required var.timeStep
    return fun r s => 1 / dt * ops.acceleration r s + ops.poisson r s * dt
  | .staticDisplacement => .ok ops.elasticity
  | .quasistaticRelaxation => do
    let dt ← required var.timeStep
    let relaxation ← ops.relaxation var.time
    return fun r s => ops.elasticity r s + relaxation r s * dt
  | .quasistaticVelocity => quasistaticLhs ops var
  | .dynamicVelocity => dynamicLhs ops var
  | .dynamicVelocityWithTemperature => dynamicLhs ops var
  | .temperature => do
    let dt ← required var.timeStep
    return fun r s => 1 / dt * ops.acceleration r s + ops.thermalConductivity r s
  | .piezoelectric => .ok ops.permittivity
  | .quasistaticVelocityWithPiezoelectric => quasistaticLhs ops var
  | .dynamicVelocityWithPiezoelectric => dynamicLhs ops var

/-- `update_right_hand_side` of `DynamicVelocityStatement`, `statement.py:174-184`. -/
def dynamicRhs (ops : Operators K) (var : Variables K) : Except StatementError (ℕ → K) := do
  let n := ops.dimension * ops.nodesCount
  let u ← required var.displacement
  let v ← required var.velocity
  let dt ← required var.timeStep
  let time ← required var.time
  -- A = -1 * elasticity @ displacement
  let a : ℕ → K := matVec n (fun r s => -1 * ops.elasticity r s) u
  -- A += (1 / time_step) * acceleration_operator @ velocity
  let a : ℕ → K := fun r => a r + matVec n (fun r s => 1 / dt * ops.acceleration r s) v r
  return fun r => ops.force time r + a r

/-- `update_right_hand_side` of `QuasistaticVelocityStatement`, `statement.py:151-158`. -/
def quasistaticRhs (ops : Operators K) (var : Variables K) : Except StatementError (ℕ → K) := do
  let n := ops.dimension * ops.nodesCount
  let u ← required var.displacement
  let time ← required var.time
  return fun r => ops.force time r - matVec n ops.elasticity u r

/-- `update_right_hand_side` of all statements, `conmech/dynamics/statement.py:76-77, 92-104,
114-115, 130-137, 151-158, 174-184, 188-195, 212-226, 237-241, 245-252, 256-263`. -/
def updateRhs (ops : Operators K) (var : Variables K) :
    StatementKind → Except StatementError (ℕ → K)
  | .staticPoisson => .ok (ops.bodyTemperature 0)
  | .wave => do
    let n := ops.nodesCount
    let u ← required var.displacement
    let v ← required var.velocity
    let dt ← required var.timeStep
    let time ← required var.time
    let a : ℕ → K := matVec n (fun r s => -1 * ops.poisson r s) u
    let a : ℕ → K := fun r => a r + matVec n (fun r s => 1 / dt * ops.acceleration r s) v r
    return fun r => ops.force time r + a r
  | .staticDisplacement => .ok (ops.force 0)
  | .quasistaticRelaxation => do
    let n := ops.dimension * ops.nodesCount
    let b ← required var.absement
    let time ← required var.time
    let relaxation ← ops.relaxation (some time)
    return fun r => ops.force time r - matVec n relaxation b r
  | .quasistaticVelocity => quasistaticRhs ops var
  | .dynamicVelocity => dynamicRhs ops var
  | .dynamicVelocityWithTemperature => do
    let rhs ← dynamicRhs ops var
    let temperature ← required var.temperature
    return fun r => rhs r + matVec ops.nodesCount (transposed ops.thermalExpansion) temperature r
  | .temperature => do
    let n := ops.dimension * ops.nodesCount
    let v ← required var.velocity
    let dt ← required var.timeStep
    let temperature ← required var.temperature
    let rhs : ℕ → K := matVec n (fun r s => -1 * ops.thermalExpansion r s) v
    return fun r => rhs r +
      matVec ops.nodesCount (fun r s => 1 / dt * ops.acceleration r s) temperature r
  | .piezoelectric => do
    let u ← required var.displacement
    return matVec (ops.dimension * ops.nodesCount) ops.piezoelectricity u
  | .quasistaticVelocityWithPiezoelectric => do
    let rhs ← quasistaticRhs ops var
    let potential ← required var.electricPotential
    return fun r => rhs r +
      matVec ops.nodesCount (fun r s => -1 * transposed ops.piezoelectricity r s) potential r
  | .dynamicVelocityWithPiezoelectric => do
    let rhs ← dynamicRhs ops var
    let potential ← required var.electricPotential
    return fun r => rhs r + matVec ops.nodesCount (transposed ops.piezoelectricity) potential r

/-- `Statement.update`, `conmech/dynamics/statement.py:35-38`; `bs` are the boundaries found by
`find_dirichlet_conditions`. -/
def StatementKind.update (kind : StatementKind) (ops : Operators K) (bs : List (CondBoundary K))
    (var : Variables K) : Except StatementError (System K) := do
  let lhs ← updateLhs ops var kind
  let rhs ← updateRhs ops var kind
  return applyDirichlet ops.nodesCount (kind.dimensionIn ops.dimension) bs ⟨lhs, rhs⟩

end Conmech
