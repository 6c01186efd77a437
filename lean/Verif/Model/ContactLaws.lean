import Mathlib.Algebra.Order.Field.Basic
/-!
The contact laws of `conmech/dynamics/contact`. A condition is a function of the normal (or
tangential) part of the variable, of the static displacement and of the time step.
-/
namespace Conmech

variable {K : Type _}

/-- `solver_methods.njit` (151-160) accepts nothing, a number, or a function of three arguments. -/
inductive Condition (K A : Type _) where
  | missing
  | number (value : K)
  | function (f : A → A → K → K)

/-- `solver_methods.py` 151-160: `njit(func, value)`; the default replaces a missing function only. -/
def Condition.njit {A : Type _} (value : K) : Condition K A → A → A → K → K
  | .missing => fun _ _ _ => value
  | .number r => fun _ _ _ => r
  | .function f => f

/-- The attributes of a contact law that solvers read (`contact_law.py` 22-126). The bounds exist for
every `ContactLaw`; the potentials exist for a `PotentialOfContactLaw` and the subderivative for a
`DirectContactLaw` (or when a class defines it), otherwise reading them raises `AttributeError`
(`none`). `interior` says whether the class derives from `InteriorContactLaw`. Tangential parts are
lists of coordinates. -/
structure ContactLaw (K : Type _) where
  potentialNormal : Option (Condition K K)
  potentialTangential : Option (Condition K (List K))
  subderivativeNormal : Option (Condition K K)
  generalContact : Option (Condition K K)
  normalBound : Condition K K
  tangentialBound : Condition K K
  interior : Bool

section
variable [Field K] [LinearOrder K]

/-- `contact_law.py` 29-51: both bounds are one unless overridden. -/
def unitBound : Condition K K := .function fun _ _ _ => 1

/-- `contact_law.py` 115-126: no tangential potential unless overridden. -/
def zeroTangential : Condition K (List K) := .function fun _ _ _ => 0

/-- `relu_slope_contact_law.py` 16-22. -/
def slopePotential (slope v _static _dt : K) : K := if v ≤ 0 then 0 else 1 / 2 * slope * v ^ 2

/-- `relu_slope_contact_law.py` 24-30. -/
def slopeSubderivative (slope v _static _dt : K) : K := if v ≤ 0 then 0 else slope * v

/-- `relu_slope_contact_law.py` 14-32: `make_slope_contact_law`. -/
def slopeLaw (slope : K) : ContactLaw K where
  potentialNormal := some (.function (slopePotential slope))
  potentialTangential := some zeroTangential
  subderivativeNormal := some (.function (slopeSubderivative slope))
  generalContact := none
  normalBound := unitBound
  tangentialBound := unitBound
  interior := false

/-- `constant_constact_law.py` 30-36. -/
def constPotential (resistance v static _dt : K) : K :=
  if v ≤ 0 then 0 * static else (resistance * v) * static

/-- `constant_constact_law.py` 38-44. -/
def constSubderivative (resistance v _static _dt : K) : K := if v ≤ 0 then 0 else resistance

/-- `constant_constact_law.py` 28-46: `make_const_contact_law`. -/
def constLaw (resistance : K) : ContactLaw K where
  potentialNormal := some (.function (constPotential resistance))
  potentialTangential := some zeroTangential
  subderivativeNormal := some (.function (constSubderivative resistance))
  generalContact := none
  normalBound := unitBound
  tangentialBound := unitBound
  interior := false

/-- `damped_normal_compliance.py` 39-44: the bound `0.5 * var_nu`. -/
def dampedBound (v _static _dt : K) : K := 1 / 2 * v

/-- `damped_normal_compliance.py` 46-53. -/
def dampedPotential (obstacle kappa beta v static dt : K) : K :=
  let displacement := static + v * dt
  if displacement < obstacle then 0 else kappa * (displacement - obstacle) + beta * v

/-- `damped_normal_compliance.py` 55-62. -/
def dampedSubderivative (obstacle kappa beta v static dt : K) : K :=
  let displacement := static + v * dt
  if displacement < obstacle then 0 else kappa * dt + beta

/-- `damped_normal_compliance.py` 23-64: `make_damped_norm_compl`. -/
def dampedLaw (obstacle kappa beta : K) (interior : Bool) : ContactLaw K where
  potentialNormal := some (.function (dampedPotential obstacle kappa beta))
  potentialTangential := some zeroTangential
  subderivativeNormal := some (.function (dampedSubderivative obstacle kappa beta))
  generalContact := none
  normalBound := .function dampedBound
  tangentialBound := unitBound
  interior := interior

end
end Conmech
