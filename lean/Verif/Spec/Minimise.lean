import Verif.Model.Minimise
/-
Specification for C76 and C77.
-/
namespace Conmech.Spec

/-- The documented names of the minimisers, in lower case; global quasi secant methods are named by
anything that begins with one of these. -/
def names : Backend → List String
  | .adam => ["adam", "torch_adam"]
  | .qsmlm => ["quasi secant method", "limited memory quasi secant method",
      "quasi secant method limited memory", "qsm", "qsmlm"]
  | .globalQsmlm => ["global quasi secant method", "global limited memory quasi secant method",
      "global quasi secant method limited memory", "globqsm", "globqsmlm"]
  | .discontinuous => ["discontinuous gradient", "discontinuous gradient method", "dg"]
  | .constrained => ["constrained"]
  | .scipy _ => []

/-- The name (in lower case) asks for the minimiser. -/
def AsksFor (name : String) (b : Backend) : Prop :=
  name ∈ names b ∨ b = .globalQsmlm ∧ ∃ pre ∈ names .globalQsmlm, ∃ rest, name = pre ++ rest

/-- Any number of calls with one solver. -/
def calls {K L D : Type _} (lower : String → String) (tolDefault : K) (loss : L)
    (subgradient : Option D) :
    List (ℕ × MinimiseOptions K) → Option (L × Option D) →
      Except MinimiseError (List (MinimiseCall K L D) × Option (L × Option D))
  | [], m => .ok ([], m)
  | (rows, o) :: rest, m =>
    match minimise lower tolDefault loss subgradient rows o m with
    | .error e => .error e
    | .ok (call, m') =>
      match calls lower tolDefault loss subgradient rest m' with
      | .error e => .error e
      | .ok (cs, m'') => .ok (call :: cs, m'')

end Conmech.Spec
