import Verif.Model.State
/-
Specification for C41-C44: what a user can do with a state, as a list of events.
-/
namespace Conmech.Spec
open Conmech

variable {K : Type} [Field K]

/-- The operations on a state. Giving a law or a setup is an assignment of the attribute. -/
inductive Event (K : Type) where
  | setDisplacement (vector : ℕ → K) (time : K) (updateAbsement : Bool)
  | setVelocity (vector : ℕ → K) (time : K) (updateDisplacement : Bool)
  | setScalar (vector : ℕ → K)
  | setLaw (law : Option (Law K))
  | setSetup (setup : Option ℕ)
  | readStress

/-- The effect of an event on the state; products are treated separately. -/
def Event.apply (g : Grid K) (s : State K) : Event K → State K
  | .setDisplacement v t u => s.withDisplacement g v t u
  | .setVelocity v t u => s.withVelocity g v t u
  | .setScalar v => s.setScalar v
  | .setLaw l => { s with law := l }
  | .setSetup x => { s with setup := x }
  | .readStress => s.getStress.2

/-- A history of events. -/
def history (g : Grid K) (s : State K) (events : List (Event K)) : State K :=
  events.foldl (Event.apply g) s

/-- The event computes a new displacement. -/
def Event.moves : Event K → Bool
  | .setDisplacement _ _ _ => true
  | .setVelocity _ _ u => u
  | _ => false

/-- The event is a request for the stress. -/
def Event.asks : Event K → Bool
  | .readStress => true
  | _ => false

/-- The stress at the values a state has at the moment. -/
def currentStress (s : State K) : Option (ℕ → ℕ → ℕ → K) := s.law.map fun l => l s.setup s.toSnapshot

end Conmech.Spec
