import Mathlib.Data.Nat.Notation
/-
What C100 says about results kept in files. A directory is a function from names of files to results.
-/
namespace Conmech.Spec

variable {A P D : Type}

/-- The results shown are those of the parameters for which they are shown, and there is one for each of
`wanted`, in order. -/
def Truthful (sim : P → A) (wanted : List P) (shown : List (P × Option A)) : Prop :=
  shown = wanted.map fun p => (p, some (sim p))

/-- Files of the parameters in `S` hold results of these parameters. -/
def Honest (name : P → String) (sim : P → A) (S : P → Prop) (files : String → Option A) : Prop :=
  ∀ p, S p → ∀ a, files (name p) = some a → a = sim p

/-- Different parameters in `S` have different names. -/
def Separate (name : P → String) (S : P → Prop) : Prop :=
  ∀ p q, S p → S q → name p = name q → p = q

/-- The files of `ps`, with results of these parameters, whatever the simulations started from. -/
def HonestUpToStart (name : P → String) (sim : P → Option D → A) (S : P → Prop)
    (files : String → Option A) : Prop :=
  ∀ p, S p → ∀ a, files (name p) = some a → ∃ w, a = sim p w

/-- `text` has no underscore. -/
def Plain (text : String) : Prop := '_' ∉ text.toList

end Conmech.Spec
