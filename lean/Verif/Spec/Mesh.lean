/-
Specifications for meshes, independent of the algorithms in the model.
-/
namespace Conmech.Spec

/-- The coordinates an element array stands for: every node number is looked up. A dangling node
number shows up as `none`. -/
def geometry {α : Type _} (nodes : List α) (elements : List (List Nat)) :
    List (List (Option α)) :=
  elements.map fun row => row.map fun v => nodes[v]?

/-- All node numbers are valid. -/
def Valid (n : Nat) (elements : List (List Nat)) : Prop :=
  ∀ row ∈ elements, ∀ v ∈ row, v < n

/-- Some element uses node `v`. -/
def Used (elements : List (List Nat)) (v : Nat) : Prop := ∃ row ∈ elements, v ∈ row

instance (elements : List (List Nat)) (v : Nat) : Decidable (Used elements v) :=
  inferInstanceAs (Decidable (∃ row ∈ elements, v ∈ row))

/-- Two nodes share an element. -/
def Adjacent (elements : List (List Nat)) (i j : Nat) : Prop :=
  i ≠ j ∧ ∃ row ∈ elements, i ∈ row ∧ j ∈ row

end Conmech.Spec
