import Mathlib.Data.Multiset.Basic
import Mathlib.Data.Multiset.Bind
import Mathlib.Data.Multiset.MapFold
/-
Specification of the boundary of a mesh, and of the node layout conmech promises.
-/
namespace Conmech.Spec

/-- All faces of all elements, as multisets of node numbers: an element without one of its
vertices. -/
def faces (elements : List (List ℕ)) : Multiset (Multiset ℕ) :=
  (elements : Multiset (List ℕ)).bind fun e =>
    (e : Multiset ℕ).map fun v => (e : Multiset ℕ).erase v

/-- The face belongs to exactly one element. -/
def BoundaryFace (elements : List (List ℕ)) (f : Multiset ℕ) : Prop := (faces elements).count f = 1

/-- The node lies on a face that belongs to exactly one element. -/
def BoundaryNode (elements : List (List ℕ)) (v : ℕ) : Prop :=
  ∃ f, BoundaryFace elements f ∧ v ∈ f

theorem boundaryNode_iff_mem (elements : List (List ℕ)) (v : ℕ) :
    (∃ f ∈ faces elements, (faces elements).count f = 1 ∧ v ∈ f) ↔ BoundaryNode elements v := by
  constructor
  · rintro ⟨f, _, h1, h2⟩; exact ⟨f, h1, h2⟩
  · rintro ⟨f, h1, h2⟩
    exact ⟨f, Multiset.count_pos.1 (by unfold BoundaryFace at h1; omega), h1, h2⟩

instance (elements : List (List ℕ)) (v : ℕ) : Decidable (BoundaryNode elements v) :=
  @decidable_of_iff _ _ (boundaryNode_iff_mem elements v) Multiset.decidableExistsMultiset

/-- Boundary flag of a node number. -/
def onBoundary (elements : List (List ℕ)) (v : ℕ) : Bool := decide (BoundaryNode elements v)

/-- Value of a predicate on coordinates at the node with number `v`. -/
def holdsAt {α : Type _} (nodes : List α) (p : α → Bool) (v : ℕ) : Bool :=
  match nodes[v]? with
  | some x => p x
  | none => false

/-- The promised order of the nodes, as a list of old node numbers: contact nodes (not Dirichlet),
Neumann nodes, internal nodes, Dirichlet nodes, given for each node whether it is on the boundary
and whether the contact and Dirichlet predicates hold. Within the groups the order is kept, apart
from nodes which satisfy both predicates. -/
def layout (n : ℕ) (b c d : ℕ → Bool) : List ℕ :=
  ((List.range n).filter fun v => b v && c v && !d v) ++
  ((List.range n).filter fun v => b v && !c v && !d v) ++
  ((List.range n).filter fun v => !b v) ++
  (((List.range n).filter fun v => b v && !c v && d v) ++
    ((List.range n).filter fun v => b v && c v && d v).reverse)

end Conmech.Spec

namespace Conmech.Spec

/-- Position of the group of a node in the promised order: contact, Neumann, internal, Dirichlet;
Dirichlet takes precedence over contact. -/
def groupRank {α : Type _} (nodes : List α) (elements : List (List ℕ))
    (isContact isDirichlet : α → Bool) (v : ℕ) : ℕ :=
  if onBoundary elements v then
    if holdsAt nodes isDirichlet v then 3 else if holdsAt nodes isContact v then 0 else 1
  else 2

end Conmech.Spec
