import Verif.Spec.Reactions
/-
Specification for C111: contact problems of bodies whose supports touch the contact surfaces.
-/
namespace Conmech.Spec

variable {K : Type _} [Field K]

/-- Every node of a contact surface is either one of the first `C` nodes and free to move, or it is a later
node of the mesh and held in all coordinates. -/
def SupportsApart (N C dim : ℕ) (D : ℕ → Prop) (surfaces : List (Surface K)) : Prop :=
  ∀ s ∈ surfaces, ∀ node ∈ s.edge, (node < C ∧ ∀ i < dim, ¬ D (i * N + node)) ∨
    (C ≤ node ∧ node < N ∧ ∀ i < dim, D (i * N + node))

/-- The values of `x` at the nodes of contact surfaces that are held are the prescribed ones. -/
def HeldOnContact (N dim : ℕ) (D : ℕ → Prop) (g : ℕ → K) (surfaces : List (Surface K)) (x : ℕ → K) : Prop :=
  ∀ s ∈ surfaces, ∀ node ∈ s.edge, ∀ i < dim, D (i * N + node) → x (i * N + node) = g (i * N + node)

/-- The contract of a minimiser: a minimiser is found whenever there is one. -/
def MinimiseContract [LinearOrder K] (minimise : ℕ → ((ℕ → K) → K) → (ℕ → K) → ℕ → K) : Prop :=
  ∀ n (f : (ℕ → K) → K) guess, (∃ x, ∀ y, f x ≤ f y) → ∀ y, f (minimise n f guess) ≤ f y

/-- The contact problem of a plane body with `N` nodes for the displacements `u` and velocities `v` at the
beginning of a step, both stored coordinate after coordinate. -/
def contactOf (N : ℕ) (nodes : ℕ → ℕ → K) (surfaces : List (Surface K)) (dt : K) (u v : ℕ → K) :
    ContactData K where
  variableDimension := 2
  problemDimension := 2
  meshDimension := 2
  nodes := nodes
  surfaces := surfaces
  old := ⟨2 * N, v⟩
  staticDisplacement := ⟨2 * N, u⟩
  dt := dt

end Conmech.Spec
