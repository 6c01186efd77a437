import Verif.Spec.ContactSteps
import Verif.Spec.Solvable
/-
Specification for C113: equilibrium of a plane body on an obstacle.
-/
namespace Conmech.Spec

variable {K : Type _} [Field K]

/-- How far a displacement goes into the obstacle at a surface. -/
def penetration (s : Surface K) (x : ℕ → K) : K := x 0 * s.normal 0 + x 1 * s.normal 1

/-- The force with which a surface is pressed: its length times the mean of the pressures `p` in its middle
and at its nodes. -/
def surfaceForce (sqrt : K → K) (p : K → K) (nodes : ℕ → ℕ → K) (u : ℕ → ℕ → K) (s : Surface K) : K :=
  surfaceLength sqrt nodes s.edge / ((s.edge.length + 1 : ℕ) : K) *
    (p (penetration s (meanOver s.edge u)) + (s.edge.map fun node => p (penetration s (u node))).sum)

/-- The force on the obstacle at a node, coordinate `i`, if the force of each surface is shared equally by its
nodes. -/
def sharedForce (sqrt : K → K) (p : K → K) (nodes : ℕ → ℕ → K) (surfaces : List (Surface K)) (u : ℕ → ℕ → K)
    (i node : ℕ) : K :=
  (surfaces.map fun s => (s.edge.count node : K) *
    (surfaceForce sqrt p nodes u s / (s.edge.length : K) * s.normal i)).sum

/-- The same forces, numbered like the unknowns. -/
def sharedForces (sqrt : K → K) (p : K → K) (nodes : ℕ → ℕ → K) (surfaces : List (Surface K)) (N : ℕ)
    (x : ℕ → K) (r : ℕ) : K :=
  sharedForce sqrt p nodes surfaces (fun node i => x (i * N + node)) (r / N) (r % N)

/-- The contract of a solver of linear systems. -/
def LinearContract (linalg : ℕ → (ℕ → ℕ → K) → (ℕ → K) → Option (ℕ → K)) : Prop :=
  ∀ n A b, UniquelySolvable n ⟨A, b⟩ → ∃ x, linalg n A b = some x ∧ Solves n ⟨A, b⟩ x

/-- The contract of a root finder: a root is found whenever there is one. -/
def RootContract (fsolve : ℕ → ((ℕ → K) → ℕ → K) → (ℕ → K) → ℕ → K) : Prop :=
  ∀ n (f : (ℕ → K) → ℕ → K) guess, (∃ x, ∀ r < n, f x r = 0) → ∀ r < n, f (fsolve n f guess) r = 0

/-- All surfaces are segments between nodes of the mesh. -/
def Segments (N : ℕ) (surfaces : List (Surface K)) : Prop :=
  ∀ s ∈ surfaces, ∃ a b, s.edge = [a, b] ∧ a < N ∧ b < N

/-- No node of a surface of a plane body is held. -/
def FreeSurfaces (N : ℕ) (D : ℕ → Prop) (surfaces : List (Surface K)) : Prop :=
  ∀ s ∈ surfaces, ∀ node ∈ s.edge, ∀ i < 2, ¬ D (i * N + node)

end Conmech.Spec
