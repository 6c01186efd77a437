import Verif.Spec.ContactSolution
import Verif.Spec.Superposition
/-
Specification for C101: contact problems of supported bodies, and the forces that act on the body there.
-/
namespace Conmech.Spec

variable {K : Type _} [Field K]

/-- Among all fields with the values `g` on the supports `D`, the functional is least at `u`. -/
def HeldMinimiser [LE K] (n : ℕ) (D : ℕ → Prop) (g : ℕ → K) (f : (ℕ → K) → K) (u : ℕ → K) : Prop :=
  (∀ r < n, D r → u r = g r) ∧ ∀ v : ℕ → K, (∀ r < n, D r → v r = g r) → f u ≤ f v

/-- The field with its values on the supports replaced by the prescribed ones. -/
def heldAt (D : ℕ → Prop) [DecidablePred D] (g x : ℕ → K) : ℕ → K := fun r => if D r then g r else x r

/-- No node of a contact surface has a prescribed value. -/
def ContactApart (N : ℕ) (D : ℕ → Prop) (d : ContactData K) : Prop :=
  ∀ s ∈ d.surfaces, ∀ node ∈ s.edge, ∀ i < d.variableDimension, ¬ D (i * N + node)

/-- What the samples of a surface are weighted with: its length over the number of samples. -/
def sampleWeight (sqrt : K → K) (d : ContactData K) (s : Surface K) : K :=
  surfaceLength sqrt d.nodes s.edge / ((s.edge.length + 1 : ℕ) : K)

/-- The normal static displacement of a surface, the second argument of the law. -/
def surfaceStatic (d : ContactData K) (s : Surface K) : K :=
  staticNormalPart d.problemDimension d.meshDimension
    (interpolateNodeBetween s.edge d.staticDisplacement d.staticDisplacement d.problemDimension) s.normal

/-- The pressure `p` of the law for the displacement `x` of a point of the surface. -/
def pressure (p : K → K → K → K) (d : ContactData K) (s : Surface K) (x : ℕ → K) : K :=
  p (normalComponent d.variableDimension x s.normal) (surfaceStatic d s) d.dt

/-- The force of the body on the obstacle at a node, coordinate `i`: the pressures at the node and half
(in general, the share of a node) of the pressure in the middle of all surfaces at the node. -/
def contactForce (sqrt : K → K) (p : K → K → K → K) (d : ContactData K) (u : ℕ → ℕ → K) (i node : ℕ) : K :=
  (d.surfaces.map fun s => (s.edge.count node : K) * (sampleWeight sqrt d s * s.normal i *
    (pressure p d s (meanOver s.edge u) / (s.edge.length : K) + pressure p d s (u node)))).sum

/-- The same forces, numbered like the unknowns. -/
def contactForces (sqrt : K → K) (p : K → K → K → K) (d : ContactData K) (N : ℕ) (x : ℕ → K) (r : ℕ) : K :=
  contactForce sqrt p d (fun node i => x (i * N + node)) (r / N) (r % N)

/-- The sum over all samples of all surfaces: a function of the surface, the place and the displacement,
times the weight. -/
def overSamples (sqrt : K → K) (d : ContactData K) (u place : ℕ → ℕ → K)
    (g : Surface K → (ℕ → K) → (ℕ → K) → K) : K :=
  (d.surfaces.map fun s => sampleWeight sqrt d s * (g s (meanOver s.edge place) (meanOver s.edge u) +
    (s.edge.map fun node => g s (place node) (u node)).sum)).sum

end Conmech.Spec
