import Verif.Spec.ContactSteps
import Verif.Model.Running
import Mathlib.Analysis.Real.Sqrt
/-
Specification for C112: the results of a contact simulation do not depend on the solving method.
-/
namespace Conmech.Spec

/-- The two states show the same body: same time, same displacements, velocities and positions of all nodes. -/
def SameMotion {K : Type} (N : ℕ) (a b : Snapshot K) : Prop :=
  a.time = b.time ∧ ∀ i < N, ∀ j < 2, a.displacement i j = b.displacement i j ∧
    a.velocity i j = b.velocity i j ∧ a.displacedNodes i j = b.displacedNodes i j

/-- The velocities `w` have the least energy among all fields with the prescribed values, for the system and
the contact problem that belong to the displacements `u` and velocities `v` at this time. -/
def LeastEnergyStep (ops : Operators ℝ) (kind : StatementKind) (D : ℕ → Prop) (g : ℕ → ℝ)
    (conditions : Conditions ℝ) (nodes : ℕ → ℕ → ℝ) (surfaces : List (Surface ℝ)) (dt time : ℝ)
    (u v w : ℕ → ℝ) : Prop :=
  let var : Variables ℝ :=
    { displacement := some u, velocity := some v, timeStep := some dt, time := some time }
  ∃ lhs rhs, updateLhs ops var kind = .ok lhs ∧ updateRhs ops var kind = .ok rhs ∧
    HeldMinimiser (2 * ops.nodesCount) D g
      (fun y => costFunctional Real.sqrt conditions (contactOf ops.nodesCount nodes surfaces dt u v)
        (2 * ops.nodesCount) lhs rhs ⟨2 * ops.nodesCount, y⟩) w

end Conmech.Spec
