import Verif.Props.Statement
import Verif.Lemmas.Problems
/-!
C35: the piezoelectric coupling.
-/
namespace Conmech
open Spec

variable {K : Type} [Field K] (ops : Operators K) (bs : List (CondBoundary K))
  (D : ℕ → Prop) [DecidablePred D] (g : ℕ → K)

/-- The force exerted by the potential, `Pᵀ φ`. -/
def Spec.piezoForce (ops : Operators K) (φ : ℕ → K) (r : ℕ) : K :=
  act ops.nodesCount (fun r s => ops.piezoelectricity s r) φ r

/-- The potential: `β φ = P u`. -/
theorem C35_potential (hdim : ops.dimension = 2) (hv : ValidBoundaries ops.nodesCount bs)
    (hd : DirichletData ops.nodesCount 1 bs D g) (u : ℕ → K) (var : Variables K)
    (hu : var.displacement = some u) :
    ∃ S, StatementKind.piezoelectric.update ops bs var = .ok S ∧
      ∀ φ, Solves ops.nodesCount S φ ↔
        (∀ r < ops.nodesCount, D r → φ r = g r) ∧
        ∀ r < ops.nodesCount, ¬ D r →
          act ops.nodesCount ops.permittivity φ r =
            act (2 * ops.nodesCount) ops.piezoelectricity u r := by
  cases var
  simp only at hu
  subst hu
  refine ⟨_, rfl, fun φ => ?_⟩
  change Solves _ (applyDirichlet ops.nodesCount 1 bs _) φ ↔ _
  have := C12_elimination_equivalent ops.nodesCount 1 bs ⟨ops.permittivity,
    matVec (ops.dimension * ops.nodesCount) ops.piezoelectricity u⟩ D g hv hd φ
  rw [Nat.one_mul] at this
  rw [this]
  simp only [hdim, Row, act, matVec]

/-- Quasistatic step: `A v + B (u + dt v) = f(t) - Pᵀ φ`. -/
theorem C35_quasistatic (hdim : ops.dimension = 2) (hv : ValidBoundaries ops.nodesCount bs)
    (hd : DirichletData ops.nodesCount 2 bs D g) (u φ : ℕ → K) (dt t : K) (var : Variables K)
    (hu : var.displacement = some u) (hφ : var.electricPotential = some φ)
    (hdt : var.timeStep = some dt) (ht : var.time = some t) :
    ∃ S, StatementKind.quasistaticVelocityWithPiezoelectric.update ops bs var = .ok S ∧
      ∀ v, Solves (2 * ops.nodesCount) S v ↔
        (∀ r < 2 * ops.nodesCount, D r → v r = g r) ∧
        ∀ r < 2 * ops.nodesCount, ¬ D r →
          act (2 * ops.nodesCount) ops.viscosity v r +
          act (2 * ops.nodesCount) ops.elasticity (fun i => u i + dt * v i) r =
            ops.force t r - piezoForce ops φ r := by
  cases var
  simp only at hu hdt ht hφ
  subst hu hdt ht hφ
  refine ⟨_, rfl, fun v => ?_⟩
  change Solves _ (applyDirichlet ops.nodesCount 2 bs _) v ↔ _
  rw [C12_elimination_equivalent ops.nodesCount 2 bs _ D g hv hd v]
  refine and_congr_right fun _ => forall_congr' fun r => forall_congr' fun _ =>
    forall_congr' fun _ => ?_
  simp only [Row, act, matVec, hdim, transposed, piezoForce]
  have key : ∑ s ∈ Finset.range (2 * ops.nodesCount),
        (ops.viscosity r s + ops.elasticity r s * dt) * v s +
      ∑ s ∈ Finset.range (2 * ops.nodesCount), ops.elasticity r s * u s =
      ∑ s ∈ Finset.range (2 * ops.nodesCount), ops.viscosity r s * v s +
      ∑ s ∈ Finset.range (2 * ops.nodesCount), ops.elasticity r s * (u s + dt * v s) := by
    rw [← Finset.sum_add_distrib, ← Finset.sum_add_distrib]
    exact Finset.sum_congr rfl fun s _ => by ring
  have k2 : ∑ s ∈ Finset.range ops.nodesCount, -1 * ops.piezoelectricity s r * φ s =
      - ∑ s ∈ Finset.range ops.nodesCount, ops.piezoelectricity s r * φ s := by
    rw [← Finset.sum_neg_distrib]
    exact Finset.sum_congr rfl fun s _ => by ring
  constructor <;> intro h
  · linear_combination h - key + k2
  · linear_combination h + key - k2

/-- Dynamic step: `M (v - v_old) / dt + A v + B (u + dt v) = f(t) + Pᵀ φ`. -/
theorem C35_dynamic (hdim : ops.dimension = 2) (hv : ValidBoundaries ops.nodesCount bs)
    (hd : DirichletData ops.nodesCount 2 bs D g) (u vOld φ : ℕ → K) (dt t : K) (_hne : dt ≠ 0)
    (var : Variables K) (hu : var.displacement = some u) (hvel : var.velocity = some vOld)
    (hφ : var.electricPotential = some φ) (hdt : var.timeStep = some dt) (ht : var.time = some t) :
    ∃ S, StatementKind.dynamicVelocityWithPiezoelectric.update ops bs var = .ok S ∧
      ∀ v, Solves (2 * ops.nodesCount) S v ↔
        (∀ r < 2 * ops.nodesCount, D r → v r = g r) ∧
        ∀ r < 2 * ops.nodesCount, ¬ D r →
          act (2 * ops.nodesCount) ops.acceleration (fun i => (v i - vOld i) / dt) r +
          act (2 * ops.nodesCount) ops.viscosity v r +
          act (2 * ops.nodesCount) ops.elasticity (fun i => u i + dt * v i) r =
            ops.force t r + piezoForce ops φ r := by
  cases var
  simp only at hu hvel hdt ht hφ
  subst hu hvel hdt ht hφ
  refine ⟨_, rfl, fun v => ?_⟩
  change Solves _ (applyDirichlet ops.nodesCount 2 bs _) v ↔ _
  rw [C12_elimination_equivalent ops.nodesCount 2 bs _ D g hv hd v]
  refine and_congr_right fun _ => forall_congr' fun r => forall_congr' fun _ =>
    forall_congr' fun _ => ?_
  simp only [hdim]
  rw [← dynamic_row _ r u vOld v (fun r => ops.force t r + piezoForce ops φ r) dt]
  simp only [Row, act, matVec, transposed, piezoForce]
  constructor <;> intro h <;> linear_combination h

/-- The work of the electric force on a displacement is the work of the potential on the charge
created by the displacement: the two couplings are adjoint. -/
theorem C35_adjoint (φ u : ℕ → K) :
    ∑ r ∈ Finset.range (2 * ops.nodesCount), piezoForce ops φ r * u r =
      ∑ s ∈ Finset.range ops.nodesCount,
        φ s * act (2 * ops.nodesCount) ops.piezoelectricity u s := by
  simp only [piezoForce, act, Finset.sum_mul, Finset.mul_sum]
  rw [Finset.sum_comm]
  exact Finset.sum_congr rfl fun s _ => Finset.sum_congr rfl fun r _ => by ring

/-- The potential enters the two statements with opposite signs, for every body and state. -/
theorem C35_opposite_signs_wrong (var : Variables K) (φ : ℕ → K)
    (hφ : var.electricPotential = some φ) (q0 q1 d0 d1 : ℕ → K)
    (hq0 : updateRhs ops var .quasistaticVelocity = .ok q0)
    (hq1 : updateRhs ops var .quasistaticVelocityWithPiezoelectric = .ok q1)
    (hd0 : updateRhs ops var .dynamicVelocity = .ok d0)
    (hd1 : updateRhs ops var .dynamicVelocityWithPiezoelectric = .ok d1) (r : ℕ) :
    q1 r - q0 r = - piezoForce ops φ r ∧ d1 r - d0 r = piezoForce ops φ r := by
  simp only [updateRhs] at hq0 hd0 hq1 hd1
  simp only [hq0, hφ, required, bind, Except.bind, pure, Except.pure, Except.ok.injEq] at hq1
  simp only [hd0, hφ, required, bind, Except.bind, pure, Except.pure, Except.ok.injEq] at hd1
  subst hq1 hd1
  constructor
  · have : ∀ s, -1 * ops.piezoelectricity s r * φ s = - (ops.piezoelectricity s r * φ s) := by
      intro s; ring
    simp only [piezoForce, act, matVec, transposed, this, Finset.sum_neg_distrib]
    ring
  · simp only [piezoForce, act, matVec, transposed]
    ring

/-- The quasistatic problem is solved with the coupled statement, the dynamic piezoelectric problem
with the plain dynamic one, in which the potential does not occur. -/
theorem C35_dynamic_uncoupled_wrong :
    ProblemClass.PiezoelectricQuasistaticProblem.statement =
      some (some .quasistaticVelocityWithPiezoelectric) ∧
    ProblemClass.PiezoelectricQuasistaticProblem.secondStatement = some (some .piezoelectric) ∧
    ProblemClass.PiezoelectricDynamicProblem.secondStatement = some (some .piezoelectric) ∧
    ∃ kind, ProblemClass.PiezoelectricDynamicProblem.statement = some (some kind) ∧
      ∀ (var : Variables K) (φ : Option (ℕ → K)),
        kind.update ops bs { var with electricPotential := φ } = kind.update ops bs var := by
  simp only [ProblemClass.statement, ProblemClass.secondStatement, mro_eq]
  exact ⟨by decide +kernel, by decide +kernel, by decide +kernel, .dynamicVelocity,
    by decide +kernel, fun _ _ => rfl⟩

/-- Non-trivial instance: the coupling force does not vanish. -/
example : ∃ φ r, r < 2 * exampleOps.nodesCount ∧ piezoForce exampleOps φ r ≠ 0 :=
  ⟨fun _ => 1, 0, by decide, by unfold piezoForce act; decide +kernel⟩

end Conmech
