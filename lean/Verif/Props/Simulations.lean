import Mathlib.Tactic.Ring
import Mathlib.Tactic.NormNum
import Verif.Spec.Simulations
import Verif.Props.Registry
/-!
C78: simulations solve the equations of their problem with the coefficients of the problem.
-/
namespace Conmech
open Spec

variable {K : Type} [Field K]

theorem suits_declares {s : SimulationClass} {c : ProblemClass} (h : Suits s c) :
    s.reads.all c.declares = true := by
  cases s <;> simp only [Suits] at h <;>
    first
    | (subst h; decide +kernel)
    | (rcases h with h | h <;> subst h <;> decide +kernel)
    | (rcases h with h | h | h <;> subst h <;> decide +kernel)

/-- The equations of the problem classes that simulations are made for. -/
theorem equations_of_suited {s : SimulationClass} {c : ProblemClass} {kind : StatementKind}
    (h : Suits s c) (hk : EquationOf c kind) :
    (s = .poisson ∧ kind = .staticPoisson) ∨
    ((s = .static ∨ s = .nonHomogenous) ∧ kind = .staticDisplacement) ∨
    (s = .relaxation ∧ kind = .quasistaticRelaxation) ∨
    (s = .timeDependent ∧ (kind = .quasistaticVelocity ∨ kind = .dynamicVelocity)) ∨
    (s = .temperature ∧ (kind = .dynamicVelocityWithTemperature ∨ kind = .temperature)) ∨
    (s = .piezoelectric ∧ (kind = .quasistaticVelocityWithPiezoelectric ∨ kind = .dynamicVelocity ∨
      kind = .piezoelectric)) ∨
    (s = .wave ∧ kind = .wave) := by
  cases s <;> simp only [Suits] at h <;>
    first
    | (subst h; revert hk; unfold EquationOf; cases kind <;> decide +kernel)
    | (rcases h with h | h <;> subst h <;> revert hk <;> unfold EquationOf <;> cases kind <;>
        decide +kernel)
    | (rcases h with h | h | h <;> subst h <;> revert hk <;> unfold EquationOf <;> cases kind <;>
        decide +kernel)

/-- C78: the system of a statement depends on no other operators than those it is said to read. -/
theorem C78_reads (kind : StatementKind) (a b : Operators K) (bs : List (CondBoundary K))
    (var : Variables K) (hl : SameLoads a b) (h : ∀ o ∈ kind.reads, SameOperator a b o) :
    kind.update a bs var = kind.update b bs var := by
  obtain ⟨hN, hd, hf, ht⟩ := hl
  cases kind <;>
    simp only [StatementKind.reads, List.mem_cons, List.not_mem_nil, or_false, forall_eq_or_imp,
      forall_eq, SameOperator] at h <;>
    simp only [StatementKind.update, updateLhs, updateRhs, quasistaticLhs, quasistaticRhs, dynamicLhs,
      dynamicRhs, hN, hd, hf, ht, h]

theorem system_eq (s : SimulationClass) (c : ProblemClass) (kind : StatementKind) (dim N : ℕ)
    (m : BasicMatrices K) (d : ProblemData K) (force bodyTemperature : K → ℕ → K)
    (bs : List (CondBoundary K)) (var : Variables K) (dyn : DynamicsMatrices K) (ops : Operators K)
    (hm : s.matrices c dim N m d = .ok dyn)
    (hr : kind.reads.all (dyn.has dim (s.bodyProperties d).cls) = true)
    (hl : SameLoads (dyn.operators dim N m.W (s.bodyProperties d) force bodyTemperature) ops)
    (ho : ∀ o ∈ kind.reads,
      SameOperator (dyn.operators dim N m.W (s.bodyProperties d) force bodyTemperature) ops o) :
    s.system c kind dim N m d force bodyTemperature bs var = lift (kind.update ops bs var) := by
  unfold SimulationClass.system
  rw [hm]
  simp only [hr, if_true]
  rw [C78_reads kind _ ops bs var hl ho]
  cases kind.update ops bs var <;> rfl

/-- C78: on plane meshes every simulation assembles the equations of the problems it is made for from
the coefficients of the problem; all operators exist. The mass density is one except for piezoelectric
problems. -/
theorem C78_system_partial (s : SimulationClass) (c : ProblemClass) (kind : StatementKind)
    (h : Suits s c) (hk : EquationOf c kind) (N : ℕ) (m : BasicMatrices K) (d : ProblemData K)
    (force bodyTemperature : K → ℕ → K) (bs : List (CondBoundary K)) (var : Variables K) :
    s.system c kind 2 N m d force bodyTemperature bs var =
      lift (kind.update (planeOperators N m d (if s = .piezoelectric then 1 / 10 else 1)
        (waveSpeed d c) force bodyTemperature) bs var) := by
  have hc := suits_declares h
  have he := equations_of_suited h hk
  have hp : s = .poisson → c = .PoissonProblem := by rintro rfl; exact h
  have hw : s = .wave → c ≠ .PoissonProblem := by
    rintro rfl rfl; rcases h with h | h | h <;> cases h
  have hm : s.matrices c 2 N m d = .ok (getDynamics2 N m (s.bodyProperties d)) := if_pos hc
  refine system_eq _ _ _ _ _ _ _ _ _ _ _ _ _ hm ?_ ?_ ?_
  · rcases he with ⟨rfl, rfl⟩ | ⟨rfl | rfl, rfl⟩ | ⟨rfl, rfl⟩ | ⟨rfl, rfl | rfl⟩ | ⟨rfl, rfl | rfl⟩ |
      ⟨rfl, rfl | rfl | rfl⟩ | ⟨rfl, rfl⟩ <;> rfl
  · exact ⟨rfl, rfl, rfl, rfl⟩
  · rcases he with ⟨rfl, rfl⟩ | ⟨rfl | rfl, rfl⟩ | ⟨rfl, rfl⟩ | ⟨rfl, rfl | rfl⟩ | ⟨rfl, rfl | rfl⟩ |
      ⟨rfl, rfl | rfl | rfl⟩ | ⟨rfl, rfl⟩ <;>
      simp only [StatementKind.reads, List.mem_cons, List.not_mem_nil, or_false, forall_eq_or_imp,
        forall_eq]
    · obtain rfl := hp rfl; rfl
    · rfl
    · rfl
    · exact ⟨rfl, rfl⟩
    · exact ⟨rfl, rfl⟩
    · exact ⟨rfl, rfl, rfl⟩
    · exact ⟨rfl, rfl, rfl, rfl⟩
    · exact ⟨rfl, rfl, rfl⟩
    · exact ⟨rfl, rfl, rfl⟩
    · exact ⟨rfl, rfl, rfl⟩
    · exact ⟨rfl, rfl⟩
    · rw [show waveSpeed d c = d.propagation from if_neg (hw rfl)]
      exact ⟨rfl, rfl⟩

/-- C78 in space: the same, except for relaxation and piezoelectric problems. -/
theorem C78_space_partial (s : SimulationClass) (c : ProblemClass) (kind : StatementKind)
    (h : Suits s c) (hk : EquationOf c kind) (hs : s ≠ .relaxation ∧ s ≠ .piezoelectric) (N : ℕ)
    (m : BasicMatrices K) (d : ProblemData K)
    (relaxation : Option K → Except StatementError (ℕ → ℕ → K))
    (force bodyTemperature : K → ℕ → K) (bs : List (CondBoundary K)) (var : Variables K) :
    s.system c kind 3 N m d force bodyTemperature bs var =
      lift (kind.update (spaceOperators N m d (waveSpeed d c) relaxation force bodyTemperature)
        bs var) := by
  have hc := suits_declares h
  have he := equations_of_suited h hk
  have hp : s = .poisson → c = .PoissonProblem := by rintro rfl; exact h
  have hw : s = .wave → c ≠ .PoissonProblem := by
    rintro rfl rfl; rcases h with h | h | h <;> cases h
  obtain ⟨hs1, hs2⟩ := hs
  have hm : s.matrices c 3 N m d = getDynamics3 N m (s.bodyProperties d) := if_pos hc
  rcases he with ⟨rfl, rfl⟩ | ⟨rfl | rfl, rfl⟩ | ⟨rfl, rfl⟩ | ⟨rfl, rfl | rfl⟩ | ⟨rfl, rfl | rfl⟩ |
    ⟨rfl, rfl | rfl | rfl⟩ | ⟨rfl, rfl⟩ <;>
    first
    | exact absurd rfl hs1
    | exact absurd rfl hs2
    | (refine system_eq _ _ _ _ _ _ _ _ _ _ _ _ _ (hm.trans rfl) (by rfl) ⟨rfl, rfl, rfl, rfl⟩ ?_
       simp only [StatementKind.reads, List.mem_cons, List.not_mem_nil, or_false, forall_eq_or_imp,
         forall_eq]
       first
       | rfl
       | exact ⟨rfl, rfl⟩
       | exact ⟨rfl, rfl, rfl⟩
       | exact ⟨rfl, rfl, rfl, rfl⟩
       | (obtain rfl := hp rfl; rfl)
       | (rw [show waveSpeed d c = d.propagation from if_neg (hw rfl)]; exact ⟨rfl, rfl⟩))

/-- C78: the mass matrix of every body, whether the equation of the problem reads it or not, is that of the
density one, for piezoelectric bodies of a tenth. -/
theorem C78_mass (s : SimulationClass) (c : ProblemClass) (N : ℕ) (m : BasicMatrices K) (d : ProblemData K) :
    (∀ dyn, s.matrices c 2 N m d = .ok dyn →
      dyn.acceleration = Plane.acceleration N m.U (if s = .piezoelectric then 1 / 10 else 1)) ∧
    ∀ dyn, s.matrices c 3 N m d = .ok dyn → dyn.acceleration = Space.acceleration N m.U 1 := by
  unfold SimulationClass.matrices
  by_cases hc : s.reads.all c.declares = true
  · simp only [hc, if_true]
    constructor <;> intro dyn h
    · obtain rfl : getDynamics2 N m (s.bodyProperties d) = dyn := Except.ok.inj h
      cases s <;> rfl
    · cases s <;> first
        | (obtain rfl := Except.ok.inj h; rfl)
        | cases h
  · simp only [hc, if_false]
    constructor <;> intro dyn h <;> cases h

/-- C78 is wrong in space: relaxation and piezoelectric problems cannot be simulated. -/
theorem C78_space_wrong (c : ProblemClass) (kind : StatementKind) (hk : EquationOf c kind) (N : ℕ)
    (m : BasicMatrices K) (d : ProblemData K) (force bodyTemperature : K → ℕ → K)
    (bs : List (CondBoundary K)) (var : Variables K) :
    (Suits .relaxation c → SimulationClass.relaxation.system c kind 3 N m d force bodyTemperature bs
      var = .error .missingOperator) ∧
    (Suits .piezoelectric c → SimulationClass.piezoelectric.system c kind 3 N m d force
      bodyTemperature bs var = .error .notImplemented) := by
  constructor
  · intro h
    have hc := suits_declares h
    have hm : SimulationClass.relaxation.matrices c 3 N m d =
      getDynamics3 N m (SimulationClass.relaxation.bodyProperties d) := if_pos hc
    have he := equations_of_suited h hk
    simp only [reduceCtorEq, false_and, false_or, or_false, true_and] at he
    obtain rfl := he
    unfold SimulationClass.system
    rw [hm]
    rfl
  · intro h
    have hc := suits_declares h
    have hm : SimulationClass.piezoelectric.matrices c 3 N m d =
      getDynamics3 N m (SimulationClass.piezoelectric.bodyProperties d) := if_pos hc
    unfold SimulationClass.system
    rw [hm]
    rfl

theorem lhs_of_update {ops : Operators K} {var : Variables K} {dt : K} (hdt : var.timeStep = some dt)
    {S : System K} (h : lift (StatementKind.dynamicVelocity.update ops [] var) = .ok S) :
    S.lhs = fun r s => ops.viscosity r s + 1 / dt * ops.acceleration r s + ops.elasticity r s * dt := by
  simp only [StatementKind.update, updateLhs, dynamicLhs, hdt, required, bind, Except.bind, pure,
    Except.pure] at h
  cases hR : updateRhs ops var .dynamicVelocity with
  | error e => rw [hR] at h; cases h
  | ok R => rw [hR] at h; cases h; rfl

/-- C78 is wrong for piezoelectric bodies: their density is a tenth of that of the same body without
coupling, so that the equation of motion of a dynamic problem is another one even where the
electric potential does not act on the body. -/
theorem C78_density_wrong [CharZero K] (N : ℕ) (m : BasicMatrices K) (d : ProblemData K)
    (force bodyTemperature : K → ℕ → K) (var : Variables K) (dt : K) (hdt : var.timeStep = some dt)
    (S T : System K)
    (hS : SimulationClass.timeDependent.system .DynamicDisplacementProblem .dynamicVelocity 2 N m d
      force bodyTemperature [] var = .ok S)
    (hT : SimulationClass.piezoelectric.system .PiezoelectricDynamicProblem .dynamicVelocity 2 N m d
      force bodyTemperature [] var = .ok T) (r s : ℕ) :
    S.lhs r s - T.lhs r s = 9 / 10 * (1 / dt * Plane.acceleration N m.U 1 r s) := by
  rw [C78_system_partial _ _ _ (by right; rfl) (by left; decide +kernel)] at hS hT
  have hS' := lhs_of_update hdt hS
  have hT' := lhs_of_update hdt hT
  have e : Plane.acceleration N m.U (1 / 10 : K) r s = 1 / 10 * Plane.acceleration N m.U 1 r s := by
    simp only [Plane.acceleration, one_mul]
  rw [hS', hT']
  simp only [planeOperators, reduceCtorEq, if_true, if_false, e]
  ring

/-- C78 is wrong for the classes in the signatures: `TimeDependentSolver` says that it takes every
`TimeDependentDisplacementProblem`, but fails for those with relaxation, temperature or electric
potential. -/
theorem C78_annotation_wrong (N : ℕ) (m : BasicMatrices K) (d : ProblemData K)
    (force bodyTemperature : K → ℕ → K) (bs : List (CondBoundary K)) (var : Variables K) :
    ∀ c ∈ [ProblemClass.RelaxationQuasistaticProblem, .TemperatureDynamicProblem,
      .PiezoelectricQuasistaticProblem, .PiezoelectricDynamicProblem],
    Inherits c (annotated .timeDependent) ∧
    ∃ kind, EquationOf c kind ∧
      SimulationClass.timeDependent.system c kind 2 N m d force bodyTemperature bs var =
        .error .missingOperator := by
  intro c hc
  rw [← C45_isinstance]
  simp only [List.mem_cons, List.not_mem_nil, or_false] at hc
  rcases hc with rfl | rfl | rfl | rfl
  · exact ⟨by decide +kernel, .quasistaticRelaxation, .inl (by decide +kernel), rfl⟩
  · exact ⟨by decide +kernel, .dynamicVelocityWithTemperature, .inl (by decide +kernel), rfl⟩
  · exact ⟨by decide +kernel, .quasistaticVelocityWithPiezoelectric, .inl (by decide +kernel), rfl⟩
  · exact ⟨by decide +kernel, .piezoelectric, .inr (by decide +kernel), rfl⟩

/-- The hypotheses of C78 are met by the dynamic contact problem in its own simulation, and the two
systems of `C78_density_wrong` exist for every body without loads. -/
example : Suits .timeDependent .DynamicDisplacementProblem ∧
    EquationOf .DynamicDisplacementProblem .dynamicVelocity :=
  ⟨.inr rfl, .inl (by decide +kernel)⟩
example : Suits .temperature .TemperatureDynamicProblem ∧
    EquationOf .TemperatureDynamicProblem .temperature :=
  ⟨rfl, .inr (by decide +kernel)⟩
example : EquationOf .RelaxationQuasistaticProblem .quasistaticRelaxation := .inl (by decide +kernel)

/-- Data with every coefficient one. -/
def unitData : ProblemData ℚ :=
  { muCoef := 1, laCoef := 1, thCoef := 1, zeCoef := 1, propagation := 1
    thermalExpansion := fun _ _ => 1, thermalConductivity := fun _ _ => 1
    piezoelectricity := fun _ _ _ => 1, permittivity := fun _ _ => 1, relaxation := fun _ _ _ _ => 1 }

/-- A moving body with time step one. -/
def unitVariables : Variables ℚ :=
  { displacement := some fun _ => 0, velocity := some fun _ => 1, temperature := none
    absement := none, electricPotential := none, timeStep := some 1, time := some 1 }

example (m : BasicMatrices ℚ) : (∃ S, SimulationClass.timeDependent.system .DynamicDisplacementProblem
      .dynamicVelocity 2 1 m unitData (fun _ _ => 0) (fun _ _ => 0) [] unitVariables = .ok S) ∧
    (∃ T, SimulationClass.piezoelectric.system .PiezoelectricDynamicProblem .dynamicVelocity 2 1 m
      unitData (fun _ _ => 0) (fun _ _ => 0) [] unitVariables = .ok T) := ⟨⟨_, rfl⟩, ⟨_, rfl⟩⟩

end Conmech
