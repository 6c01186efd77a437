import Verif.Lemmas.Solvers
import Verif.Spec.Solvers
import Verif.Props.Statement
import Verif.Props.Schur
/-!
C20, C46, C59, C61: what a solver does in a time step.
-/
namespace Conmech
open Spec

section
variable {K : Type _} [Field K]

/-- The pairs of solver and statement that occur, as a table. -/
theorem registered_cases {c : ProblemClass} {cls : SolverClass} {kind : StatementKind}
    (h : Registered c cls kind) :
    (kind = .staticDisplacement ∨ kind = .staticPoisson) ∧
      (cls = .direct ∨ cls = .staticGlobal ∨ cls = .staticSchur) ∨
    (kind = .quasistaticVelocity ∨ kind = .quasistaticVelocityWithPiezoelectric ∨
      kind = .piezoelectric) ∧ (cls = .quasistaticGlobal ∨ cls = .quasistaticSchur) ∨
    kind = .quasistaticRelaxation ∧
      (cls = .quasistaticRelaxedGlobal ∨ cls = .quasistaticRelaxedSchur) ∨
    (kind = .wave ∨ kind = .dynamicVelocity ∨ kind = .dynamicVelocityWithTemperature ∨
      kind = .temperature ∨ kind = .piezoelectric) ∧
      (cls = .direct ∨ cls = .dynamicGlobal ∨ cls = .dynamicSchur) := by
  obtain ⟨⟨d, hd, hreg⟩, hk⟩ := h
  have hcls : (d = .static ∧ (cls = .direct ∨ cls = .staticGlobal ∨ cls = .staticSchur)) ∨
      (d = .quasistatic ∧ (cls = .quasistaticGlobal ∨ cls = .quasistaticSchur)) ∨
      (d = .quasistaticRelaxation ∧
        (cls = .quasistaticRelaxedGlobal ∨ cls = .quasistaticRelaxedSchur)) ∨
      (d = .dynamic ∧ (cls = .direct ∨ cls = .dynamicGlobal ∨ cls = .dynamicSchur)) := by
    revert hreg; clear hd hk
    cases d <;> cases cls <;> decide +kernel
  have hkind : (d = .static ∧ (kind = .staticDisplacement ∨ kind = .staticPoisson)) ∨
      (d = .quasistatic ∧ (kind = .quasistaticVelocity ∨
        kind = .quasistaticVelocityWithPiezoelectric ∨ kind = .piezoelectric)) ∨
      (d = .quasistaticRelaxation ∧ kind = .quasistaticRelaxation) ∨
      (d = .dynamic ∧ (kind = .wave ∨ kind = .dynamicVelocity ∨
        kind = .dynamicVelocityWithTemperature ∨ kind = .temperature ∨ kind = .piezoelectric)) := by
    revert hd hk; clear hreg hcls
    simp only [dynamismOf, isInstance_eq, ProblemClass.statement, ProblemClass.secondStatement, mro_eq]
    cases d <;> cases c <;> cases kind <;> decide +kernel
  rcases hcls with ⟨rfl, h1⟩ | ⟨rfl, h1⟩ | ⟨rfl, h1⟩ | ⟨rfl, h1⟩ <;>
    simp only [reduceCtorEq, false_and, or_false, false_or, true_and] at hkind
  · exact .inl ⟨hkind, h1⟩
  · exact .inr (.inl ⟨hkind, h1⟩)
  · exact .inr (.inr (.inl ⟨hkind, h1⟩))
  · exact .inr (.inr (.inr ⟨hkind, h1⟩))

variable (ops : Operators K) (bs : List (CondBoundary K))

/-- Every registered solver except the global optimisation for relaxation can take a step of every
statement it is used for, in every state. -/
theorem C46_step_succeeds_partial (c : ProblemClass) (cls : SolverClass) (kind : StatementKind)
    (h : Registered c cls kind) (hne : cls ≠ .quasistaticRelaxedGlobal)
    (hR : ∀ t, ∃ R, ops.relaxation (some t) = .ok R) (s : SolverState K) :
    ∃ s', s.iterate cls kind ops bs = .ok s' := by
  rcases registered_cases h with ⟨hk, hc⟩ | ⟨hk, hc⟩ | ⟨hk, hc⟩ | ⟨hk, hc⟩
  · rcases hc with rfl | rfl | rfl <;> exact ⟨_, rfl⟩
  · rcases hc with rfl | rfl <;> rcases hk with rfl | rfl | rfl <;> exact ⟨_, rfl⟩
  · rcases hc with rfl | rfl
    · exact absurd rfl hne
    · subst hk
      obtain ⟨R, hR⟩ := hR s.currentTime
      simp [SolverState.iterate, SolverClass.iterateVariables, SolverState.updateSystem,
        StatementKind.update, updateLhs, updateRhs, required, bind, Except.bind, hR, pure, Except.pure]
  · rcases hc with rfl | rfl | rfl <;> rcases hk with rfl | rfl | rfl | rfl | rfl <;> exact ⟨_, rfl⟩

/-- The global optimisation solver for relaxation problems is registered and cannot take any step. -/
theorem C46_relaxed_global_wrong :
    Registered .RelaxationQuasistaticProblem .quasistaticRelaxedGlobal .quasistaticRelaxation ∧
    ∀ s : SolverState K, ∃ e,
      s.iterate .quasistaticRelaxedGlobal .quasistaticRelaxation ops bs = .error e := by
  constructor
  · refine ⟨⟨.quasistaticRelaxation, ?_, ?_⟩, .inl ?_⟩
    · simp only [dynamismOf, isInstance_eq]; decide +kernel
    · decide +kernel
    · simp only [ProblemClass.statement, mro_eq]; decide +kernel
  · intro s
    cases hR : ops.relaxation none with
    | error e =>
      exact ⟨e, by simp [SolverState.iterate, SolverClass.iterateVariables, SolverState.updateSystem,
        StatementKind.update, updateLhs, required, bind, Except.bind, hR]⟩
    | ok R =>
      exact ⟨.assertion, by simp [SolverState.iterate, SolverClass.iterateVariables,
        SolverState.updateSystem, StatementKind.update, updateLhs, updateRhs, required, bind,
        Except.bind, hR, pure, Except.pure]⟩

/-- After a step the statement holds the system of the current state. For time-dependent problems
this excludes the direct solver; in static problems nothing depends on the state. -/
theorem C61_current_system_partial (c : ProblemClass) (cls : SolverClass) (kind : StatementKind)
    (h : Registered c cls kind) (hne : cls ≠ .direct)
    (hstatic : kind ≠ .staticDisplacement ∧ kind ≠ .staticPoisson) (s s' : SolverState K)
    (hs : s.iterate cls kind ops bs = .ok s') :
    kind.update ops bs (currentVariables s) = .ok s'.system ∧
      currentVariables s' = currentVariables s := by
  have key : ∀ var, s.updateSystem kind ops bs var = .ok s' →
      updateLhs ops var kind = updateLhs ops (currentVariables s) kind →
      updateRhs ops var kind = updateRhs ops (currentVariables s) kind →
      kind.update ops bs (currentVariables s) = .ok s'.system ∧
      currentVariables s' = currentVariables s := by
    intro var hv h1 h2
    obtain ⟨S, hS, rfl⟩ := updateSystem_ok _ _ _ _ _ _ hv
    refine ⟨?_, rfl⟩
    unfold StatementKind.update at hS ⊢
    rw [← h1, ← h2]
    exact hS
  rcases registered_cases h with ⟨hk, hc⟩ | ⟨hk, hc⟩ | ⟨hk, hc⟩ | ⟨hk, hc⟩
  · rcases hk with rfl | rfl
    · exact absurd rfl hstatic.1
    · exact absurd rfl hstatic.2
  · rcases hc with rfl | rfl <;> rcases hk with rfl | rfl | rfl <;> exact key _ hs rfl rfl
  · subst hk
    rcases hc with rfl | rfl
    · obtain ⟨e, he⟩ := (C46_relaxed_global_wrong ops bs).2 s
      rw [he] at hs; cases hs
    · exact key _ hs rfl rfl
  · rcases hc with rfl | rfl | rfl
    · exact absurd rfl hne
    · rcases hk with rfl | rfl | rfl | rfl | rfl <;> exact key _ hs rfl rfl
    · rcases hk with rfl | rfl | rfl | rfl | rfl <;> exact key _ hs rfl rfl

/-- In static problems the system never changes and is the one of every state. -/
theorem C61_static (cls : SolverClass) (kind : StatementKind)
    (hk : kind = .staticDisplacement ∨ kind = .staticPoisson) (inv) (contactCount : ℕ) (dv : Bool)
    (dt : K) (s : SolverState K) (hs : solverInit inv cls kind ops bs contactCount dv dt = .ok s)
    (var : Variables K) : kind.update ops bs var = .ok s.system := by
  rcases hk with rfl | rfl
  · simp only [solverInit, StatementKind.update, updateLhs, updateRhs, bind, Except.bind, pure,
      Except.pure, Except.ok.injEq] at hs ⊢
    rw [← hs]
  · simp only [solverInit, StatementKind.update, updateLhs, updateRhs, bind, Except.bind, pure,
      Except.pure, Except.ok.injEq] at hs ⊢
    rw [← hs]

/-- The direct solver is registered for dynamic problems and keeps the system of its construction,
whatever is written into it, for any number of steps. -/
theorem C61_direct_wrong :
    Registered .DynamicDisplacementProblem .direct .dynamicVelocity ∧
    (∀ (kind : StatementKind) (s s' : SolverState K) (ws : List (Written K)),
      steps .direct kind ops bs s ws = .ok s' → s'.system = s.system) := by
  constructor
  · refine ⟨⟨.dynamic, ?_, ?_⟩, .inl ?_⟩
    · simp only [dynamismOf, isInstance_eq]; decide +kernel
    · decide +kernel
    · simp only [ProblemClass.statement, mro_eq]; decide +kernel
  · intro kind s s' ws
    induction ws generalizing s with
    | nil => intro h; cases h; rfl
    | cons w ws ih =>
      intro h
      exact ih (write s w) h

/-- Any history of steps, with arbitrary values written in between, keeps the condensed data equal to
the condensation of the current system, for all statements except relaxation. Together with C18 the
recovered solution of every step solves the current system. -/
theorem C20_condensed_current_partial (inv : ℕ → (ℕ → ℕ → K) → ℕ → ℕ → K) (cls : SolverClass)
    (hcls : cls.isSchur = true) (kind : StatementKind) (hk : kind ≠ .quasistaticRelaxation)
    (contactCount : ℕ) (dv : Bool) (dt : K) (s s' : SolverState K)
    (hs : solverInit inv cls kind ops bs contactCount dv dt = .ok s) (ws : List (Written K))
    (hs' : steps cls kind ops bs s ws = .ok s') :
    s'.schur = some (SchurSolver.init inv ops.nodesCount contactCount
      (kind.dimensionIn ops.dimension) dv s'.system) := by
  have inv0 : s.timeStep = dt ∧ (∃ var : Variables K, var.timeStep = some dt ∧
      kind.update ops bs var = .ok s.system) ∧
      s.schur = some (SchurSolver.init inv ops.nodesCount contactCount
        (kind.dimensionIn ops.dimension) dv s.system) := by
    unfold solverInit at hs
    cases hu : kind.update ops bs
      { absement := some (fun _ => 0), displacement := some (fun _ => 0), velocity := some (fun _ => 0),
        temperature := some (fun _ => 0), electricPotential := some (fun _ => 0), timeStep := some dt,
        time := some 0 } with
    | error e => simp [hu, bind, Except.bind] at hs
    | ok S =>
      simp only [hu, bind, Except.bind, pure, Except.pure, Except.ok.injEq] at hs
      subst hs
      exact ⟨rfl, ⟨_, rfl, hu⟩, by simp [hcls]⟩
  clear hs
  induction ws generalizing s with
  | nil => cases hs'; exact inv0.2.2
  | cons w ws ih =>
    unfold steps at hs'
    cases hi : (write s w).iterate cls kind ops bs with
    | error e => simp [hi, bind, Except.bind] at hs'
    | ok s1 =>
      simp only [hi, bind, Except.bind] at hs'
      refine ih s1 hs' ?_
      obtain ⟨ht, ⟨var, hvt, hv⟩, hsch⟩ := inv0
      unfold SolverState.iterate at hi
      cases hvar : cls.iterateVariables (write s w) with
      | none =>
        rw [hvar] at hi
        simp only [Except.ok.injEq] at hi
        subst hi
        exact ⟨ht, ⟨var, hvt, hv⟩, hsch⟩
      | some var' =>
        rw [hvar] at hi
        obtain ⟨S, hS, rfl⟩ := updateSystem_ok _ _ _ _ _ _ hi
        have hvt' : var'.timeStep = some dt := by
          cases cls <;> simp only [SolverClass.iterateVariables, Option.some.injEq, reduceCtorEq] at hvar <;>
            rw [← hvar] <;> exact congrArg some ht
        refine ⟨ht, ⟨var', hvt', hS⟩, ?_⟩
        have hl := update_lhs_eq kind hk ops bs var var' _ S hv hS (by rw [hvt, hvt'])
        simp only [write, hsch, Option.map_some]
        congr 1
        simp only [SchurSolver.init, SchurSolver.recalculateForces, hl]

/-- Exactly the solvers registered under the name `"schur"` hold condensed data; those registered as
`"direct"` or `"global"` solve the full system. -/
theorem C20_condensed_iff (inv : ℕ → (ℕ → ℕ → K) → ℕ → ℕ → K) (d : DynamismArg) (names : List String)
    (cls : SolverClass) (h : (d, names, cls) ∈ conmechRegistrations) (kind : StatementKind)
    (contactCount : ℕ) (dv : Bool) (dt : K) (s s' : SolverState K)
    (hs : solverInit inv cls kind ops bs contactCount dv dt = .ok s) (ws : List (Written K))
    (hs' : steps cls kind ops bs s ws = .ok s') :
    (s'.schur.isSome ↔ "schur" ∈ names) ∧
    (s'.schur.isNone ↔ "direct" ∈ names ∨ "global" ∈ names) := by
  have hkeep : ∀ (ws : List (Written K)) (s : SolverState K), steps cls kind ops bs s ws = .ok s' →
      s'.schur.isSome = s.schur.isSome := by
    intro ws
    induction ws with
    | nil => intro s h; cases h; rfl
    | cons w ws ih =>
      intro s h
      unfold steps at h
      cases hi : (write s w).iterate cls kind ops bs with
      | error e => simp [hi, bind, Except.bind] at h
      | ok s1 =>
        simp only [hi, bind, Except.bind] at h
        rw [ih s1 h]
        unfold SolverState.iterate at hi
        cases hvar : cls.iterateVariables (write s w) with
        | none =>
          rw [hvar] at hi
          simp only [Except.ok.injEq] at hi
          subst hi
          rfl
        | some var' =>
          rw [hvar] at hi
          obtain ⟨S, hS, rfl⟩ := updateSystem_ok _ _ _ _ _ _ hi
          simp [write]
  have h0 : s.schur.isSome = cls.isSchur := by
    unfold solverInit at hs
    cases hu : kind.update ops bs
      { absement := some (fun _ => 0), displacement := some (fun _ => 0), velocity := some (fun _ => 0),
        temperature := some (fun _ => 0), electricPotential := some (fun _ => 0), timeStep := some dt,
        time := some 0 } with
    | error e => simp [hu, bind, Except.bind] at hs
    | ok S =>
      simp only [hu, bind, Except.bind, pure, Except.pure, Except.ok.injEq] at hs
      subst hs
      cases cls.isSchur <;> rfl
  have key : ∀ e ∈ conmechRegistrations, (e.2.2.isSchur = true ↔ "schur" ∈ e.2.1) ∧
      (e.2.2.isSchur = false ↔ "direct" ∈ e.2.1 ∨ "global" ∈ e.2.1) := by decide +kernel
  have hk := key _ h
  have h1 := (hkeep ws s hs').trans h0
  rw [← hk.1, ← hk.2, ← h1]
  exact ⟨Iff.rfl, by cases s'.schur <;> simp⟩

end

section
variable {K : Type} [Field K] (ops : Operators K) (bs : List (CondBoundary K))
  (D : ℕ → Prop) [DecidablePred D] (g : ℕ → K)

/-- A Dirichlet condition on a displacement or velocity holds in all coordinates of every solution
of the system: in static problems in every dimension, in all others on plane meshes. -/
theorem C59_all_coordinates_partial (kind : StatementKind) (hkind : IsDisplacementKind kind = true)
    (hdim : kind = .staticDisplacement ∨ ops.dimension = 2)
    (hv : ValidBoundaries ops.nodesCount bs)
    (hd : DirichletData ops.nodesCount ops.dimension bs D g) (var : Variables K) (S : System K)
    (hS : kind.update ops bs var = .ok S) (x : ℕ → K)
    (hx : Solves (ops.dimension * ops.nodesCount) S x) :
    ∀ r < ops.dimension * ops.nodesCount, D r → x r = g r := by
  obtain ⟨l, rh, -, -, rfl⟩ := update_ok _ _ _ _ _ hS
  have hin : kind.dimensionIn ops.dimension = ops.dimension := by
    rcases hdim with rfl | h
    · rfl
    · rw [h]; cases kind <;> first | rfl | cases hkind
  rw [hin] at hx
  exact ((C12_elimination_equivalent _ _ bs _ D g hv hd x).1 hx).1

end

/-- A body with nodes that do not interact: elasticity `2`, relaxation `t`, forces `6`. -/
def plainOps (nodesCount dimension : ℕ) : Operators ℚ where
  nodesCount := nodesCount
  dimension := dimension
  elasticity := fun r s => if r = s then 2 else 0
  viscosity := fun _ _ => 0
  acceleration := fun _ _ => 0
  poisson := fun r s => if r = s then 1 else 0
  thermalExpansion := fun _ _ => 0
  thermalConductivity := fun _ _ => 0
  permittivity := fun _ _ => 0
  piezoelectricity := fun _ _ => 0
  relaxation := fun
    | some t => .ok fun r s => if r = s then t else 0
    | none => .error .relaxation
  force := fun _ _ => 6
  bodyTemperature := fun _ _ => 0

/-- In every time-dependent statement the third coordinate is left unconstrained: a body with one
node in space, the node is prescribed the value 5, and the solution has third coordinate 3. -/
theorem C59_three_dim_wrong (kind : StatementKind) (hkind : IsDisplacementKind kind = true)
    (hne : kind ≠ .staticDisplacement) :
    ∃ (var : Variables ℚ) (S : System ℚ) (x : ℕ → ℚ),
      kind.update (plainOps 1 3) [⟨.list [0], fun _ => 5⟩] var = .ok S ∧ Solves 3 S x ∧
      Prescribed 1 3 [⟨.list [0], fun _ => (5 : ℚ)⟩] 2 5 ∧ x 2 ≠ 5 := by
  refine ⟨⟨some fun _ => 0, some fun _ => 0, some fun _ => 0, some fun _ => 0, some fun _ => 0,
    some 1, some 0⟩,
    applyDirichlet 1 2 [⟨.list [0], fun _ => 5⟩]
      ⟨fun r s => if r = s then 2 else 0, fun _ => 6⟩, fun r => if r = 2 then 3 else 5, ?_, ?_, ?_, ?_⟩
  · have z : ∀ (n : ℕ) (A : ℕ → ℕ → ℚ), matVec n A (fun _ => 0) = fun _ => 0 := by
      intro n A; funext r; simp [matVec]
    cases kind <;> first | (cases hkind; done) | exact absurd rfl hne |
      (simp [StatementKind.update, updateLhs, updateRhs, dynamicLhs, dynamicRhs, quasistaticLhs,
        quasistaticRhs, required, plainOps, bind, Except.bind, pure, Except.pure, z,
        StatementKind.dimensionIn])
  · unfold Solves Row; decide +kernel
  · exact ⟨_, List.mem_singleton.2 rfl, 2, by omega, 0, 0, by simp [nodesOf], by omega, rfl⟩
  · decide

/-- With relaxation the condensed matrix is that of the first system: after one step the backend
solves its condensed system exactly and the recovered vector does not solve the system held by the
statement. -/
theorem C20_relaxation_wrong :
    ∃ (inv : ℕ → (ℕ → ℕ → ℚ) → ℕ → ℕ → ℚ) (s s' : SolverState ℚ) (ws : List (Written ℚ))
      (c : SchurSolver ℚ) (xc : ℕ → ℚ),
      solverInit inv .quasistaticRelaxedSchur .quasistaticRelaxation (plainOps 2 2) [] 1 false 1
        = .ok s ∧
      IsInverse 2 (getSliced (matrixSplit 2 4 s.system.lhs) (1, 2) (1, 2))
        (inv 2 (getSliced (matrixSplit 2 4 s.system.lhs) (1, 2) (1, 2))) ∧
      steps .quasistaticRelaxedSchur .quasistaticRelaxation (plainOps 2 2) [] s ws = .ok s' ∧
      s'.schur = some c ∧ Solves 2 ⟨c.matrices.boundary, c.nodeForces⟩ xc ∧
      ¬ Solves 4 s'.system (c.solveImpl (fun _ _ _ => xc) 4 xc) := by
  refine ⟨fun _ A i j => if i = j then 1 / A i i else 0, _, _,
    [⟨1, fun _ => 0, fun _ => 0, fun _ => 0, fun _ => 0, fun _ => 0⟩], _, fun _ => 3, rfl, ?_, rfl, rfl,
    ?_, ?_⟩
  · constructor <;> decide +kernel
  · unfold Solves Row; decide +kernel
  · unfold Solves Row; decide +kernel

/-- The direct solver in a dynamic problem: after a displacement has been written and a step taken,
the solution of the system it solves does not solve the system of the current state. -/
theorem C61_direct_stale_wrong :
    ∃ (inv : ℕ → (ℕ → ℕ → ℚ) → ℕ → ℕ → ℚ) (s s' : SolverState ℚ) (ws : List (Written ℚ))
      (x : ℕ → ℚ) (S : System ℚ),
      solverInit inv .direct .dynamicVelocity (plainOps 1 2) [] 0 false 1 = .ok s ∧
      steps .direct .dynamicVelocity (plainOps 1 2) [] s ws = .ok s' ∧ Solves 2 s'.system x ∧
      StatementKind.dynamicVelocity.update (plainOps 1 2) [] (currentVariables s') = .ok S ∧
      ¬ Solves 2 S x := by
  refine ⟨fun _ A => A, _, _, [⟨1, fun _ => 0, fun _ => 1, fun _ => 0, fun _ => 0, fun _ => 0⟩],
    fun _ => 3, _, rfl, rfl, ?_, rfl, ?_⟩
  · unfold Solves Row; decide +kernel
  · unfold Solves Row; decide +kernel

/-- Non-trivial instance of C20 and C61: a dynamic Schur solver with a constrained node makes two
steps, between which displacement, velocity and time change. -/
example : ∃ (s s' : SolverState ℚ),
    solverInit (fun _ A => A) .dynamicSchur .dynamicVelocity exampleOps
      [⟨.list [1], fun _ => (5 : ℚ)⟩] 1 false 1 = .ok s ∧
    steps .dynamicSchur .dynamicVelocity exampleOps [⟨.list [1], fun _ => (5 : ℚ)⟩] s
      [⟨1, fun _ => 0, fun _ => 1, fun _ => 2, fun _ => 0, fun _ => 0⟩,
       ⟨2, fun _ => 0, fun _ => 3, fun _ => 1, fun _ => 0, fun _ => 0⟩] = .ok s' ∧
    s.system.rhs 0 ≠ s'.system.rhs 0 := by
  refine ⟨_, _, rfl, rfl, ?_⟩
  decide +kernel

example : Registered .TemperatureDynamicProblem .dynamicSchur .temperature := by
  refine ⟨⟨.dynamic, ?_, ?_⟩, .inr ?_⟩
  · simp only [dynamismOf, isInstance_eq]; decide +kernel
  · decide +kernel
  · simp only [ProblemClass.secondStatement, mro_eq]; decide +kernel

end Conmech
