import Verif.Props.Solvable
/-!
C75: static problems return the solution of the assembled system.

`D` is the set of constrained degrees of freedom and `g` gives their values.
-/
namespace Conmech
open Spec

variable {K : Type} [Field K] [DecidableEq K] {V : Type}

/-- The classes that solve static problems. -/
def Spec.StaticClass (cls : SolverClass) : Prop :=
  cls = .direct ∨ cls = .staticGlobal ∨ cls = .staticSchur

/-- `step_solver.solve` solves the system which the solver holds. -/
def SolvesHeld (e : Engine K) (n : ℕ) (solver : SolverState K) : Prop :=
  ∀ (S : SolverState K) (guess : ℕ → K), S.system = solver.system → S.schur = solver.schur →
    Solves n S.system (e.solve S guess)

theorem static_registered {c : ProblemClass} {cls : SolverClass} {kind : StatementKind}
    (hk : kind = .staticDisplacement ∨ kind = .staticPoisson) (h : Registered c cls kind) :
    StaticClass cls := by
  rcases registered_cases h with ⟨_, hc⟩ | ⟨hk', _⟩ | ⟨hk', _⟩ | ⟨hk', _⟩
  · exact hc
  all_goals
    exfalso
    rcases hk with rfl | rfl <;> simp at hk'

theorem iterate_static (e : Engine K) (hcls : StaticClass e.cls) (s : SolverState K) :
    e.iterate s = .ok s := by
  unfold Engine.iterate SolverState.iterate
  rcases hcls with h | h | h <;> rw [h] <;> rfl

/-- The system of a new solver of a static problem. -/
theorem init_static (inv : ℕ → (ℕ → ℕ → K) → ℕ → ℕ → K) (cls : SolverClass) (ops : Operators K)
    (bs : List (CondBoundary K)) (contactCount : ℕ) (dv : Bool) (dt : K) (s : SolverState K) :
    (solverInit inv cls .staticDisplacement ops bs contactCount dv dt = .ok s →
      s.system = applyDirichlet ops.nodesCount ops.dimension bs ⟨ops.elasticity, ops.force 0⟩) ∧
    (solverInit inv cls .staticPoisson ops bs contactCount dv dt = .ok s →
      s.system = applyDirichlet ops.nodesCount 1 bs ⟨ops.poisson, ops.bodyTemperature 0⟩) := by
  constructor
  · intro h
    rw [← Except.ok.inj h]
    rfl
  · intro h
    rw [← Except.ok.inj h]
    rfl

omit [DecidableEq K] in
theorem withDisplacement_displacement (g : Grid K) (s : State K) (x : ℕ → K) (t : K) (b : Bool) :
    State.flatten g (s.withDisplacement g x t b).displacement = x := by
  cases b <;> exact flatten_unflatten g x

/-- What `StaticSolver.solve` does. -/
theorem staticSolve_ok (e : Engine K) (hcls : StaticClass e.cls) (initial : ℕ → ℕ → K)
    (products : List ℕ) (solver : SolverState K) (store : ProductStore K V) (s : State K)
    (sim : Simulation K V) (h : e.staticSolve initial products solver store = .ok (s, sim)) :
    ∃ (S : SolverState K) (guess : ℕ → K), S.system = solver.system ∧ S.schur = solver.schur ∧
      State.flatten e.grid s.displacement = e.solve S guess ∧
      sim.solver.system = solver.system ∧ sim.solver.schur = solver.schur := by
  simp only [Engine.staticSolve, iterate_static e hcls, bind, Except.bind, Engine.run, pure, Except.pure,
    Engine.steps, Int.toNat_one] at h
  split at h
  · cases h
  · rename_i sim1 h1
    simp only [Except.ok.injEq, Prod.mk.injEq] at h
    split at h1
    · cases h1
    · rename_i sim2 h2
      cases h1
      obtain ⟨solver', a1, _, a3⟩ := (e.step_ok_iff _ _ _).1 h2
      rw [iterate_static e hcls] at a3
      simp only [Engine.advance, Option.some.injEq, Prod.mk.injEq] at a1
      obtain ⟨b1, b2⟩ := a1
      have a3 := Except.ok.inj a3
      rw [← h.1, ← h.2, ← a3, ← b2, ← b1]
      refine ⟨_, _, ?_, ?_, withDisplacement_displacement _ _ _ _ _, ?_, ?_⟩ <;> rfl

/-- C75: the displacement returned for a static problem takes the prescribed values and balances the
loads everywhere else. -/
theorem C75_static {c : ProblemClass} (e : Engine K) (hk : e.kind = .staticDisplacement)
    (hr : Registered c e.cls e.kind) (D : ℕ → Prop) [DecidablePred D] (g : ℕ → K)
    (hv : ValidBoundaries e.ops.nodesCount e.boundaries)
    (hd : DirichletData e.ops.nodesCount e.ops.dimension e.boundaries D g)
    (inv : ℕ → (ℕ → ℕ → K) → ℕ → ℕ → K) (contactCount : ℕ) (dv : Bool) (dt : K) (solver : SolverState K)
    (hi : solverInit inv e.cls e.kind e.ops e.boundaries contactCount dv dt = .ok solver)
    (hs : SolvesHeld e (e.ops.dimension * e.ops.nodesCount) solver)
    (initial : ℕ → ℕ → K) (products : List ℕ) (store : ProductStore K V) (s : State K)
    (sim : Simulation K V) (h : e.staticSolve initial products solver store = .ok (s, sim)) :
    let n := e.ops.dimension * e.ops.nodesCount
    (∀ r < n, D r → State.flatten e.grid s.displacement r = g r) ∧
    ∀ r < n, ¬ D r → act n e.ops.elasticity (State.flatten e.grid s.displacement) r = e.ops.force 0 r := by
  intro n
  obtain ⟨S, guess, h1, h2, h3, -, -⟩ := staticSolve_ok e (static_registered (Or.inl hk) hr) _ _ _ _ _ _ h
  rw [hk] at hi
  have hsol := hs S guess h1 h2
  rw [h1, (init_static _ _ _ _ _ _ _ _).1 hi, C12_elimination_equivalent _ _ _ _ D g hv hd] at hsol
  rw [h3]
  exact hsol

/-- C75: if the system is uniquely solvable, the displacement returned does not depend on the initial
displacement, and solving again with the same solver gives it again. -/
theorem C75_static_again {c : ProblemClass} (e : Engine K) (hk : e.kind = .staticDisplacement)
    (hr : Registered c e.cls e.kind) (n : ℕ) (solver : SolverState K)
    (hs : SolvesHeld e n solver) (hu : UniquelySolvable n solver.system)
    (initial initial' initial'' : ℕ → ℕ → K) (products products' products'' : List ℕ)
    (store store' : ProductStore K V) (s s' s'' : State K) (sim sim' sim'' : Simulation K V)
    (h : e.staticSolve initial products solver store = .ok (s, sim))
    (h' : e.staticSolve initial' products' solver store' = .ok (s', sim'))
    (h'' : e.staticSolve initial'' products'' sim.solver sim.store = .ok (s'', sim'')) :
    ∀ r < n,
      State.flatten e.grid s'.displacement r = State.flatten e.grid s.displacement r ∧
      State.flatten e.grid s''.displacement r = State.flatten e.grid s.displacement r := by
  have hcls := static_registered (Or.inl hk) hr
  obtain ⟨S, guess, h1, h2, h3, h4, h5⟩ := staticSolve_ok e hcls _ _ _ _ _ _ h
  obtain ⟨S', guess', h1', h2', h3', -, -⟩ := staticSolve_ok e hcls _ _ _ _ _ _ h'
  obtain ⟨S'', guess'', h1'', h2'', h3'', -, -⟩ := staticSolve_ok e hcls _ _ _ _ _ _ h''
  rw [h4] at h1''
  rw [h5] at h2''
  obtain ⟨x, -, hx⟩ := hu
  have a1 := hs S guess h1 h2
  have a2 := hs S' guess' h1' h2'
  have a3 := hs S'' guess'' h1'' h2''
  rw [h1] at a1
  rw [h1'] at a2
  rw [h1''] at a3
  rw [h3, h3', h3'']
  intro r hr'
  exact ⟨(hx _ a2 r hr').trans (hx _ a1 r hr').symm, (hx _ a3 r hr').trans (hx _ a1 r hr').symm⟩

/-- C75: the temperature returned for a Poisson problem takes the prescribed values and solves the
discrete Poisson equation with the given sources everywhere else. The first guess is zero. -/
theorem C75_poisson {c : ProblemClass} (e : Engine K) (hk : e.kind = .staticPoisson)
    (hr : Registered c e.cls e.kind) (D : ℕ → Prop) [DecidablePred D] (g : ℕ → K)
    (hv : ValidBoundaries e.ops.nodesCount e.boundaries)
    (hd : DirichletData e.ops.nodesCount 1 e.boundaries D g)
    (inv : ℕ → (ℕ → ℕ → K) → ℕ → ℕ → K) (contactCount : ℕ) (dv : Bool) (dt : K) (solver : SolverState K)
    (hi : solverInit inv e.cls e.kind e.ops e.boundaries contactCount dv dt = .ok solver)
    (hs : ∀ S : SolverState K, S.system = solver.system → S.schur = solver.schur →
      S.tVector = (fun _ => 0) → Solves e.ops.nodesCount S.system (e.solve S fun _ => 0)) :
    ∃ s solver', e.poissonSolve solver = .ok (s, solver') ∧
      ∃ T, s.scalar = .temperature T ∧
        (∀ r < e.ops.nodesCount, D r → T r = g r) ∧
        ∀ r < e.ops.nodesCount, ¬ D r → act e.ops.nodesCount e.ops.poisson T r = e.ops.bodyTemperature 0 r := by
  have hcls := static_registered (Or.inr hk) hr
  have he : e.poissonSolve solver = .ok
      (((State.new e.grid .temperature).setScalar (e.solve { solver with tVector := fun _ => 0 } fun _ => 0)),
        { solver with tVector := fun _ => 0 }) := by
    simp only [Engine.poissonSolve, iterate_static e hcls, bind, Except.bind, pure, Except.pure]
  refine ⟨_, _, he, _, rfl, ?_⟩
  have hsol := hs { solver with tVector := fun _ => 0 } rfl rfl rfl
  rw [hk] at hi
  have := C12_elimination_equivalent e.ops.nodesCount 1 e.boundaries
    ⟨e.ops.poisson, e.ops.bodyTemperature 0⟩ D g hv hd
    (e.solve { solver with tVector := fun _ => 0 } fun _ => 0)
  rw [Nat.one_mul, ← (init_static _ _ _ _ _ _ _ _).2 hi] at this
  exact this.1 hsol

/-- C75: solving a Poisson problem again with the same solver gives the same temperature. -/
theorem C75_poisson_again {c : ProblemClass} (e : Engine K) (hk : e.kind = .staticPoisson)
    (hr : Registered c e.cls e.kind) (solver solver' : SolverState K) (s : State K)
    (h : e.poissonSolve solver = .ok (s, solver')) : e.poissonSolve solver' = .ok (s, solver') := by
  have hcls := static_registered (Or.inr hk) hr
  simp only [Engine.poissonSolve, iterate_static e hcls, bind, Except.bind, pure, Except.pure,
    Except.ok.injEq, Prod.mk.injEq] at h ⊢
  obtain ⟨rfl, rfl⟩ := h
  exact ⟨rfl, rfl⟩

/-! The quadrilateral with nodes 0 and 1 moved by 5 in both directions. -/

theorem heldBoundaries_valid (k : ℕ) (hk : k ≤ 2) :
    ValidBoundaries 4 [(⟨.list [0, 1], fun _ => 5⟩ : CondBoundary ℚ)] ∧
    DirichletData 4 k [(⟨.list [0, 1], fun _ => 5⟩ : CondBoundary ℚ)]
      (fun r => r < 4 * k ∧ r % 4 < 2) (fun _ => 5) := by
  refine ⟨?_, ⟨fun r => ⟨?_, ?_⟩, ?_⟩⟩
  · intro b hb
    simp only [List.mem_singleton] at hb
    subst hb
    refine ⟨?_, ?_⟩
    · intro v hv
      simp [nodesOf] at hv
      omega
    · intro i h; simp at h; subst h; simp
  · rintro ⟨h1, h2⟩
    refine ⟨5, _, List.mem_singleton.2 rfl, r / 4, by omega, r % 4, r % 4, ?_, by omega, rfl⟩
    have : r % 4 = 0 ∨ r % 4 = 1 := by omega
    rcases this with h | h <;> rw [h] <;> rfl
  · rintro ⟨v, b, hb, d, hd, j, node, hj, hx, -⟩
    simp only [List.mem_singleton] at hb
    subst hb
    have hnode : node = 0 ∨ node = 1 := by
      have := List.mem_of_getElem? hj
      simpa [nodesOf] using this
    omega
  · rintro x v ⟨b, hb, d, hd, j, node, hj, hx, hv⟩
    simp only [List.mem_singleton] at hb
    subst hb
    exact hv

/-- The engine of a static problem on the quadrilateral, solved exactly. -/
noncomputable def heldEngine (kind : StatementKind) (n : ℕ) : Engine ℚ where
  grid := { nodesCount := 4, dimension := 2, nodes := exampleNodes2 }
  cls := .staticGlobal
  kind := kind
  ops := quadrilateralOps
  boundaries := [⟨.list [0, 1], fun _ => 5⟩]
  solve := fun s _ => exactSolution n s.system

theorem exactSolution_solves (n : ℕ) (S : System ℚ) (h : UniquelySolvable n S) :
    Solves n S (exactSolution n S) := by
  obtain ⟨x, hx, -⟩ := h
  have hex : ∃ x, Solves n S x := ⟨x, hx⟩
  unfold exactSolution
  rw [dif_pos hex]
  exact Classical.choose_spec hex

/-- The hypotheses of C75 are met by elastic problems. -/
example : Registered .StaticDisplacementProblem (heldEngine .staticDisplacement 8).cls .staticDisplacement ∧
    ∃ solver, solverInit (fun _ A => A) .staticGlobal .staticDisplacement quadrilateralOps
        [⟨.list [0, 1], fun _ => 5⟩] 0 false 1 = .ok solver ∧
      UniquelySolvable 8 solver.system ∧ SolvesHeld (heldEngine .staticDisplacement 8) 8 solver := by
  refine ⟨⟨⟨.static, by decide +kernel, by decide +kernel⟩, Or.inl (by decide +kernel)⟩, _, rfl, ?_⟩
  obtain ⟨hb, hd⟩ := heldBoundaries_valid 2 le_rfl
  have h0 : Held exampleMesh2 (fun q => q < 4 ∧ (q < 4 * 2 ∧ q % 4 < 2) ∧ 4 + q < 4 * 2 ∧ (4 + q) % 4 < 2) 0 :=
    .fixed 0 (by decide)
  have h1 : Held exampleMesh2 (fun q => q < 4 ∧ (q < 4 * 2 ∧ q % 4 < 2) ∧ 4 + q < 4 * 2 ∧ (4 + q) % 4 < 2) 1 :=
    .fixed 1 (by decide)
  have h2 : Held exampleMesh2 (fun q => q < 4 ∧ (q < 4 * 2 ∧ q % 4 < 2) ∧ 4 + q < 4 * 2 ∧ (4 + q) % 4 < 2) 2 :=
    .triangle [0, 1, 2] (by decide) 0 1 2 (by decide) (by decide) (by decide) (by decide) h0 h1
  have h3 : Held exampleMesh2 (fun q => q < 4 ∧ (q < 4 * 2 ∧ q % 4 < 2) ∧ 4 + q < 4 * 2 ∧ (4 + q) % 4 < 2) 3 :=
    .triangle [3, 2, 1] (by decide) 1 2 0 (by decide) (by decide) (by decide) (by decide) h2 h1
  have hu := ((C74_elasticity2 exampleMesh2_valid exampleMesh2_nondegenerate (by decide)
    3 2 1 1 0 (by norm_num) (by norm_num) (by norm_num) (by norm_num) le_rfl quadrilateralOps rfl rfl
    rfl rfl rfl _ _ _ hb hd ⟨none, none, none, none, none, some 1, none⟩ 1 (by norm_num) rfl _).2
    (by intro p hp; interval_cases p <;> assumption)).1 rfl
  refine ⟨hu, fun S guess h1 h2 => ?_⟩
  rw [h1]
  change Solves 8 _ (exactSolution 8 S.system)
  rw [h1]
  exact exactSolution_solves 8 _ hu

/-- The hypotheses of C75 are met by Poisson problems. -/
example : Registered .PoissonProblem (heldEngine .staticPoisson 4).cls .staticPoisson ∧
    ∃ solver, solverInit (fun _ A => A) .staticGlobal .staticPoisson quadrilateralOps
        [⟨.list [0, 1], fun _ => 5⟩] 0 false 1 = .ok solver ∧
      ∀ S : SolverState ℚ, S.system = solver.system → S.schur = solver.schur →
        S.tVector = (fun _ => 0) → Solves 4 S.system ((heldEngine .staticPoisson 4).solve S fun _ => 0) := by
  refine ⟨⟨⟨.static, by decide +kernel, by decide +kernel⟩, Or.inr (by decide +kernel)⟩, _, rfl, ?_⟩
  obtain ⟨hb, hd⟩ := heldBoundaries_valid 1 (by omega)
  have j0 : Joined 3 exampleMesh2 (fun q => q < 4 ∧ q < 4 * 1 ∧ q % 4 < 2) 0 := .fixed 0 (by decide)
  have j1 : Joined 3 exampleMesh2 (fun q => q < 4 ∧ q < 4 * 1 ∧ q % 4 < 2) 1 := .fixed 1 (by decide)
  have j2 : Joined 3 exampleMesh2 (fun q => q < 4 ∧ q < 4 * 1 ∧ q % 4 < 2) 2 :=
    .element [0, 1, 2] (by decide) 0 2 (by decide) (by decide) j0
  have j3 : Joined 3 exampleMesh2 (fun q => q < 4 ∧ q < 4 * 1 ∧ q % 4 < 2) 3 :=
    .element [3, 2, 1] (by decide) 2 0 (by decide) (by decide) j1
  have hu := (C74_scalar2 exampleMesh2_valid exampleMesh2_nondegenerate (by decide) 3 (1 / 2)
    (by norm_num) (by norm_num) quadrilateralOps rfl rfl rfl _ _ _ hb hd
    ⟨none, none, none, none, none, some 1, none⟩ 1 (by norm_num) rfl _).2
    (by intro p hp; interval_cases p <;> assumption) rfl
  intro S h1 h2 h3
  rw [h1]
  change Solves 4 _ (exactSolution 4 S.system)
  rw [h1]
  exact exactSolution_solves 4 _ hu

end Conmech
