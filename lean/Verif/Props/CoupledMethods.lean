import Verif.Props.SolverIndependence
import Verif.Props.PiezoRuns
/-!
C118: coupled simulations with the solvers as they are. The condensed method and the global one return the
runs that C116 and C117 speak of, and the results depend neither on the method nor on the optimiser.
-/
namespace Conmech
open Spec

/-! ### A field on whose boundary nothing is exchanged -/

/-- The law of the second field of the examples: both potentials are zero, whatever the bounds are
(`TPSlopeContactLaw` in `examples/example_temperature_dynamic.py` 19-40, `PPSlopeContactLaw` in
`examples/example_piezo_quasistatic.py` 20-41). -/
structure Inert {K : Type _} [Zero K] (c : Conditions K) : Prop where
  normal : ∀ x s dt, c.normal x s dt = 0
  tangential : ∀ x s dt, c.tangential x s dt = 0

theorem inert_cost (sqrt : ℝ → ℝ) (c : Conditions ℝ) (hc : Inert c) (d : ContactData ℝ) (x : Flat ℝ) :
    contactCostFunctional sqrt c d x = 0 := by
  have h : ∀ s n vm, sampleCost sqrt c d s n vm = 0 := fun s n vm => by
    simp [sampleCost, contactCost, hc.normal, hc.tangential]
  have h2 : ∀ (s : Surface ℝ) (n : ℕ) (l : List (ℕ → ℝ)) (a : ℝ),
      l.foldl (fun cost vm => cost + sampleCost sqrt c d s n vm) a = a := by
    intro s n l
    induction l with
    | nil => intro a; rfl
    | cons vm l ih => intro a; rw [List.foldl_cons, h, add_zero, ih]
  unfold contactCostFunctional
  induction d.surfaces with
  | nil => rfl
  | cons s l ih => rw [List.foldl_cons]; dsimp only; rw [h2]; exact ih

theorem solves_same {n : ℕ} {S : System ℝ} {x y : ℕ → ℝ} (h : ∀ r < n, x r = y r) (hx : Solves n S x) :
    Solves n S y := by
  intro r hr
  have := hx r hr
  unfold Row at this ⊢
  rw [← this]
  exact Finset.sum_congr rfl fun s hs => by rw [h s (Finset.mem_range.1 hs)]

/-- C118: one call of `solve` for a scalar field on whose boundary nothing is exchanged. Both methods solve
the system. -/
theorem C118_scalar_solve (inv : ℕ → (ℕ → ℕ → ℝ) → ℕ → ℕ → ℝ) (hinv : InvContract inv)
    (minimise : ℕ → ((ℕ → ℝ) → ℝ) → (ℕ → ℝ) → ℕ → ℝ) (hm : MinimiseContract minimise)
    (m : ContactSetting ℝ) (hc : Inert m.conditions) (kind : StatementKind) (ops : Operators ℝ)
    (hkind : kind.dimensionIn ops.dimension = 1) (bs : List (CondBoundary ℝ)) (D : ℕ → Prop)
    [DecidablePred D] (g : ℕ → ℝ) (hv : ValidBoundaries ops.nodesCount bs)
    (hd : DirichletData ops.nodesCount 1 bs D g) (C : ℕ) (hC : C ≤ ops.nodesCount) (s : SolverState ℝ)
    (hs : s.schur = none ∨ s.schur = some (SchurSolver.init inv ops.nodesCount C 1 false s.system))
    (S : System ℝ) (hS : s.system = applyDirichlet ops.nodesCount 1 bs S)
    (hA : ∀ r < ops.nodesCount, ∀ s < ops.nodesCount, S.lhs r s = S.lhs s r)
    (hpos : ∀ x : ℕ → ℝ, (∀ r < ops.nodesCount, D r → x r = 0) → (∃ r < ops.nodesCount, x r ≠ 0) →
      0 < quad ops.nodesCount S.lhs x) (guess : ℕ → ℝ) :
    Solves ops.nodesCount s.system
      (optimisedSolve minimise m kind ops bs ops.nodesCount s guess) := by
  set N := ops.nodesCount with hN
  have h1N : 1 * N = N := Nat.one_mul N
  have hA1 : ∀ r < 1 * N, ∀ s < 1 * N, S.lhs r s = S.lhs s r := by rw [h1N]; exact hA
  have hpos' : PositiveForm (1 * N) (applyDirichlet N 1 bs S).lhs :=
    C13_positive N 1 bs S D g hv hd (by rw [h1N]; exact hpos)
  have hA' := C13_symmetric N 1 bs S D g hv hd hA1
  have hnn : ∀ x : ℕ → ℝ, 0 ≤ quad (1 * N) (applyDirichlet N 1 bs S).lhs x := fun x => by
    by_cases hx : ∃ r < 1 * N, x r ≠ 0
    · exact (hpos' x hx).le
    · push Not at hx
      unfold quad
      exact (Finset.sum_eq_zero fun r hr => by rw [hx r (Finset.mem_range.1 hr), zero_mul]).ge
  have hcost : ∀ (d : ContactData ℝ) (k : ℕ) (T : System ℝ) (x : Flat ℝ),
      costFunctional m.sqrt m.conditions d k T.lhs T.rhs x = energy k T x.get := fun d k T x => by
    rw [C48_energy, inert_cost _ _ hc, add_zero]
  have hmin : ∀ (k : ℕ) (T : System ℝ) (guess : ℕ → ℝ) (d : ContactData ℝ), PositiveForm k T.lhs →
      ∀ y, energy k T (minimise k (fun x => costFunctional m.sqrt m.conditions d k T.lhs T.rhs ⟨k, x⟩)
        guess) ≤ energy k T y := by
    intro k T guess d hT
    simp only [hcost]
    refine hm k (energy k T) guess ?_
    obtain ⟨x, hx, -⟩ := C89_unique_minimiser (frictionless fun _ _ _ => 0)
      ⟨1, 1, 1, fun _ _ => 0, [], ⟨0, fun _ => 0⟩, ⟨0, fun _ => 0⟩, 0⟩ Nat.one_pos (by simp) k T hT
    refine ⟨x, fun y => ?_⟩
    have := hx y
    beta_reduce at this
    rw [C48_energy, C48_energy] at this
    simpa [contactCostFunctional] using this
  -- what the method finds has the least energy
  have key : ∀ y, energy (1 * N) (applyDirichlet N 1 bs S)
      (optimisedImpl minimise m kind ops N s guess) ≤ energy (1 * N) (applyDirichlet N 1 bs S) y := by
    rcases hs with hs | hs
    · have e1 : optimisedImpl minimise m kind ops N s guess =
          minimise (1 * N) (fun x => costFunctional m.sqrt m.conditions (contactArguments m kind ops s) (1 * N)
            (applyDirichlet N 1 bs S).lhs (applyDirichlet N 1 bs S).rhs ⟨1 * N, x⟩) guess := by
        unfold optimisedImpl
        rw [hs, hS, hkind, h1N]
      rw [e1]
      exact hmin (1 * N) _ guess _ hpos'
    · obtain ⟨B, hB⟩ := freeBlock_exists N C 1 hC _ hpos'
      have hbp := boundary_positive inv hinv (applyDirichlet N 1 bs S) N C 1 hC (by norm_num) hA' hpos'
      have := C19_recovered_minimises inv hinv _ N C 1 hC (Or.inl rfl) B hB hA' (fun x _ => hnn x)
        (fun _ => 0) (fun _ => 0) (fun _ _ _ => rfl) (fun lhs rhs guess => minimise (1 * C) (fun x =>
          costFunctional m.sqrt m.conditions (contactArguments m kind ops s) (1 * C) lhs rhs ⟨1 * C, x⟩) guess)
        N guess (fun y => by
          simp only [add_zero]
          exact hmin (1 * C) ⟨_, _⟩ _ _ hbp y)
      simp only [add_zero] at this
      have e1 : optimisedImpl minimise m kind ops N s guess =
          (SchurSolver.init inv N C 1 false (applyDirichlet N 1 bs S)).solveImpl (fun lhs rhs guess =>
            minimise (1 * C) (fun x => costFunctional m.sqrt m.conditions (contactArguments m kind ops s)
              (1 * C) lhs rhs ⟨1 * C, x⟩) guess) N guess := by
        unfold optimisedImpl
        rw [hs, hS]
        rfl
      rw [e1]
      exact this
  have hsol : Solves (1 * N) (applyDirichlet N 1 bs S) (optimisedImpl minimise m kind ops N s guess) :=
    (solves_iff_minimises (1 * N) _ hA' hnn _).2 key
  have e2 : optimisedSolve minimise m kind ops bs N s guess =
      solverSolve (optimisedImpl minimise m kind ops N s) N 1 bs guess := by
    unfold optimisedSolve
    rw [hkind]
  rw [e2, hS]
  have := solves_same (fun r hr => (C16_exact_solution_kept N 1 bs S D g _ guess hv hd hsol r hr).symm) hsol
  rwa [h1N] at this

/-! ### Runs with other solvers that return the same -/

section same
variable {K : Type} [Field K] [DecidableEq K] {V : Type}

/-- The same simulation with other functions `solve`. -/
def CoupledEngine.withSolve (e : CoupledEngine K) (s₁ s₂ : SolverState K → (ℕ → K) → ℕ → K) :
    CoupledEngine K :=
  { e with first := { e.first with solve := s₁ }, second := { e.second with solve := s₂ } }

/-- What is kept by everything that happens to a solver object during a run, `Q` being a property of the
solutions. -/
structure Kept (e : Engine K) (P : SolverState K → Prop) (Q : (ℕ → K) → Prop) : Prop where
  update : ∀ s s' var, P s → var.timeStep = some s.timeStep →
    s.updateSystem e.kind e.ops e.boundaries var = .ok s' → P s'
  time : ∀ s t, P s → P { s with currentTime := t }
  finish : ∀ s u v x, P s → Q v → P { s with vVector := v, uVector := u, pVector := x, tVector := x }

variable (e : CoupledEngine K) (s₁ s₂ : SolverState K → (ℕ → K) → ℕ → K) (P₁ P₂ : SolverState K → Prop)
  (Q : (ℕ → K) → Prop)

omit [DecidableEq K] in
theorem pass_same (h1 : ∀ s, P₁ s → ∀ guess, s₁ s guess = e.first.solve s guess)
    (h2 : ∀ s, P₂ s → ∀ guess, s₂ s guess = e.second.solve s guess) (k1 : Kept e.first P₁ Q)
    (k2 : Kept e.second P₂ Q) (hQ : ∀ s guess, Q (e.first.solve s guess)) (u v θ p : ℕ → K) (c : Coupled K)
    (hc1 : P₁ c.first) (hc2 : P₂ c.second) :
    (e.withSolve s₁ s₂).pass u v θ p c = e.pass u v θ p c ∧
    ∀ c', e.pass u v θ p c = .ok c' → P₁ c'.first ∧ P₂ c'.second ∧ Q c'.solution := by
  unfold CoupledEngine.pass
  simp only [bind, Except.bind, CoupledEngine.withSolve, pure, Except.pure]
  cases hf : c.first.updateSystem e.first.kind e.first.ops e.first.boundaries
    { displacement := some u, velocity := some v, temperature := some c.solutionT,
      electricPotential := some c.solutionT, timeStep := some c.first.timeStep,
      time := some c.first.currentTime } with
  | error err => exact ⟨rfl, fun c' h => by cases h⟩
  | ok first =>
    have hp1 : P₁ first := k1.update _ _ _ hc1 rfl hf
    simp only [liftStatement]
    rw [h1 _ hp1]
    cases hs : c.second.updateSystem e.second.kind e.second.ops e.second.boundaries
      { displacement := some fun i => u i + c.first.timeStep * e.first.solve first c.solution i,
        velocity := some (e.first.solve first c.solution), temperature := some θ,
        electricPotential := some p, timeStep := some c.second.timeStep } with
    | error err => exact ⟨rfl, fun c' h => by cases h⟩
    | ok second =>
      have hp2 : P₂ second := k2.update _ _ _ hc2 rfl hs
      simp only
      rw [h2 _ hp2]
      exact ⟨rfl, fun c' h => by cases h; exact ⟨hp1, hp2, hQ _ _⟩⟩

omit [DecidableEq K] in
theorem loop_same (h1 : ∀ s, P₁ s → ∀ guess, s₁ s guess = e.first.solve s guess)
    (h2 : ∀ s, P₂ s → ∀ guess, s₂ s guess = e.second.solve s guess) (k1 : Kept e.first P₁ Q)
    (k2 : Kept e.second P₂ Q) (hQ : ∀ s guess, Q (e.first.solve s guess)) (u v θ p : ℕ → K) (fuel : ℕ)
    (fuse mn : ℤ) (large : Bool) (n : ℕ) (c : Coupled K) (hc1 : P₁ c.first) (hc2 : P₂ c.second)
    (hq : 0 < mn ∨ Q c.solution) :
    (e.withSolve s₁ s₂).loop u v θ p fuel fuse mn large n c = e.loop u v θ p fuel fuse mn large n c ∧
    ∀ r, e.loop u v θ p fuel fuse mn large n c = .ok r → P₁ r.1.first ∧ P₂ r.1.second ∧ Q r.1.solution := by
  induction fuel generalizing fuse mn large n c with
  | zero => exact ⟨rfl, fun r h => by cases h⟩
  | succ fuel ih =>
    obtain ⟨g1, g2⟩ := pass_same e s₁ s₂ P₁ P₂ Q h1 h2 k1 k2 hQ u v θ p c hc1 hc2
    simp only [CoupledEngine.loop, g1, bind, Except.bind]
    split_ifs with hcond
    · cases hp : e.pass u v θ p c with
      | error err => exact ⟨rfl, fun r h => by cases h⟩
      | ok c' =>
        obtain ⟨j1, j2, j3⟩ := g2 c' hp
        exact ih _ _ _ _ c' j1 j2 (Or.inr j3)
    · refine ⟨rfl, fun r h => ?_⟩
      cases h
      refine ⟨hc1, hc2, hq.resolve_left fun h => hcond (Or.inl h)⟩

theorem coupled_step_same (h1 : ∀ s, P₁ s → ∀ guess, s₁ s guess = e.first.solve s guess)
    (h2 : ∀ s, P₂ s → ∀ guess, s₂ s guess = e.second.solve s guess) (k1 : Kept e.first P₁ Q)
    (k2 : Kept e.second P₂ Q) (hQ : ∀ s guess, Q (e.first.solve s guess)) (fuel : ℕ)
    (r : CoupledEngine.Run K V) (hc1 : P₁ r.coupled.first) (hc2 : P₂ r.coupled.second) :
    (e.withSolve s₁ s₂).step fuel r = e.step fuel r ∧
    ∀ r', e.step fuel r = .ok r' → P₁ r'.coupled.first ∧ P₂ r'.coupled.second := by
  obtain ⟨g1, g2⟩ := loop_same e s₁ s₂ P₁ P₂ Q h1 h2 k1 k2 hQ r.coupled.first.uVector r.coupled.first.vVector
    r.coupled.first.tVector r.coupled.first.pVector fuel 10 5 true 0
    { r.coupled with
      first := { r.coupled.first with
        currentTime := r.coupled.first.currentTime + r.coupled.first.timeStep }
      second := { r.coupled.second with
        currentTime := r.coupled.second.currentTime + r.coupled.second.timeStep } }
    (k1.time _ _ hc1) (k2.time _ _ hc2) (Or.inl (by norm_num))
  simp only [CoupledEngine.step, CoupledEngine.findSolutionUzawa, bind, Except.bind, g1]
  cases hl : e.loop r.coupled.first.uVector r.coupled.first.vVector r.coupled.first.tVector
      r.coupled.first.pVector fuel 10 5 true 0
      { r.coupled with
        first := { r.coupled.first with
          currentTime := r.coupled.first.currentTime + r.coupled.first.timeStep }
        second := { r.coupled.second with
          currentTime := r.coupled.second.currentTime + r.coupled.second.timeStep } } with
  | error err => exact ⟨rfl, fun r' h => by cases h⟩
  | ok q =>
    obtain ⟨j1, j2, j3⟩ := g2 q hl
    refine ⟨rfl, fun r' h => ?_⟩
    simp only [pure, Except.pure] at h
    split at h
    · cases h
    · cases h
      exact ⟨k1.finish _ _ _ _ j1 j3, k2.finish _ _ _ _ j2 j3⟩

theorem coupled_steps_same (h1 : ∀ s, P₁ s → ∀ guess, s₁ s guess = e.first.solve s guess)
    (h2 : ∀ s, P₂ s → ∀ guess, s₂ s guess = e.second.solve s guess) (k1 : Kept e.first P₁ Q)
    (k2 : Kept e.second P₂ Q) (hQ : ∀ s guess, Q (e.first.solve s guess)) (fuel n : ℕ)
    (r : CoupledEngine.Run K V) (hc1 : P₁ r.coupled.first) (hc2 : P₂ r.coupled.second) :
    (e.withSolve s₁ s₂).steps fuel n r = e.steps fuel n r ∧
    ∀ r', e.steps fuel n r = .ok r' → P₁ r'.coupled.first ∧ P₂ r'.coupled.second := by
  induction n generalizing r with
  | zero => exact ⟨rfl, fun r' h => by cases h; exact ⟨hc1, hc2⟩⟩
  | succ n ih =>
    obtain ⟨g1, g2⟩ := coupled_step_same e s₁ s₂ P₁ P₂ Q h1 h2 k1 k2 hQ fuel r hc1 hc2
    simp only [CoupledEngine.steps, bind, Except.bind, g1]
    cases hs : e.step fuel r with
    | error err => exact ⟨rfl, fun r' h => by cases h⟩
    | ok r1 =>
      obtain ⟨j1, j2⟩ := g2 r1 hs
      exact ih r1 j1 j2

theorem coupled_outputs_same (h1 : ∀ s, P₁ s → ∀ guess, s₁ s guess = e.first.solve s guess)
    (h2 : ∀ s, P₂ s → ∀ guess, s₂ s guess = e.second.solve s guess) (k1 : Kept e.first P₁ Q)
    (k2 : Kept e.second P₂ Q) (hQ : ∀ s guess, Q (e.first.solve s guess)) (fuel : ℕ) (l : List ℤ)
    (r : CoupledEngine.Run K V) (hc1 : P₁ r.coupled.first) (hc2 : P₂ r.coupled.second) :
    (e.withSolve s₁ s₂).outputs fuel l r = e.outputs fuel l r := by
  induction l generalizing r with
  | nil => rfl
  | cons n l ih =>
    obtain ⟨g1, g2⟩ := coupled_steps_same e s₁ s₂ P₁ P₂ Q h1 h2 k1 k2 hQ fuel n.toNat r hc1 hc2
    simp only [CoupledEngine.outputs, bind, Except.bind, g1]
    cases hs : e.steps fuel n.toNat r with
    | error err => rfl
    | ok r1 =>
      obtain ⟨j1, j2⟩ := g2 r1 hs
      simp only
      rw [← ih { r1 with store := (State.copy e.first.grid r1.state r1.store).2 } j1 j2]
      rfl

end same

/-! ### The solver objects -/

section objects
variable (inv : ℕ → (ℕ → ℕ → ℝ) → ℕ → ℕ → ℝ) (e : Engine ℝ) (C dim : ℕ)

/-- The condensed matrices are those of the system, if the class condenses at all. -/
def Current (s : SolverState ℝ) : Prop :=
  s.schur = if e.cls.isSchur then some (SchurSolver.init inv e.ops.nodesCount C dim false s.system) else none

/-- The system of a solver object is one of its statement and its time step. -/
def Updated (s : SolverState ℝ) : Prop :=
  ∃ var, var.timeStep = some s.timeStep ∧ e.kind.update e.ops e.boundaries var = .ok s.system

theorem current_update (hk : e.kind ≠ .quasistaticRelaxation) (s s' : SolverState ℝ) (var : Variables ℝ)
    (hs : Current inv e C dim s) (hu : Updated e s) (ht : var.timeStep = some s.timeStep)
    (h : s.updateSystem e.kind e.ops e.boundaries var = .ok s') :
    Current inv e C dim s' ∧ Updated e s' ∧ s'.vVector = s.vVector := by
  obtain ⟨S, hS, rfl⟩ := updateSystem_ok _ _ _ _ _ _ h
  refine ⟨?_, ⟨var, ht, hS⟩, rfl⟩
  obtain ⟨var', ht', hu⟩ := hu
  have hl := update_lhs_eq e.kind hk e.ops e.boundaries var' var _ S hu hS (by rw [ht, ht'])
  unfold Current at hs ⊢
  rw [hs]
  cases e.cls.isSchur with
  | false => rfl
  | true =>
    simp only [if_true, Option.map_some]
    congr 1
    simp only [SchurSolver.init, SchurSolver.recalculateForces, hl]

theorem current_iterate (hk : e.kind ≠ .quasistaticRelaxation) (s s' : SolverState ℝ)
    (hs : Current inv e C dim s) (hu : Updated e s) (h : e.iterate s = .ok s') :
    Current inv e C dim s' ∧ Updated e s' ∧ s'.vVector = s.vVector := by
  unfold Engine.iterate at h
  cases h1 : s.iterate e.cls e.kind e.ops e.boundaries with
  | error err => rw [h1] at h; cases h
  | ok s1 =>
    rw [h1] at h
    obtain rfl : s1 = s' := by simpa [liftStatement] using h
    unfold SolverState.iterate at h1
    cases hi : e.cls.iterateVariables s with
    | none =>
      rw [hi] at h1
      obtain rfl : s = s1 := by simpa using h1
      exact ⟨hs, hu, rfl⟩
    | some var' =>
      rw [hi] at h1
      refine current_update inv e C dim hk s s1 var' hs hu ?_ h1
      cases hcls : e.cls <;> rw [hcls] at hi <;>
        simp only [SolverClass.iterateVariables, Option.some.injEq, reduceCtorEq] at hi <;>
        rw [← hi]

theorem current_init (hdim : e.kind.dimensionIn e.ops.dimension = dim) (dt : ℝ) (s : SolverState ℝ)
    (h : solverInit inv e.cls e.kind e.ops e.boundaries C false dt = .ok s) :
    Current inv e C dim s ∧ Updated e s ∧ s.timeStep = dt ∧ s.currentTime = 0 := by
  unfold solverInit at h
  obtain ⟨S, hS, h⟩ := ok_of_bind _ _ _ h
  cases h
  exact ⟨by unfold Current; rw [hdim], ⟨_, rfl, hS⟩, rfl, rfl⟩

/-- The solver object with the condensed matrices and the prescribed values renewed, where needed. -/
noncomputable def renewed (D : ℕ → Prop) [DecidablePred D] (g : ℕ → ℝ) (surfaces : List (Surface ℝ))
    (s : SolverState ℝ) : SolverState ℝ :=
  open Classical in
  if Current inv e C dim s ∧ HeldOnContact e.ops.nodesCount dim D g surfaces s.vVector then s else
    { s with
      schur := if e.cls.isSchur then some (SchurSolver.init inv e.ops.nodesCount C dim false s.system) else none
      vVector := heldAt D g s.vVector }

theorem renewed_spec (D : ℕ → Prop) [DecidablePred D] (g : ℕ → ℝ) (surfaces : List (Surface ℝ))
    (s : SolverState ℝ) :
    Current inv e C dim (renewed inv e C dim D g surfaces s) ∧
    HeldOnContact e.ops.nodesCount dim D g surfaces (renewed inv e C dim D g surfaces s).vVector ∧
    (renewed inv e C dim D g surfaces s).system = s.system ∧
    (Current inv e C dim s ∧ HeldOnContact e.ops.nodesCount dim D g surfaces s.vVector →
      renewed inv e C dim D g surfaces s = s) := by
  by_cases h : Current inv e C dim s ∧ HeldOnContact e.ops.nodesCount dim D g surfaces s.vVector
  · have : renewed inv e C dim D g surfaces s = s := if_pos h
    rw [this]
    exact ⟨h.1, h.2, rfl, fun _ => rfl⟩
  · have : renewed inv e C dim D g surfaces s = { s with
        schur := if e.cls.isSchur then some (SchurSolver.init inv e.ops.nodesCount C dim false s.system) else none
        vVector := heldAt D g s.vVector } := if_neg h
    rw [this]
    exact ⟨rfl, fun σ _ node _ i _ hD => by simp [heldAt, hD], rfl, fun h' => absurd h' h⟩

end objects

/-- The solvers of a coupled problem as they are made by the constructors, with optimisers that find a
minimiser whenever there is one. The global method is used for the displacements only if no node of a
contact surface is held. -/
structure CoupledOptimising (e : CoupledEngine ℝ) (m m' : ContactSetting ℝ) (D : ℕ → Prop) : Prop where
  first : ∃ minimise, MinimiseContract minimise ∧ e.first.solve =
    optimisedSolve minimise m e.first.kind e.first.ops e.first.boundaries (2 * e.first.ops.nodesCount)
  second : ∃ minimise, MinimiseContract minimise ∧ e.second.solve =
    optimisedSolve minimise m' e.second.kind e.second.ops e.second.boundaries e.second.ops.nodesCount
  apart : e.first.cls.isSchur = false →
    ∀ s ∈ m.surfaces, ∀ node ∈ s.edge, ∀ i < 2, ¬ D (i * e.first.ops.nodesCount + node)

/-- C118: what `solve` of a coupled problem returns, with either method, is what solvers return that balance
the forces and solve the equations of the second field in every call. The supports do not move and may touch
the contact surfaces, if the method is the condensed one; the contact law is convex and depends on the
velocity only; nothing is exchanged on the boundary of the second field. -/
theorem C118_balanced {V : Type} (e : CoupledEngine ℝ)
    (hk : e.first.kind ≠ .quasistaticRelaxation) (hk' : e.second.kind ≠ .quasistaticRelaxation)
    (hdim : e.first.ops.dimension = 2) (hops : e.second.ops = e.first.ops)
    (hkind : e.first.kind.dimensionIn 2 = 2) (hkind' : e.second.kind.dimensionIn 2 = 1)
    (inv : ℕ → (ℕ → ℕ → ℝ) → ℕ → ℕ → ℝ) (hinv : InvContract inv)
    (m m' : ContactSetting ℝ) (hsqrt : m.sqrt = Real.sqrt)
    (j : ℝ → ℝ → ℝ → ℝ) (hj : ∀ a b c b' c', j a b c = j a b' c')
    (hconv : ∀ b c, Convex1 fun x => j x b c) (hcond : m.conditions = frictionless j)
    (hin : Inert m'.conditions)
    (D D' : ℕ → Prop) [DecidablePred D] [DecidablePred D'] (g : ℕ → ℝ)
    (hv : ValidBoundaries e.first.ops.nodesCount e.first.boundaries)
    (hd : DirichletData e.first.ops.nodesCount 2 e.first.boundaries D fun _ => 0)
    (hv' : ValidBoundaries e.first.ops.nodesCount e.second.boundaries)
    (hd' : DirichletData e.first.ops.nodesCount 1 e.second.boundaries D' g)
    (he : CoupledOptimising e m m' D) (C : ℕ) (hC : C ≤ e.first.ops.nodesCount)
    (hap : SupportsApart e.first.ops.nodesCount C 2 D m.surfaces)
    (hlhs : ∀ dt, 0 < dt → ∀ var lhs, var.timeStep = some dt →
      updateLhs e.first.ops var e.first.kind = .ok lhs →
      (∀ r < 2 * e.first.ops.nodesCount, ∀ s < 2 * e.first.ops.nodesCount, lhs r s = lhs s r) ∧
      ∀ x : ℕ → ℝ, Still (2 * e.first.ops.nodesCount) D x → (∃ r < 2 * e.first.ops.nodesCount, x r ≠ 0) →
        0 < quad (2 * e.first.ops.nodesCount) lhs x)
    (hlhs' : ∀ dt, 0 < dt → ∀ var lhs, var.timeStep = some dt →
      updateLhs e.first.ops var e.second.kind = .ok lhs →
      (∀ r < e.first.ops.nodesCount, ∀ s < e.first.ops.nodesCount, lhs r s = lhs s r) ∧
      ∀ x : ℕ → ℝ, Still e.first.ops.nodesCount D' x → (∃ r < e.first.ops.nodesCount, x r ≠ 0) →
        0 < quad e.first.ops.nodesCount lhs x) :
    ∃ s₁ s₂ : SolverState ℝ → (ℕ → ℝ) → ℕ → ℝ,
      (∀ dt, 0 < dt → ContactSolve (e.withSolve s₁ s₂).first (2 * e.first.ops.nodesCount) D dt (fun y =>
        contactCostFunctional Real.sqrt (frictionless j)
          (contactOf e.first.ops.nodesCount m.nodes m.surfaces 0 (fun _ => 0) fun _ => 0)
          ⟨2 * e.first.ops.nodesCount, y⟩)) ∧
      (∀ dt, 0 < dt → ExactSolve (e.withSolve s₁ s₂).second e.first.ops.nodesCount dt) ∧
      ∀ (fuel : ℕ) (dt : ℝ) (a : Engine.Arguments ℝ) (x : ℕ → ℝ) (first second : SolverState ℝ)
        (store : ProductStore ℝ V),
        solverInit inv e.first.cls e.first.kind e.first.ops e.first.boundaries C false dt = .ok first →
        solverInit inv e.second.cls e.second.kind e.second.ops e.second.boundaries C false dt = .ok second →
        HeldOnContact e.first.ops.nodesCount 2 D (fun _ => 0) m.surfaces
          (State.flatten e.first.grid a.initialVelocity) →
        e.solve fuel a x first second store = (e.withSolve s₁ s₂).solve fuel a x first second store := by
  obtain ⟨⟨minimise, hm, hsolve⟩, ⟨minimise', hm', hsolve'⟩, happ⟩ := he
  set N := e.first.ops.nodesCount with hN
  have hN' : e.second.ops.nodesCount = N := by rw [hops]
  have hdim' : e.second.ops.dimension = 2 := by rw [hops, hdim]
  let r₁ := renewed inv e.first C 2 D (fun _ => (0 : ℝ)) m.surfaces
  let r₂ := renewed inv e.second C 1 (fun _ => False) (fun _ => (0 : ℝ)) ([] : List (Surface ℝ))
  refine ⟨fun S guess => e.first.solve (r₁ S) guess, fun S guess => e.second.solve (r₂ S) guess, ?_, ?_, ?_⟩
  · intro dt hdt0 S guess var hdt hu
    obtain ⟨m1, m2, m3, -⟩ := renewed_spec inv e.first C 2 D (fun _ => (0 : ℝ)) m.surfaces S
    obtain ⟨lhs, rhs, h2, -, h3⟩ := update_eliminated _ _ _ _ _ hu
    change S.system = applyDirichlet N (e.first.kind.dimensionIn e.first.ops.dimension) e.first.boundaries _ at h3
    rw [hdim, hkind] at h3
    obtain ⟨hA, hpos⟩ := hlhs dt hdt0 var lhs hdt h2
    have key : HeldMinimiser (2 * N) D (fun _ => 0) (fun y => costFunctional m.sqrt m.conditions
        (contactArguments m e.first.kind e.first.ops (r₁ S)) (2 * N) lhs rhs ⟨2 * N, y⟩)
        (optimisedSolve minimise m e.first.kind e.first.ops e.first.boundaries (2 * N) (r₁ S) guess) := by
      have hcv : ∀ σ ∈ m.surfaces, ∀ sn st,
          ConvexVec (density m.conditions 2 σ.normal sn st (r₁ S).timeStep) := fun σ _ sn st => by
        rw [hcond]; exact C48_density_convex j _ _ _ _ _ (hconv sn _)
      cases hcls : e.first.cls.isSchur with
      | true =>
        exact C111_solve inv hinv minimise hm m hsqrt e.first.kind e.first.ops hdim hkind e.first.boundaries D _
          hv hd C hC hap (r₁ S) hcv ⟨by unfold Current at m1; rw [hcls] at m1; exact m1, m2⟩
          ⟨lhs, rhs⟩ (m3.trans h3) hA hpos _ guess
      | false =>
        exact C112_global_solve minimise hm m hsqrt e.first.kind e.first.ops hdim hkind e.first.boundaries D _
          hv hd (happ hcls) (r₁ S) (by unfold Current at m1; rw [hcls] at m1; exact m1) hcv ⟨lhs, rhs⟩
          (m3.trans h3) hA hpos guess
    rw [contactArguments_eq m e.first.kind e.first.ops hdim hkind, hsqrt, hcond, ← hsolve] at key
    have hc := held_contact N e.first.boundaries D
      (contactOf N m.nodes m.surfaces 0 (fun _ => 0) fun _ => 0) (by simp [contactOf]) hv hd lhs rhs hA j hj hconv
      (fun s hs node hnode => by rcases hap s hs node hnode with h | h <;> omega)
      (contactOf N m.nodes m.surfaces (r₁ S).timeStep (r₁ S).uVector (r₁ S).vVector)
      rfl rfl rfl _ key
    rw [h3]
    exact hc
  · intro dt hdt0 S guess var hdt hu
    obtain ⟨m1, -, m3, -⟩ := renewed_spec inv e.second C 1 (fun _ => False) (fun _ => (0 : ℝ))
      ([] : List (Surface ℝ)) S
    obtain ⟨lhs, rhs, h2, -, h3⟩ := update_eliminated _ _ _ _ _ hu
    change S.system = applyDirichlet e.second.ops.nodesCount
      (e.second.kind.dimensionIn e.second.ops.dimension) e.second.boundaries _ at h3
    change updateLhs e.second.ops var e.second.kind = _ at h2
    rw [hops] at h2
    rw [hdim', hkind'] at h3
    obtain ⟨hA, hpos⟩ := hlhs' dt hdt0 var lhs hdt h2
    change Solves N S.system (e.second.solve (r₂ S) guess)
    rw [hsolve', ← hN', ← m3]
    refine C118_scalar_solve inv hinv minimise' hm' m' hin e.second.kind e.second.ops
      (by rw [hdim', hkind']) e.second.boundaries D' g (by rw [hN']; exact hv') (by rw [hN']; exact hd') C
      (by rw [hN']; exact hC) (r₂ S) ?_ ⟨lhs, rhs⟩ (m3.trans h3) (by rw [hN']; exact hA)
      (by rw [hN']; exact hpos) guess
    change Current inv e.second C 1 (r₂ S) at m1
    unfold Current at m1
    cases hcls : e.second.cls.isSchur with
    | true => rw [hcls] at m1; exact Or.inr m1
    | false => rw [hcls] at m1; exact Or.inl m1
  · intro fuel dt a x first second store hi hi' ha
    have hheld : ∀ S guess, HeldOnContact N 2 D (fun _ => 0) m.surfaces (e.first.solve S guess) := by
      intro S guess σ _ node _ i _ hD
      rw [hsolve]
      unfold optimisedSolve
      rw [hdim, hkind, C16_solution_satisfies_dirichlet N 2 e.first.boundaries D (fun _ => 0) _ _ hv hd,
        if_pos hD]
    have K1 : Kept e.first (fun s => (Current inv e.first C 2 s ∧
        HeldOnContact N 2 D (fun _ => 0) m.surfaces s.vVector) ∧ Updated e.first s)
        (HeldOnContact N 2 D (fun _ => 0) m.surfaces) := by
      refine ⟨fun s s' var ⟨⟨p1, p2⟩, p3⟩ ht h => ?_, fun s t h => h, fun s u v x ⟨⟨p1, _⟩, p3⟩ q => ⟨⟨p1, q⟩, p3⟩⟩
      obtain ⟨q1, q2, q3⟩ := current_update inv e.first C 2 hk s s' var p1 p3 ht h
      exact ⟨⟨q1, by rw [q3]; exact p2⟩, q2⟩
    have K2 : Kept e.second (fun s => Current inv e.second C 1 s ∧ Updated e.second s)
        (HeldOnContact N 2 D (fun _ => 0) m.surfaces) := by
      refine ⟨fun s s' var ⟨p1, p3⟩ ht h => ?_, fun s t h => h, fun s u v x p q => p⟩
      obtain ⟨q1, q2, _⟩ := current_update inv e.second C 1 hk' s s' var p1 p3 ht h
      exact ⟨q1, q2⟩
    unfold CoupledEngine.solve
    change (e.start a x first second).bind _ = (e.start a x first second).bind _
    cases hs : e.start a x first second with
    | error err => rfl
    | ok q =>
      obtain ⟨c1, c2, -, -⟩ := current_init inv e.first C 2 (by rw [hdim, hkind]) dt first hi
      obtain ⟨c1', c2', -, -⟩ := current_init inv e.second C 1 (by rw [hdim', hkind']) dt second hi'
      have hstart : ((Current inv e.first C 2 q.1.first ∧
          HeldOnContact N 2 D (fun _ => 0) m.surfaces q.1.first.vVector) ∧ Updated e.first q.1.first) ∧
          Current inv e.second C 1 q.1.second ∧ Updated e.second q.1.second := by
        dsimp only [CoupledEngine.start] at hs
        obtain ⟨f, hf, hs⟩ := bind_inv _ _ _ hs
        obtain ⟨f', hf', hs⟩ := bind_inv _ _ _ hs
        cases hs
        have w1 := current_iterate inv e.first C 2 hk _ _ (by
          cases hst : e.stateKind <;> simp only [hst] at * <;> exact c1) (by
          cases hst : e.stateKind <;> simp only [hst] at * <;> exact c2) hf
        have w2 := current_iterate inv e.second C 1 hk' _ _ (by
          cases hst : e.stateKind <;> simp only [hst] at * <;> exact c1') (by
          cases hst : e.stateKind <;> simp only [hst] at * <;> exact c2') hf'
        refine ⟨⟨⟨w1.1, ?_⟩, w1.2.1⟩, w2.1, w2.2.1⟩
        rw [w1.2.2]
        have : (State.setScalar { State.new e.first.grid e.stateKind with
            displacement := a.initialDisplacement, velocity := a.initialVelocity } x).velocity =
            a.initialVelocity := by
          unfold State.setScalar; split <;> rfl
        cases hst : e.stateKind <;> simp only [hst] at this ⊢ <;> rw [this] <;> exact ha
      refine (coupled_outputs_same e _ _ _ _ _ (fun s hp guess => ?_) (fun s hp guess => ?_) K1 K2 hheld fuel _
        ⟨q.1, q.2, store⟩ hstart.1 hstart.2).symm
      · beta_reduce
        rw [show r₁ s = s from (renewed_spec inv e.first C 2 D (fun _ => (0 : ℝ)) m.surfaces s).2.2.2 hp.1]
      · beta_reduce
        rw [show r₂ s = s from (renewed_spec inv e.second C 1 (fun _ => False) (fun _ => (0 : ℝ))
          ([] : List (Surface ℝ)) s).2.2.2 ⟨hp.1, fun σ hσ => by simp at hσ⟩]

end Conmech
