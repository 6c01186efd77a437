import Verif.Props.Coupled
import Verif.Props.Solvers
/-!
C60: the times at which the body forces are evaluated. A force enters a step only through the system
computed by `statement.update`, so the statements say which variables, including the time, were given
to the update whose system is solved in a step.
-/
namespace Conmech
open Spec

variable {K : Type} [Field K] [DecidableEq K] {V : Type}

/-- A simulation at the beginning of a step: the solver has just iterated, and its vectors are those
of the state. -/
structure Ready (e : Engine K) (sim : Simulation K V) : Prop where
  iterated : ∃ s, e.iterate s = .ok sim.solver
  displacement : sim.solver.uVector = State.flatten e.grid sim.state.displacement

theorem iterate_current {c : ProblemClass} (e : Engine K) (h : Registered c e.cls e.kind)
    (hne : e.cls ≠ .direct) (hst : e.kind ≠ .staticDisplacement ∧ e.kind ≠ .staticPoisson)
    (s s' : SolverState K) (hs : e.iterate s = .ok s') :
    e.kind.update e.ops e.boundaries (currentVariables s') = .ok s'.system := by
  unfold Engine.iterate at hs
  cases h1 : s.iterate e.cls e.kind e.ops e.boundaries with
  | error err => rw [h1] at hs; cases hs
  | ok x =>
    rw [h1] at hs
    cases hs
    obtain ⟨h2, h3⟩ := C61_current_system_partial e.ops e.boundaries c e.cls e.kind h hne hst s s' h1
    rw [h3]; exact h2

theorem ready_step (e : Engine K) (c : Coordinates) (sim sim' : Simulation K V)
    (h : e.step c sim = .ok sim') : Ready e sim' := by
  obtain ⟨solver, h1, _, h3⟩ := (e.step_ok_iff _ _ _).1 h
  refine ⟨⟨_, h3⟩, ?_⟩
  cases c with
  | velocity => exact (velocity_step e _ _ h).2.2.2.2.2.1
  | displacement => exact (displacement_step e _ _ h).2.2.2.2.2.1
  | temperature => cases h1

/-- Problems in velocities. The `k`-th step of a run solves the system updated with the displacement
of the state after `k` steps and with the time `t₀ + k·dt`, that is the time at the beginning of the
step. (Not for the direct solver, see `C60_direct_wrong`.) -/
theorem C60_velocity_partial {c : ProblemClass} (e : Engine K) (hr : Registered c e.cls e.kind)
    (hne : e.cls ≠ .direct) (hst : e.kind ≠ .staticDisplacement ∧ e.kind ≠ .staticPoisson) (n : ℕ)
    (traj : ℕ → Simulation K V) (h : Follows (e.step .velocity) n traj) (h0 : Ready e (traj 0))
    (hv : (traj 0).solver.vVector = State.flatten e.grid (traj 0).state.velocity)
    (k : ℕ) (hk : k < n) :
    ∃ S : SolverState K,
      e.kind.update e.ops e.boundaries
        { absement := some (traj 0).solver.bVector
          displacement := some (State.flatten e.grid (traj k).state.displacement)
          velocity := some (State.flatten e.grid (traj k).state.velocity)
          temperature := some (traj 0).solver.tVector
          electricPotential := some (traj 0).solver.pVector
          timeStep := some (traj 0).solver.timeStep
          time := some ((traj 0).solver.currentTime + k * (traj 0).solver.timeStep) } = .ok S.system ∧
      (traj (k + 1)).state.velocity =
        State.unflatten e.grid (e.solve S (State.flatten e.grid (traj k).state.velocity)) := by
  have inv : ∀ k ≤ n, Ready e (traj k) ∧
      (traj k).solver.vVector = State.flatten e.grid (traj k).state.velocity ∧
      (traj k).solver.timeStep = (traj 0).solver.timeStep ∧
      (traj k).solver.bVector = (traj 0).solver.bVector ∧
      (traj k).solver.tVector = (traj 0).solver.tVector ∧
      (traj k).solver.pVector = (traj 0).solver.pVector ∧
      (traj k).solver.currentTime =
        (traj 0).solver.currentTime + k * (traj 0).solver.timeStep := by
    intro k
    induction k with
    | zero => intro _; exact ⟨h0, hv, rfl, rfl, rfl, rfl, by simp⟩
    | succ k ih =>
      intro hk
      obtain ⟨_, _, i3, i4, i5, i6, i7⟩ := ih (by omega)
      have hs := h k (by omega)
      obtain ⟨_, s2, s3, _, _, _, s7, _⟩ := velocity_step e _ _ hs
      obtain ⟨solver, h1, _, h3⟩ := (e.step_ok_iff _ _ _).1 hs
      have hit := e.iterate_ok _ _ h3
      simp only [Engine.advance, Option.some.injEq, Prod.mk.injEq] at h1
      have hb : (traj (k + 1)).solver.bVector = (traj k).solver.bVector ∧
          (traj (k + 1)).solver.tVector = (traj k).solver.tVector ∧
          (traj (k + 1)).solver.pVector = (traj k).solver.pVector := by
        rw [hit, ← h1.2]; exact ⟨rfl, rfl, rfl⟩
      refine ⟨ready_step e _ _ _ hs, s7, s3.trans i3, hb.1.trans i4, hb.2.1.trans i5,
        hb.2.2.trans i6, ?_⟩
      rw [s2, i7, i3]; push_cast; ring
  obtain ⟨⟨⟨s, hs⟩, hd⟩, i2, i3, i4, i5, i6, i7⟩ := inv k (by omega)
  obtain ⟨solver, h1, _, h3⟩ := (e.step_ok_iff _ _ _).1 (h k hk)
  simp only [Engine.advance, Option.some.injEq, Prod.mk.injEq] at h1
  refine ⟨{ (traj k).solver with
      currentTime := (traj k).solver.currentTime + (traj k).solver.timeStep }, ?_, ?_⟩
  · rw [← iterate_current e hr hne hst s _ hs]
    unfold currentVariables
    rw [i2, i3, i4, i5, i6, i7, hd]
  · rw [← h1.1]; rfl

/-- Problems in displacements (quasistatic relaxation). -/
theorem C60_displacement_partial {c : ProblemClass} (e : Engine K) (hr : Registered c e.cls e.kind)
    (hne : e.cls ≠ .direct) (hst : e.kind ≠ .staticDisplacement ∧ e.kind ≠ .staticPoisson) (n : ℕ)
    (traj : ℕ → Simulation K V) (h : Follows (e.step .displacement) n traj) (h0 : Ready e (traj 0))
    (hb : (traj 0).solver.bVector = State.flatten e.grid (traj 0).state.absement)
    (k : ℕ) (hk : k < n) :
    ∃ S : SolverState K,
      e.kind.update e.ops e.boundaries
        { absement := some (State.flatten e.grid (traj k).state.absement)
          displacement := some (State.flatten e.grid (traj k).state.displacement)
          velocity := some (traj 0).solver.vVector
          temperature := some (traj 0).solver.tVector
          electricPotential := some (traj 0).solver.pVector
          timeStep := some (traj 0).solver.timeStep
          time := some ((traj 0).solver.currentTime + k * (traj 0).solver.timeStep) } = .ok S.system ∧
      (traj (k + 1)).state.displacement =
        State.unflatten e.grid (e.solve S (State.flatten e.grid (traj k).state.displacement)) := by
  have inv : ∀ k ≤ n, Ready e (traj k) ∧
      (traj k).solver.bVector = State.flatten e.grid (traj k).state.absement ∧
      (traj k).solver.timeStep = (traj 0).solver.timeStep ∧
      (traj k).solver.vVector = (traj 0).solver.vVector ∧
      (traj k).solver.tVector = (traj 0).solver.tVector ∧
      (traj k).solver.pVector = (traj 0).solver.pVector ∧
      (traj k).solver.currentTime =
        (traj 0).solver.currentTime + k * (traj 0).solver.timeStep := by
    intro k
    induction k with
    | zero => intro _; exact ⟨h0, hb, rfl, rfl, rfl, rfl, by simp⟩
    | succ k ih =>
      intro hk
      obtain ⟨_, _, i3, i4, i5, i6, i7⟩ := ih (by omega)
      have hs := h k (by omega)
      obtain ⟨_, s2, s3, _, _, _, s7⟩ := displacement_step e _ _ hs
      obtain ⟨solver, h1, _, h3⟩ := (e.step_ok_iff _ _ _).1 hs
      have hit := e.iterate_ok _ _ h3
      simp only [Engine.advance, Option.some.injEq, Prod.mk.injEq] at h1
      have hb : (traj (k + 1)).solver.vVector = (traj k).solver.vVector ∧
          (traj (k + 1)).solver.tVector = (traj k).solver.tVector ∧
          (traj (k + 1)).solver.pVector = (traj k).solver.pVector := by
        rw [hit, ← h1.2]; exact ⟨rfl, rfl, rfl⟩
      refine ⟨ready_step e _ _ _ hs, s7, s3.trans i3, hb.1.trans i4, hb.2.1.trans i5,
        hb.2.2.trans i6, ?_⟩
      rw [s2, i7, i3]; push_cast; ring
  obtain ⟨⟨⟨s, hs⟩, hd⟩, i2, i3, i4, i5, i6, i7⟩ := inv k (by omega)
  obtain ⟨solver, h1, _, h3⟩ := (e.step_ok_iff _ _ _).1 (h k hk)
  simp only [Engine.advance, Option.some.injEq, Prod.mk.injEq] at h1
  refine ⟨{ (traj k).solver with
      currentTime := (traj k).solver.currentTime + (traj k).solver.timeStep }, ?_, ?_⟩
  · rw [← iterate_current e hr hne hst s _ hs]
    unfold currentVariables
    rw [i2, i3, i4, i5, i6, i7, hd]
  · rw [← h1.1]; rfl

/-- `solve` of time-dependent and wave problems starts the loop with a simulation that meets the
hypotheses of `C60_velocity_partial`, whatever the arguments, and so do the following pieces of a run
with several outputs, which start where the previous one ended. -/
theorem C60_ready (e : Engine K) (a : Engine.Arguments K) (solver : SolverState K)
    (store : ProductStore K V) (sim : Simulation K V) :
    (e.timeDependentStart a solver store = .ok sim → Ready e sim ∧
      sim.solver.vVector = State.flatten e.grid sim.state.velocity ∧
      sim.solver.currentTime = solver.currentTime ∧ sim.solver.timeStep = solver.timeStep) ∧
    (∀ resume, e.waveStart a resume solver store = .ok sim → Ready e sim ∧
      sim.solver.vVector = State.flatten e.grid sim.state.velocity ∧
      sim.solver.currentTime = sim.state.time ∧ sim.solver.timeStep = solver.timeStep) ∧
    (e.relaxationStart a solver store = .ok sim → Ready e sim ∧
      sim.solver.bVector = State.flatten e.grid sim.state.absement ∧
      sim.solver.currentTime = solver.currentTime ∧ sim.solver.timeStep = solver.timeStep) := by
  refine ⟨fun h => ?_, fun resume h => ?_, fun h => ?_⟩
  all_goals
    obtain ⟨s, h1, rfl⟩ := ok_of_bind _ _ _ h
    have hit := e.iterate_ok _ _ h1
    refine ⟨⟨⟨_, h1⟩, ?_⟩, ?_, ?_, ?_⟩ <;> (simp only; rw [hit])

/-- The direct solver: every step of every run solves the system computed when the solver was
constructed, with the force at time zero; no later time is ever used. -/
theorem C60_direct_wrong (e : Engine K) (hd : e.cls = .direct) (c : Coordinates) (n : ℕ)
    (traj : ℕ → Simulation K V) (h : Follows (e.step c) n traj) :
    (∀ k ≤ n, (traj k).solver.system = (traj 0).solver.system) ∧
    (∀ s s', e.iterate s = .ok s' → s'.system = s.system) ∧
    (∀ inv m dv dt s, solverInit inv .direct e.kind e.ops e.boundaries m dv dt = .ok s →
      e.kind.update e.ops e.boundaries
        { absement := some fun _ => 0, displacement := some fun _ => 0, velocity := some fun _ => 0
          temperature := some fun _ => 0, electricPotential := some fun _ => 0
          timeStep := some dt, time := some 0 } = .ok s.system) := by
  have hi : ∀ s s', e.iterate s = .ok s' → s'.system = s.system := by
    intro s s' hs
    simp only [Engine.iterate, SolverState.iterate, hd, SolverClass.iterateVariables,
      liftStatement, Except.ok.injEq] at hs
    rw [hs]
  refine ⟨fun k => ?_, hi, fun inv m dv dt s hs => ?_⟩
  · induction k with
    | zero => intro _; rfl
    | succ k ih =>
      intro hk
      obtain ⟨solver, h1, _, h3⟩ := (e.step_ok_iff _ _ _).1 (h k (by omega))
      rw [hi _ _ h3]
      cases c <;> simp only [Engine.advance, Option.some.injEq, Prod.mk.injEq, reduceCtorEq] at h1
      · rw [← h1.2]; exact ih (by omega)
      · rw [← h1.2]; exact ih (by omega)
  · simp only [solverInit, bind, Except.bind] at hs
    split at hs
    · cases hs
    · rename_i S hS
      cases hs
      exact hS

/-! ### Coupled problems -/

/-- The passes of one iteration between mechanics and the second field, all with the displacement
`u`, velocity `v`, temperature `θ` and potential `p` of the beginning of the step and with time `t`. -/
structure Passes (e : CoupledEngine K) (u v θ p : ℕ → K) (dt dt' t : K) (n : ℕ)
    (it : ℕ → Coupled K) : Prop where
  first : ∀ i < n, e.first.kind.update e.first.ops e.first.boundaries
    { displacement := some u, velocity := some v, temperature := some (it i).solutionT
      electricPotential := some (it i).solutionT, timeStep := some dt, time := some t } =
        .ok (it (i + 1)).first.system
  solution : ∀ i < n, (it (i + 1)).solution = e.first.solve (it (i + 1)).first (it i).solution
  second : ∀ i < n, e.second.kind.update e.second.ops e.second.boundaries
    { displacement := some fun k => u k + dt * (it (i + 1)).solution k
      velocity := some (it (i + 1)).solution, temperature := some θ, electricPotential := some p
      timeStep := some dt' } = .ok (it (i + 1)).second.system
  solutionT : ∀ i < n,
    (it (i + 1)).solutionT = e.second.solve (it (i + 1)).second (it i).solutionT

theorem loop_passes (e : CoupledEngine K) (oldU oldV oldT oldP : ℕ → K) (fuel : ℕ) (fuse mn : ℤ)
    (large : Bool) (p : ℕ) (c c' : Coupled K) (n : ℕ)
    (h : e.loop oldU oldV oldT oldP fuel fuse mn large p c = .ok (c', n)) :
    ∃ it, Passes e oldU oldV oldT oldP c.first.timeStep c.second.timeStep c.first.currentTime (n - p) it ∧
      it 0 = c ∧ it (n - p) = c' ∧ p ≤ n := by
  induction fuel generalizing fuse mn large p c with
  | zero => simp [CoupledEngine.loop] at h
  | succ fuel ih =>
    rw [CoupledEngine.loop] at h
    split_ifs at h with hc
    · simp only [bind, Except.bind] at h
      cases h1 : e.pass oldU oldV oldT oldP c with
      | error err => simp [h1] at h
      | ok c1 =>
        simp only [h1] at h
        obtain ⟨it, hp, h3, h4, h5⟩ := ih _ _ _ _ _ h
        obtain ⟨⟨S, hS, hS1⟩, hsol, ⟨S', hS', hS'1⟩, hsolT⟩ := CoupledEngine.pass_ok e _ _ _ _ _ _ h1
        have g1 : c1.first.timeStep = c.first.timeStep := by rw [hS1]
        have g2 : c1.second.timeStep = c.second.timeStep := by rw [hS'1]
        have g3 : c1.first.currentTime = c.first.currentTime := by rw [hS1]
        rw [g1, g2, g3] at hp
        have hn : n - p = n - (p + 1) + 1 := by omega
        refine ⟨fun i => match i with | 0 => c | i + 1 => it i, ?_, rfl, ?_, by omega⟩
        · rw [hn]
          refine ⟨fun i hi => ?_, fun i hi => ?_, fun i hi => ?_, fun i hi => ?_⟩
          all_goals
            cases i with
            | zero => simp only [h3]
                      first
                        | exact hsol
                        | exact hsolT
                        | (rw [hS, hS1])
                        | (rw [hS', hS'1])
            | succ i =>
              first
                | exact hp.solution i (by omega)
                | exact hp.solutionT i (by omega)
                | exact hp.first i (by omega)
                | exact hp.second i (by omega)
        · rw [hn]; exact h4
    · simp only [pure, Except.pure, Except.ok.injEq, Prod.mk.injEq] at h
      obtain ⟨rfl, rfl⟩ := h
      refine ⟨fun _ => c, ?_, rfl, rfl, le_refl _⟩
      rw [Nat.sub_self]
      constructor <;> intro i hi <;> omega

/-- Coupled problems. In the step number `k` between five and ten passes are made; in all of them the
system of the mechanical part is updated with the displacement and velocity of the beginning of the
step and with the time `t₀ + (k+1)·dt`, the time at the end of the step. -/
theorem C60_coupled (e : CoupledEngine K) (fuel n : ℕ) (traj : ℕ → CoupledEngine.Run K V)
    (h : Follows (e.step fuel) n traj) (k : ℕ) (hk : k < n) :
    ∃ m it, 5 ≤ m ∧ m ≤ 10 ∧
      Passes e (traj k).coupled.first.uVector (traj k).coupled.first.vVector
        (traj k).coupled.first.tVector (traj k).coupled.first.pVector
        (traj 0).coupled.first.timeStep (traj 0).coupled.second.timeStep
        ((traj 0).coupled.first.currentTime + (k + 1) * (traj 0).coupled.first.timeStep) m it ∧
      (it 0).solution = (traj k).coupled.solution ∧
      (it 0).solutionT = (traj k).coupled.solutionT ∧
      (traj (k + 1)).state.velocity = State.unflatten e.first.grid (it m).solution ∧
      (traj (k + 1)).coupled.solutionT = (it m).solutionT := by
  have inv : ∀ k ≤ n, (traj k).coupled.first.timeStep = (traj 0).coupled.first.timeStep ∧
      (traj k).coupled.second.timeStep = (traj 0).coupled.second.timeStep ∧
      (traj k).coupled.first.currentTime =
        (traj 0).coupled.first.currentTime + k * (traj 0).coupled.first.timeStep := by
    intro k
    induction k with
    | zero => intro _; simp
    | succ k ih =>
      intro hk
      obtain ⟨i1, i2, i3⟩ := ih (by omega)
      obtain ⟨_, s2, _, s4, s5, _⟩ := coupled_step e fuel _ _ (h k (by omega))
      refine ⟨s4.trans i1, s5.trans i2, ?_⟩
      rw [s2, i3, i1]; push_cast; ring
  obtain ⟨i1, i2, i3⟩ := inv k (by omega)
  have hs := h k hk
  have hv := (coupled_step e fuel _ _ hs).2.2.2.2.2.2.2.1
  simp only [CoupledEngine.step, bind, Except.bind] at hs
  split at hs
  · cases hs
  · rename_i c1 h1
    obtain ⟨m5, m10⟩ := C40_passes e fuel _ c1.1 c1.2 h1
    simp only [CoupledEngine.findSolutionUzawa, bind, Except.bind] at h1
    split at h1
    · cases h1
    · rename_i r hr
      obtain ⟨it, hp, hi0, him, _⟩ := loop_passes e _ _ _ _ _ _ _ _ _ _ r.1 r.2 hr
      simp only [pure, Except.pure, Except.ok.injEq] at h1
      have hm : c1.2 = r.2 := by rw [← h1]
      rw [Nat.sub_zero] at hp him
      simp only [i1, i2, i3] at hp
      split at hs
      · cases hs
      · rename_i q hq
        have hs' := Except.ok.inj hs
        refine ⟨r.2, it, hm ▸ m5, hm ▸ m10, ?_, by rw [hi0], by rw [hi0], ?_, ?_⟩
        · have : (traj 0).coupled.first.currentTime + k * (traj 0).coupled.first.timeStep +
              (traj 0).coupled.first.timeStep =
              (traj 0).coupled.first.currentTime + (k + 1) * (traj 0).coupled.first.timeStep := by
            ring
          rw [this] at hp
          exact hp
        · rw [hv, him, ← hs', ← h1]; rfl
        · rw [him, ← hs', ← h1]; rfl

/-! ### Instances -/

/-- Two fields on one node. The residual is large as long as the solution is less than `bound`; each
pass adds one to the solution. -/
def pairEngine (bound : ℚ) : CoupledEngine ℚ where
  first := { lineEngine with
    cls := .dynamicGlobal, kind := .dynamicVelocityWithTemperature, solve := fun _ x i => x i + 1 }
  second := { lineEngine with
    cls := .dynamicGlobal, kind := .temperature, solve := fun s x i => x i + s.system.rhs i }
  stateKind := .temperature
  exceeds := fun x _ _ _ => decide (x 0 < bound)

def pairStart : Coupled ℚ :=
  { first := lineSolver, second := lineSolver, solution := fun _ => 0, solutionT := fun _ => 0 }

/-- The number of passes and the velocity and displacement on exit. -/
def passSummary (r : Except (RunError StatementError) (Coupled ℚ × ℕ)) : Option (ℕ × ℚ × ℚ) :=
  match r with
  | .ok (c, n) => some (n, c.solution 0, c.first.uVector 0)
  | .error _ => none

/-- All numbers of passes between five and ten occur: residuals that are always small give five
passes, residuals that are never small give ten. -/
example : passSummary ((pairEngine 0).findSolutionUzawa 11 pairStart) = some (5, 5, 5 / 2) ∧
    passSummary ((pairEngine 7).findSolutionUzawa 11 pairStart) = some (7, 7, 7 / 2) ∧
    passSummary ((pairEngine 1000).findSolutionUzawa 11 pairStart) = some (10, 10, 5) ∧
    passSummary ((pairEngine 1000).findSolutionUzawa 10 pairStart) = none := by
  decide +kernel

/-- A coupled solve with several outputs: times and displacements. -/
example : (match (pairEngine 0).solve (V := ℚ) 11 (lineArguments [0, 1, 3]) (fun _ => 0) lineSolver
      lineSolver lineStore with
    | .ok (rs, _) => rs.map fun s => (s.time, s.velocity 0 0, s.displacement 0 0)
    | .error _ => []) = [(0, 0, 1), (1 / 2, 5, 7 / 2), (3 / 2, 15, 16)] := by
  decide +kernel

/-- A second solve with the solvers left by the first one: the displacement of the state is advanced
by four times the velocity in the first step of length one half. -/
example : (match (pairEngine 0).solve (V := ℚ) 11 (lineArguments [1]) (fun _ => 0)
      { lineSolver with currentTime := 7 / 2 } { lineSolver with currentTime := 7 / 2 } lineStore with
    | .ok (rs, r) => rs.map fun s =>
      (s.time, s.velocity 0 0, s.displacement 0 0, r.coupled.first.uVector 0)
    | .error _ => []) = [(4, 5, 21, 7 / 2)] := by
  decide +kernel

/-- The hypotheses of `C60_velocity_partial` are met by runs of the wave problem. -/
example : Registered .WaveProblem lineEngine.cls lineEngine.kind ∧ lineEngine.cls ≠ .direct ∧
    ∃ sim : Simulation ℚ ℚ, lineEngine.waveStart (lineArguments []) none lineSolver lineStore = .ok sim ∧
      ∃ sim', lineEngine.steps .velocity 3 sim = .ok sim' := by
  refine ⟨⟨⟨.dynamic, ?_, ?_⟩, .inl ?_⟩, by decide, _, rfl, _, rfl⟩
  · simp only [dynamismOf, isInstance_eq]; decide +kernel
  · decide +kernel
  · simp only [ProblemClass.statement, mro_eq]; decide +kernel

end Conmech
