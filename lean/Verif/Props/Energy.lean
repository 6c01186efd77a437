import Verif.Lemmas.Energy
import Verif.Props.Cost
/-!
C71: simulations without time-dependent loads never gain energy.

`D` is the set of constrained degrees of freedom; the prescribed velocities are zero.
-/
namespace Conmech
open Spec

/-! ### Whole runs -/

section runs
variable {K : Type} [Field K] [DecidableEq K] {V : Type}

/-- A relation respected by all steps holds between the initial state and the states returned by
`TimeDependentSolver.solve`. -/
theorem timeDependent_relation (e : Engine K) (a : Engine.Arguments K) (solver : SolverState K)
    (store : ProductStore K V) (hc : solver.currentTime = 0) (R : Snapshot K → Snapshot K → Prop)
    (hrefl : ∀ s, R s s) (htrans : ∀ a b c, R a b → R b c → R a c)
    (hstep : ∀ sim sim' : Simulation K V,
      Between e solver.timeStep sim.solver sim.state.toSnapshot → e.step .velocity sim = .ok sim' →
      Between e solver.timeStep sim'.solver sim'.state.toSnapshot ∧
      R sim.state.toSnapshot sim'.state.toSnapshot)
    (rs : List (State K)) (sim : Simulation K V)
    (h : e.timeDependentSolve a solver store = .ok (rs, sim)) :
    List.Pairwise R ({ (State.new e.grid .plain).toSnapshot with
        displacement := a.initialDisplacement, velocity := a.initialVelocity } ::
      rs.map fun s => s.toSnapshot) := by
  rw [Engine.timeDependentSolve_eq] at h
  cases hs : e.timeDependentStart a solver store with
  | error err => simp [hs, Except.bind] at h
  | ok s0 =>
    rw [hs] at h
    obtain ⟨s, h1, rfl⟩ := ok_of_bind _ _ _ hs
    have hit := e.iterate_ok _ _ h1
    exact (outputs_relation e .velocity a.products (Between e solver.timeStep) R hrefl htrans hstep _ _
      _ _ ⟨⟨_, h1⟩, by rw [hit], by rw [hit], by rw [hit]; exact hc.symm, by rw [hit]⟩ h).2.2

/-- The state from which `WaveSolver.solve` starts. -/
def waveInitial (e : Engine K) (a : Engine.Arguments K) : Option (State K) → Snapshot K
  | none => { (State.new e.grid .plain).toSnapshot with
      displacement := a.initialDisplacement, velocity := a.initialVelocity }
  | some s => s.toSnapshot

/-- The same for `WaveSolver.solve`, from the beginning or resumed. -/
theorem wave_relation (e : Engine K) (a : Engine.Arguments K) (resume : Option (State K))
    (solver : SolverState K) (store : ProductStore K V) (R : Snapshot K → Snapshot K → Prop)
    (hrefl : ∀ s, R s s) (htrans : ∀ a b c, R a b → R b c → R a c)
    (hstep : ∀ sim sim' : Simulation K V,
      Between e solver.timeStep sim.solver sim.state.toSnapshot → e.step .velocity sim = .ok sim' →
      Between e solver.timeStep sim'.solver sim'.state.toSnapshot ∧
      R sim.state.toSnapshot sim'.state.toSnapshot)
    (rs : List (State K)) (sim : Simulation K V)
    (h : e.waveSolve a resume solver store = .ok (rs, sim)) :
    List.Pairwise R (waveInitial e a resume :: rs.map fun s => s.toSnapshot) := by
  rw [Engine.waveSolve_eq] at h
  cases hs : e.waveStart a resume solver store with
  | error err => simp [hs, Except.bind] at h
  | ok s0 =>
    rw [hs] at h
    cases resume with
    | none =>
      obtain ⟨s, h1, rfl⟩ := ok_of_bind _ _ _ hs
      have hit := e.iterate_ok _ _ h1
      exact (outputs_relation e .velocity a.products (Between e solver.timeStep) R hrefl htrans hstep
        _ _ _ _ ⟨⟨_, h1⟩, by rw [hit], by rw [hit], by rw [hit], by rw [hit]⟩ h).2.2
    | some r =>
      obtain ⟨s, h1, rfl⟩ := ok_of_bind _ _ _ hs
      have hit := e.iterate_ok _ _ h1
      exact (outputs_relation e .velocity a.products (Between e solver.timeStep) R hrefl htrans hstep
        _ _ _ _ ⟨⟨_, h1⟩, by rw [hit], by rw [hit], by rw [hit], by rw [hit]⟩ h).2.2

omit [DecidableEq K] in
theorem flatten_unflatten (g : Grid K) (x : ℕ → K) : State.flatten g (State.unflatten g x) = x := by
  funext k
  simp only [State.flatten, State.unflatten]
  rw [Nat.div_add_mod']

omit [DecidableEq K] in
/-- The residual of the dynamic system. -/
theorem dynamic_residual (n r : ℕ) (u v0 v F : ℕ → K) (dt : K) (A B M : ℕ → ℕ → K) :
    ∑ s ∈ Finset.range n, (A r s + 1 / dt * M r s + B r s * dt) * v s -
      (F r + (matVec n (fun r s => -1 * B r s) u r + matVec n (fun r s => 1 / dt * M r s) v0 r)) =
    act n M (fun i => (v i - v0 i) / dt) r + act n A v r + act n B (fun i => u i + dt * v i) r
      - F r := by
  simp only [act, matVec]
  have key : ∑ s ∈ Finset.range n, (A r s + 1 / dt * M r s + B r s * dt) * v s -
      (∑ s ∈ Finset.range n, -1 * B r s * u s + ∑ s ∈ Finset.range n, 1 / dt * M r s * v0 s) =
      ∑ s ∈ Finset.range n, M r s * ((v s - v0 s) / dt) + ∑ s ∈ Finset.range n, A r s * v s +
      ∑ s ∈ Finset.range n, B r s * (u s + dt * v s) := by
    rw [← Finset.sum_add_distrib, ← Finset.sum_sub_distrib, ← Finset.sum_add_distrib,
      ← Finset.sum_add_distrib]
    exact Finset.sum_congr rfl fun s _ => by ring
  linear_combination key

end runs

section order
variable {K : Type} [Field K] [LinearOrder K] [IsStrictOrderedRing K] {V : Type}

/-- What is asked of `step_solver.solve`: the prescribed velocities are zero and contact does no
positive work. Only systems that can occur during the run matter. -/
def PassiveSolve (e : Engine K) (n : ℕ) (D : ℕ → Prop) (dt : K) : Prop :=
  ∀ (S : SolverState K) (guess : ℕ → K) (var : Variables K), var.timeStep = some dt →
    e.kind.update e.ops e.boundaries var = .ok S.system →
    (∀ r < n, D r → e.solve S guess r = 0) ∧ Passive n S.system (e.solve S guess)

/-- The energies along a run. -/
def energies (e : Engine K) (n : ℕ) (M B : ℕ → ℕ → K) (f : ℕ → K) (s : Snapshot K) : K :=
  mechanicalEnergy n M B f (State.flatten e.grid s.displacement) (State.flatten e.grid s.velocity)

theorem new_displacement (e : Engine K) (dt : K) (s s' : Snapshot K) (w : ℕ → K)
    (hu : ∀ i j, s'.displacement i j = s.displacement i j + dt * s'.velocity i j)
    (hw : s'.velocity = State.unflatten e.grid w) :
    State.flatten e.grid s'.displacement =
      fun i => State.flatten e.grid s.displacement i + dt * w i := by
  funext k
  have hk : s'.velocity (k % e.grid.nodesCount) (k / e.grid.nodesCount) = w k := by
    rw [hw]; exact congrFun (flatten_unflatten e.grid w) k
  simp only [State.flatten, hu, hk]

/-- One step of dynamic elasticity. -/
theorem dynamic_energy_step {c : ProblemClass} (e : Engine K) (hk : e.kind = .dynamicVelocity)
    (hr : Registered c e.cls e.kind) (hne : e.cls ≠ .direct) {d : ℕ} (hdim : e.ops.dimension = d)
    (D : ℕ → Prop) [DecidablePred D] (hv : ValidBoundaries e.ops.nodesCount e.boundaries)
    (hd : DirichletData e.ops.nodesCount 2 e.boundaries D fun _ => 0)
    (f : ℕ → K) (hf : ∀ t, e.ops.force t = f)
    (hM : StoresEnergy (d * e.ops.nodesCount) e.ops.acceleration)
    (hA : Dissipates (d * e.ops.nodesCount) e.ops.viscosity)
    (hB : StoresEnergy (d * e.ops.nodesCount) e.ops.elasticity) (dt : K) (hdt : 0 < dt)
    (hs : PassiveSolve e (d * e.ops.nodesCount) D dt) (sim sim' : Simulation K V)
    (hb : Between e dt sim.solver sim.state.toSnapshot) (h : e.step .velocity sim = .ok sim') :
    Between e dt sim'.solver sim'.state.toSnapshot ∧
    energies e (d * e.ops.nodesCount) e.ops.acceleration e.ops.elasticity f sim'.state.toSnapshot +
        dt * quad (d * e.ops.nodesCount) e.ops.viscosity (State.flatten e.grid sim'.state.velocity) ≤
      energies e (d * e.ops.nodesCount) e.ops.acceleration e.ops.elasticity f
        sim.state.toSnapshot := by
  obtain ⟨h1, hu, S, guess, h2, h3⟩ := between_step e hr hne (by rw [hk]; simp) dt sim sim' hb h
  refine ⟨h1, ?_⟩
  obtain ⟨hD, hP⟩ := hs S guess _ rfl h2
  rw [hk] at h2
  have h4 : applyDirichlet e.ops.nodesCount 2 e.boundaries
      ⟨fun r s => e.ops.viscosity r s + 1 / dt * e.ops.acceleration r s + e.ops.elasticity r s * dt,
        fun r => e.ops.force sim.solver.currentTime r +
          (matVec (e.ops.dimension * e.ops.nodesCount) (fun r s => -1 * e.ops.elasticity r s)
            (State.flatten e.grid sim.state.displacement) r +
          matVec (e.ops.dimension * e.ops.nodesCount) (fun r s => 1 / dt * e.ops.acceleration r s)
            (State.flatten e.grid sim.state.velocity) r)⟩ = S.system := Except.ok.inj h2
  rw [hdim] at h4
  rw [← h4, passive_elimination_size _ _ _ _ _ D hv hd _ hD] at hP
  have hvel : State.flatten e.grid sim'.state.velocity = e.solve S guess := by
    rw [h3]; exact flatten_unflatten _ _
  have hdis := new_displacement e dt sim.state.toSnapshot sim'.state.toSnapshot _ hu h3
  unfold energies
  change mechanicalEnergy _ _ _ f (State.flatten e.grid sim'.state.displacement)
    (State.flatten e.grid sim'.state.velocity) + _ ≤ _
  rw [show State.flatten e.grid sim'.state.displacement = _ from hdis, hvel]
  refine energy_decreases _ _ _ _ hM hA hB f _ _ _ dt hdt ?_
  refine le_trans (le_of_eq (Finset.sum_congr rfl fun r _ => ?_)) hP
  congr 1
  rw [← dynamic_residual, hf]

/-- C71, dynamic elasticity: the energies of the states returned never grow, whatever the numbers of
steps between them. -/
theorem C71_dynamic {c : ProblemClass} (e : Engine K) (hk : e.kind = .dynamicVelocity)
    (hr : Registered c e.cls e.kind) (hne : e.cls ≠ .direct) {d : ℕ} (hdim : e.ops.dimension = d)
    (D : ℕ → Prop) [DecidablePred D] (hv : ValidBoundaries e.ops.nodesCount e.boundaries)
    (hd : DirichletData e.ops.nodesCount 2 e.boundaries D fun _ => 0)
    (f : ℕ → K) (hf : ∀ t, e.ops.force t = f)
    (hM : StoresEnergy (d * e.ops.nodesCount) e.ops.acceleration)
    (hA : Dissipates (d * e.ops.nodesCount) e.ops.viscosity)
    (hB : StoresEnergy (d * e.ops.nodesCount) e.ops.elasticity)
    (a : Engine.Arguments K) (solver : SolverState K) (hdt : 0 < solver.timeStep)
    (hc : solver.currentTime = 0) (hs : PassiveSolve e (d * e.ops.nodesCount) D solver.timeStep)
    (store : ProductStore K V) (rs : List (State K)) (sim : Simulation K V)
    (h : e.timeDependentSolve a solver store = .ok (rs, sim)) :
    List.Pairwise (fun x y => y ≤ x)
      (mechanicalEnergy (d * e.ops.nodesCount) e.ops.acceleration e.ops.elasticity f
          (State.flatten e.grid a.initialDisplacement) (State.flatten e.grid a.initialVelocity) ::
        rs.map fun s => mechanicalEnergy (d * e.ops.nodesCount) e.ops.acceleration e.ops.elasticity f
          (State.flatten e.grid s.displacement) (State.flatten e.grid s.velocity)) := by
  have := timeDependent_relation e a solver store hc
    (fun s s' => energies e (d * e.ops.nodesCount) e.ops.acceleration e.ops.elasticity f s' ≤
      energies e (d * e.ops.nodesCount) e.ops.acceleration e.ops.elasticity f s)
    (fun _ => le_rfl) (fun _ _ _ h1 h2 => h2.trans h1)
    (fun sim sim' hb h => by
      obtain ⟨h1, h2⟩ := dynamic_energy_step e hk hr hne hdim D hv hd f hf hM hA hB _ hdt hs sim sim' hb h
      have := mul_nonneg hdt.le (hA.nonneg (State.flatten e.grid sim'.state.velocity))
      exact ⟨h1, by linarith⟩) rs sim h
  have := this.map (S := fun x y => y ≤ x)
    (energies e (d * e.ops.nodesCount) e.ops.acceleration e.ops.elasticity f) (fun _ _ h => h)
  simpa [energies, List.map_map, Function.comp_def] using this

/-- One step of the wave equation. -/
theorem wave_energy_step {c : ProblemClass} (e : Engine K) (hk : e.kind = .wave)
    (hr : Registered c e.cls e.kind) (hne : e.cls ≠ .direct)
    (D : ℕ → Prop) [DecidablePred D] (hv : ValidBoundaries e.ops.nodesCount e.boundaries)
    (hd : DirichletData e.ops.nodesCount 1 e.boundaries D fun _ => 0)
    (f : ℕ → K) (hf : ∀ t, e.ops.force t = f)
    (hM : StoresEnergy e.ops.nodesCount e.ops.acceleration)
    (hB : StoresEnergy e.ops.nodesCount e.ops.poisson) (dt : K) (hdt : 0 < dt)
    (hs : PassiveSolve e e.ops.nodesCount D dt) (sim sim' : Simulation K V)
    (hb : Between e dt sim.solver sim.state.toSnapshot) (h : e.step .velocity sim = .ok sim') :
    Between e dt sim'.solver sim'.state.toSnapshot ∧
    energies e e.ops.nodesCount e.ops.acceleration e.ops.poisson f sim'.state.toSnapshot ≤
      energies e e.ops.nodesCount e.ops.acceleration e.ops.poisson f sim.state.toSnapshot := by
  obtain ⟨h1, hu, S, guess, h2, h3⟩ := between_step e hr hne (by rw [hk]; simp) dt sim sim' hb h
  refine ⟨h1, ?_⟩
  obtain ⟨hD, hP⟩ := hs S guess _ rfl h2
  rw [hk] at h2
  have h4 : applyDirichlet e.ops.nodesCount 1 e.boundaries
      ⟨fun r s => 1 / dt * e.ops.acceleration r s + e.ops.poisson r s * dt,
        fun r => e.ops.force sim.solver.currentTime r +
          (matVec e.ops.nodesCount (fun r s => -1 * e.ops.poisson r s)
            (State.flatten e.grid sim.state.displacement) r +
          matVec e.ops.nodesCount (fun r s => 1 / dt * e.ops.acceleration r s)
            (State.flatten e.grid sim.state.velocity) r)⟩ = S.system := Except.ok.inj h2
  have hel := passive_elimination e.ops.nodesCount 1 e.boundaries
    ⟨fun r s => 1 / dt * e.ops.acceleration r s + e.ops.poisson r s * dt,
      fun r => e.ops.force sim.solver.currentTime r +
        (matVec e.ops.nodesCount (fun r s => -1 * e.ops.poisson r s)
          (State.flatten e.grid sim.state.displacement) r +
        matVec e.ops.nodesCount (fun r s => 1 / dt * e.ops.acceleration r s)
          (State.flatten e.grid sim.state.velocity) r)⟩ D hv hd (e.solve S guess)
    (by rw [Nat.one_mul]; exact hD)
  rw [Nat.one_mul] at hel
  rw [← h4, hel] at hP
  have hvel : State.flatten e.grid sim'.state.velocity = e.solve S guess := by
    rw [h3]; exact flatten_unflatten _ _
  have hdis := new_displacement e dt sim.state.toSnapshot sim'.state.toSnapshot _ hu h3
  unfold energies
  change mechanicalEnergy _ _ _ f (State.flatten e.grid sim'.state.displacement)
    (State.flatten e.grid sim'.state.velocity) ≤ _
  rw [show State.flatten e.grid sim'.state.displacement = _ from hdis, hvel]
  have hz : ∀ x, quad e.ops.nodesCount (fun _ _ => (0 : K)) x = 0 := fun x => by simp [quad]
  have := energy_decreases e.ops.nodesCount e.ops.acceleration (fun _ _ => 0) e.ops.poisson hM
    ⟨fun x => (hz x).ge⟩ hB f (State.flatten e.grid sim.state.displacement)
    (State.flatten e.grid sim.state.velocity) (e.solve S guess) dt hdt (by
      refine le_trans (le_of_eq (Finset.sum_congr rfl fun r _ => ?_)) hP
      congr 1
      rw [← dynamic_residual]
      simp only [zero_add, hf])
  rw [hz] at this
  linarith

/-- C71, waves (from the beginning or resumed): the energies of the states returned never grow. -/
theorem C71_wave {c : ProblemClass} (e : Engine K) (hk : e.kind = .wave)
    (hr : Registered c e.cls e.kind) (hne : e.cls ≠ .direct)
    (D : ℕ → Prop) [DecidablePred D] (hv : ValidBoundaries e.ops.nodesCount e.boundaries)
    (hd : DirichletData e.ops.nodesCount 1 e.boundaries D fun _ => 0)
    (f : ℕ → K) (hf : ∀ t, e.ops.force t = f)
    (hM : StoresEnergy e.ops.nodesCount e.ops.acceleration)
    (hB : StoresEnergy e.ops.nodesCount e.ops.poisson)
    (a : Engine.Arguments K) (resume : Option (State K)) (solver : SolverState K)
    (hdt : 0 < solver.timeStep) (hs : PassiveSolve e e.ops.nodesCount D solver.timeStep)
    (store : ProductStore K V) (rs : List (State K)) (sim : Simulation K V)
    (h : e.waveSolve a resume solver store = .ok (rs, sim)) :
    List.Pairwise (fun x y => y ≤ x)
      (mechanicalEnergy e.ops.nodesCount e.ops.acceleration e.ops.poisson f
          (State.flatten e.grid (resume.elim a.initialDisplacement fun s => s.displacement))
          (State.flatten e.grid (resume.elim a.initialVelocity fun s => s.velocity)) ::
        rs.map fun s => mechanicalEnergy e.ops.nodesCount e.ops.acceleration e.ops.poisson f
          (State.flatten e.grid s.displacement) (State.flatten e.grid s.velocity)) := by
  have := wave_relation e a resume solver store
    (fun s s' => energies e e.ops.nodesCount e.ops.acceleration e.ops.poisson f s' ≤
      energies e e.ops.nodesCount e.ops.acceleration e.ops.poisson f s)
    (fun _ => le_rfl) (fun _ _ _ h1 h2 => h2.trans h1)
    (fun sim sim' hb h =>
      wave_energy_step e hk hr hne D hv hd f hf hM hB _ hdt hs sim sim' hb h) rs sim h
  have := this.map (S := fun x y => y ≤ x)
    (energies e e.ops.nodesCount e.ops.acceleration e.ops.poisson f) (fun _ _ h => h)
  cases resume <;>
    simpa [energies, waveInitial, List.map_map, Function.comp_def] using this

/-- One step of quasistatic elasticity. -/
theorem quasistatic_energy_step {c : ProblemClass} (e : Engine K) (hk : e.kind = .quasistaticVelocity)
    (hr : Registered c e.cls e.kind) (hne : e.cls ≠ .direct) {d : ℕ} (hdim : e.ops.dimension = d)
    (D : ℕ → Prop) [DecidablePred D] (hv : ValidBoundaries e.ops.nodesCount e.boundaries)
    (hd : DirichletData e.ops.nodesCount 2 e.boundaries D fun _ => 0)
    (f : ℕ → K) (hf : ∀ t, e.ops.force t = f)
    (hA : Dissipates (d * e.ops.nodesCount) e.ops.viscosity)
    (hB : StoresEnergy (d * e.ops.nodesCount) e.ops.elasticity) (dt : K) (hdt : 0 < dt)
    (hs : PassiveSolve e (d * e.ops.nodesCount) D dt) (sim sim' : Simulation K V)
    (hb : Between e dt sim.solver sim.state.toSnapshot) (h : e.step .velocity sim = .ok sim') :
    Between e dt sim'.solver sim'.state.toSnapshot ∧
    energies e (d * e.ops.nodesCount) (fun _ _ => 0) e.ops.elasticity f sim'.state.toSnapshot +
        dt * quad (d * e.ops.nodesCount) e.ops.viscosity (State.flatten e.grid sim'.state.velocity) ≤
      energies e (d * e.ops.nodesCount) (fun _ _ => 0) e.ops.elasticity f
        sim.state.toSnapshot := by
  obtain ⟨h1, hu, S, guess, h2, h3⟩ := between_step e hr hne (by rw [hk]; simp) dt sim sim' hb h
  refine ⟨h1, ?_⟩
  obtain ⟨hD, hP⟩ := hs S guess _ rfl h2
  rw [hk] at h2
  have h4 : applyDirichlet e.ops.nodesCount 2 e.boundaries
      ⟨fun r s => e.ops.viscosity r s + e.ops.elasticity r s * dt,
        fun r => e.ops.force sim.solver.currentTime r -
          matVec (e.ops.dimension * e.ops.nodesCount) e.ops.elasticity
            (State.flatten e.grid sim.state.displacement) r⟩ = S.system := Except.ok.inj h2
  rw [hdim] at h4
  rw [← h4, passive_elimination_size _ _ _ _ _ D hv hd _ hD] at hP
  have hvel : State.flatten e.grid sim'.state.velocity = e.solve S guess := by
    rw [h3]; exact flatten_unflatten _ _
  have hdis := new_displacement e dt sim.state.toSnapshot sim'.state.toSnapshot _ hu h3
  unfold energies
  change mechanicalEnergy _ _ _ f (State.flatten e.grid sim'.state.displacement)
    (State.flatten e.grid sim'.state.velocity) + _ ≤ _
  rw [show State.flatten e.grid sim'.state.displacement = _ from hdis, hvel]
  have hz : ∀ x, quad (d * e.ops.nodesCount) (fun _ _ => (0 : K)) x = 0 := fun x => by simp [quad]
  refine energy_decreases _ _ _ _ ⟨fun _ _ _ _ => rfl, fun x => (hz x).ge⟩ hA hB f _ _ _ dt hdt ?_
  refine le_trans (le_of_eq (Finset.sum_congr rfl fun r _ => ?_)) hP
  congr 1
  rw [← dynamic_residual]
  simp only [hf, matVec, mul_zero, add_zero, zero_mul, Finset.sum_const_zero, neg_mul, one_mul,
    Finset.sum_neg_distrib]
  ring

/-- C71, quasistatic elasticity: the stored energy minus the work of the loads never grows. -/
theorem C71_quasistatic {c : ProblemClass} (e : Engine K) (hk : e.kind = .quasistaticVelocity)
    (hr : Registered c e.cls e.kind) (hne : e.cls ≠ .direct) {d : ℕ} (hdim : e.ops.dimension = d)
    (D : ℕ → Prop) [DecidablePred D] (hv : ValidBoundaries e.ops.nodesCount e.boundaries)
    (hd : DirichletData e.ops.nodesCount 2 e.boundaries D fun _ => 0)
    (f : ℕ → K) (hf : ∀ t, e.ops.force t = f)
    (hA : Dissipates (d * e.ops.nodesCount) e.ops.viscosity)
    (hB : StoresEnergy (d * e.ops.nodesCount) e.ops.elasticity)
    (a : Engine.Arguments K) (solver : SolverState K) (hdt : 0 < solver.timeStep)
    (hc : solver.currentTime = 0) (hs : PassiveSolve e (d * e.ops.nodesCount) D solver.timeStep)
    (store : ProductStore K V) (rs : List (State K)) (sim : Simulation K V)
    (h : e.timeDependentSolve a solver store = .ok (rs, sim)) :
    List.Pairwise (fun x y => y ≤ x)
      ((1 / 2 * quad (d * e.ops.nodesCount) e.ops.elasticity (State.flatten e.grid a.initialDisplacement) -
          ∑ r ∈ Finset.range (d * e.ops.nodesCount),
            f r * State.flatten e.grid a.initialDisplacement r) ::
        rs.map fun s =>
          1 / 2 * quad (d * e.ops.nodesCount) e.ops.elasticity (State.flatten e.grid s.displacement) -
          ∑ r ∈ Finset.range (d * e.ops.nodesCount), f r * State.flatten e.grid s.displacement r) := by
  have := timeDependent_relation e a solver store hc
    (fun s s' => energies e (d * e.ops.nodesCount) (fun _ _ => 0) e.ops.elasticity f s' ≤
      energies e (d * e.ops.nodesCount) (fun _ _ => 0) e.ops.elasticity f s)
    (fun _ => le_rfl) (fun _ _ _ h1 h2 => h2.trans h1)
    (fun sim sim' hb h => by
      obtain ⟨h1, h2⟩ := quasistatic_energy_step e hk hr hne hdim D hv hd f hf hA hB _ hdt hs sim sim' hb h
      have := mul_nonneg hdt.le (hA.nonneg (State.flatten e.grid sim'.state.velocity))
      exact ⟨h1, by linarith⟩) rs sim h
  have := this.map (S := fun x y => y ≤ x)
    (energies e (d * e.ops.nodesCount) (fun _ _ => 0) e.ops.elasticity f) (fun _ _ h => h)
  have hz : ∀ x, quad (d * e.ops.nodesCount) (fun _ _ => (0 : K)) x = 0 := fun x => by simp [quad]
  simpa [energies, mechanicalEnergy, hz, List.map_map, Function.comp_def] using this

/-! ### Solutions that do no positive work -/

omit [IsStrictOrderedRing K] [LinearOrder K] in
theorem update_eliminated (kind : StatementKind) (ops : Operators K) (bs : List (CondBoundary K))
    (var : Variables K) (S : System K) (h : kind.update ops bs var = .ok S) :
    ∃ lhs rhs, updateLhs ops var kind = .ok lhs ∧ updateRhs ops var kind = .ok rhs ∧
      S = applyDirichlet ops.nodesCount (kind.dimensionIn ops.dimension) bs ⟨lhs, rhs⟩ := by
  simp only [StatementKind.update, bind, Except.bind, pure, Except.pure] at h
  cases h1 : updateLhs ops var kind with
  | error err => rw [h1] at h; cases h
  | ok lhs =>
    rw [h1] at h
    cases h2 : updateRhs ops var kind with
    | error err => rw [h2] at h; cases h
    | ok rhs => rw [h2] at h; exact ⟨lhs, rhs, rfl, rfl, (Except.ok.inj h).symm⟩

omit [IsStrictOrderedRing K] in
/-- C71: problems without contact. If every solution solves the system, the condition of the theorems
above is met. -/
theorem C71_exact (e : Engine K) (D : ℕ → Prop) [DecidablePred D] (dim : ℕ)
    (hdim : e.kind.dimensionIn e.ops.dimension = dim)
    (hv : ValidBoundaries e.ops.nodesCount e.boundaries)
    (hd : DirichletData e.ops.nodesCount dim e.boundaries D fun _ => 0) (dt : K)
    (hs : ∀ (S : SolverState K) (guess : ℕ → K) (var : Variables K), var.timeStep = some dt →
      e.kind.update e.ops e.boundaries var = .ok S.system →
      Solves (dim * e.ops.nodesCount) S.system (e.solve S guess)) :
    PassiveSolve e (dim * e.ops.nodesCount) D dt := by
  intro S guess var hdt hu
  have h1 := hs S guess var hdt hu
  refine ⟨?_, passive_of_solves _ _ _ h1⟩
  obtain ⟨lhs, rhs, -, -, h2⟩ := update_eliminated _ _ _ _ _ hu
  rw [hdim] at h2
  rw [h2] at h1
  exact ((C12_elimination_equivalent e.ops.nodesCount dim e.boundaries _ D (fun _ => 0) hv hd _).1 h1).1

/-- C71: problems with contact. If every solution minimises the energy of the system plus a contact
cost which does not grow when the motion is slowed down, the condition is met. The cost may depend on
everything the solver knows. -/
theorem C71_contact (e : Engine K) (D : ℕ → Prop) [DecidablePred D] (dim : ℕ)
    (hdim : e.kind.dimensionIn e.ops.dimension = dim)
    (hv : ValidBoundaries e.ops.nodesCount e.boundaries)
    (hd : DirichletData e.ops.nodesCount dim e.boundaries D fun _ => 0) (dt : K)
    (hsym : ∀ var lhs, var.timeStep = some dt → updateLhs e.ops var e.kind = .ok lhs →
      ∀ r < dim * e.ops.nodesCount, ∀ s < dim * e.ops.nodesCount, lhs r s = lhs s r)
    (J : SolverState K → (ℕ → K) → K) (hJ : ∀ S, GrowsWithSpeed (J S))
    (hs : ∀ (S : SolverState K) (guess : ℕ → K) (var : Variables K), var.timeStep = some dt →
      e.kind.update e.ops e.boundaries var = .ok S.system →
      MinimisesWith (dim * e.ops.nodesCount) D S.system (J S) (e.solve S guess)) :
    PassiveSolve e (dim * e.ops.nodesCount) D dt := by
  intro S guess var hdt hu
  have h1 := hs S guess var hdt hu
  obtain ⟨lhs, rhs, h2, -, h3⟩ := update_eliminated _ _ _ _ _ hu
  refine ⟨h1.1, passive_of_minimises _ _ D ?_ _ (hJ S) _ h1⟩
  rw [h3, hdim]
  exact C13_symmetric e.ops.nodesCount dim e.boundaries _ D (fun _ => 0) hv hd (hsym var lhs hdt h2)

/-- C71: the cost functional of the code has this property if the density of the contact law has it
and all contact nodes are unknowns. -/
theorem C71_cost (sqrt : K → K) (hs : IsSqrt sqrt) (c : Conditions K) (d : ContactData K) (n : ℕ)
    (hn : ∀ s ∈ d.surfaces, ∀ node ∈ s.edge, node < n / d.variableDimension)
    (hg : ∀ s ∈ d.surfaces, ∀ sn st,
      GrowsWithSpeed (density c d.variableDimension s.normal sn st d.dt)) :
    GrowsWithSpeed fun x => contactCostFunctional sqrt c d ⟨n, x⟩ := by
  intro x t h0 h1
  simp only [contactCostFunctional_eq]
  refine List.sum_le_sum fun s hmem => ?_
  unfold surfaceCost quadrature
  have hnode : ∀ node ∈ s.edge, nodeValue d.variableDimension ⟨n, fun k => t * x k⟩ d.old node =
      fun i => t * nodeValue d.variableDimension ⟨n, x⟩ d.old node i := by
    intro node hm
    funext i
    simp only [nodeValue, if_pos (hn s hmem node hm)]
  have hmean : meanOver s.edge (nodeValue d.variableDimension ⟨n, fun k => t * x k⟩ d.old) =
      fun i => t * meanOver s.edge (nodeValue d.variableDimension ⟨n, x⟩ d.old) i := by
    funext i
    unfold meanOver
    rw [List.map_congr_left fun node hm => congrFun (hnode node hm) i, List.sum_map_mul_left,
      mul_div_assoc]
  have hl : 0 ≤ surfaceLength sqrt d.nodes s.edge / ((s.edge.length + 1 : ℕ) : K) :=
    div_nonneg (hs _ (by positivity)).1 (by positivity)
  refine mul_le_mul_of_nonneg_left (add_le_add ?_ (List.sum_le_sum fun node hm => ?_)) hl
  · rw [hmean]; exact hg s hmem _ _ _ t h0 h1
  · rw [hnode node hm]; exact hg s hmem _ _ _ t h0 h1

/-- C71: for instance the slope law with a nonnegative slope. -/
theorem C71_slope (slope : K) (hslope : 0 ≤ slope) (dim : ℕ) (normal : ℕ → K) (sn : K) (st : List K)
    (dt : K) :
    GrowsWithSpeed (density (makeConditions (.function (slopePotential slope)) unitBound zeroTangential
      unitBound) dim normal sn st dt) := by
  intro x t h0 h1
  have hc : normalComponent dim (fun i => t * x i) normal = t * normalComponent dim x normal := by
    unfold normalComponent
    split_ifs
    · rfl
    · rw [Finset.mul_sum]; exact Finset.sum_congr rfl fun i _ => by ring
  simp only [density, makeConditions, Condition.njit, unitBound, zeroTangential, one_mul, mul_zero,
    add_zero, hc, slopePotential]
  generalize normalComponent dim x normal = y
  split_ifs with h2 h3 h3
  · exact le_rfl
  · positivity
  · exact absurd (mul_nonpos_of_nonneg_of_nonpos h0 h3) h2
  · have : (t * y) ^ 2 ≤ y ^ 2 := by
      have hy : 0 ≤ y := (not_le.1 h3).le
      have : t * y ≤ y := by nlinarith
      exact pow_le_pow_left₀ (mul_nonneg h0 hy) this 2
    exact mul_le_mul_of_nonneg_left this (by positivity)

/-! ### The assembled operators -/

theorem storesEnergy_of_form {n : ℕ} {A : ℕ → ℕ → K} (hs : ∀ r < n, ∀ s < n, A r s = A s r)
    (hp : ∀ x, 0 ≤ form n n A x x) : StoresEnergy n A :=
  ⟨hs, fun x => by rw [quad_eq_form]; exact hp x⟩

theorem acceleration_form (N : ℕ) (U : ℕ → ℕ → K) (density : K) (x : ℕ → K) :
    form (2 * N) (2 * N) (Plane.acceleration N U density) x x =
      density * (form N N U (component N x 0) (component N x 0) +
        form N N U (component N x 1) (component N x 1)) := by
  have : Plane.acceleration N U density = fun r s => density * block N (fun a b p q => match a, b with
    | 0, 0 => U p q
    | 1, 1 => U p q
    | _, _ => 0) r s := rfl
  rw [this, form_mul, form_block]
  simp only [Finset.sum_range_succ, Finset.sum_range_zero, zero_add, form_zero, add_zero]

/-- C71: on a triangular mesh all operators have the properties required above: mass and elasticity
store energy, viscosity dissipates, and so do the scalar operators of the wave equation. -/
theorem C71_operators2 {N : ℕ} {elements : List (List ℕ)} {nodes : ℕ → ℕ → K}
    (hv : ValidElements 2 N elements) (hn : Nondegenerate2 elements nodes)
    (density mu lam theta zeta propagation : K) (hdensity : 0 ≤ density) (hmu : 0 ≤ mu)
    (hlam : 0 ≤ lam) (htheta : 0 ≤ theta) (hzeta : 0 ≤ zeta) :
    let m := basicMatrices2 elements nodes
    StoresEnergy (2 * N) (Plane.acceleration N m.U density) ∧
    StoresEnergy (2 * N) (Plane.constitutive N m.W mu lam) ∧
    Dissipates (2 * N) (Plane.constitutive N m.W theta zeta) ∧
    StoresEnergy N (Plane.acceleration N m.U density) ∧
    StoresEnergy N (poissonMatrix 2 m.W propagation) := by
  intro m
  obtain ⟨hs, hp, -⟩ := C23_mass2 hv hn
  have hpc := C25_poisson2 hv hn propagation
  refine ⟨?_, storesEnergy_of_form (C26_symmetric hv hn mu lam) (C26_nonneg hv hn mu lam hmu hlam),
    ⟨fun x => by rw [quad_eq_form]; exact C26_nonneg hv hn theta zeta htheta hzeta x⟩, ?_,
    storesEnergy_of_form hpc.1 hpc.2.2.1⟩
  · refine storesEnergy_of_form (fun r hr s hs' => ?_) fun x => ?_
    · have hN : 0 < N := by rcases Nat.eq_zero_or_pos N with h | h; · simp [h] at hr
                            · exact h
      have e1 := hs (r % N) (Nat.mod_lt _ hN) (s % N) (Nat.mod_lt _ hN)
      have r1 : r / N < 2 := by rw [Nat.div_lt_iff_lt_mul hN]; omega
      have r2 : s / N < 2 := by rw [Nat.div_lt_iff_lt_mul hN]; omega
      simp only [Plane.acceleration, block]
      interval_cases r / N <;> interval_cases s / N <;> simp [e1, m]
    · rw [acceleration_form]
      exact mul_nonneg hdensity (add_nonneg (hp _) (hp _))
  · have hblock : ∀ r < N, ∀ s < N, Plane.acceleration N m.U density r s = density * m.U r s := by
      intro r hr s hs'
      simp only [Plane.acceleration, block, Nat.div_eq_of_lt hr, Nat.div_eq_of_lt hs',
        Nat.mod_eq_of_lt hr, Nat.mod_eq_of_lt hs']
    refine storesEnergy_of_form (fun r hr s hs' => ?_) fun x => ?_
    · rw [hblock r hr s hs', hblock s hs' r hr, hs r hr s hs']
    · rw [form_congr x x hblock, form_mul]
      exact mul_nonneg hdensity (hp _)

/-- The form of the mass matrix of a body in space. -/
theorem acceleration_form3 (N : ℕ) (U : ℕ → ℕ → K) (density : K) (x y : ℕ → K) :
    form (3 * N) (3 * N) (Space.acceleration N U density) x y =
      density * (form N N U (component N x 0) (component N y 0) +
        form N N U (component N x 1) (component N y 1) +
        form N N U (component N x 2) (component N y 2)) := by
  have : Space.acceleration N U density = fun r s => density * block N (fun a b p q => match a, b with
    | 0, 0 => U p q
    | 1, 1 => U p q
    | 2, 2 => U p q
    | _, _ => 0) r s := rfl
  rw [this, form_mul, form_block]
  simp only [Finset.sum_range_succ, Finset.sum_range_zero, zero_add, form_zero, add_zero]

/-- C71: on a tetrahedral mesh mass and Poisson matrix store energy, and the mass matrix is the density
times the mass form of every component. Elasticity does so for equal coefficients only, see C27. -/
theorem C71_operators3 {N : ℕ} {elements : List (List ℕ)} {nodes : ℕ → ℕ → K}
    (hv : ValidElements 3 N elements) (hn : Nondegenerate3 elements nodes)
    (density mu propagation : K) (hdensity : 0 ≤ density) (hmu : 0 ≤ mu) :
    let m := basicMatrices3 elements nodes
    StoresEnergy (3 * N) (Space.acceleration N m.U density) ∧
    (∀ x y, form (3 * N) (3 * N) (Space.acceleration N m.U density) x y =
      density * (form N N m.U (component N x 0) (component N y 0) +
        form N N m.U (component N x 1) (component N y 1) +
        form N N m.U (component N x 2) (component N y 2))) ∧
    StoresEnergy N (poissonMatrix 3 m.W propagation) ∧
    StoresEnergy (3 * N) (Space.constitutive N m.W mu mu) := by
  intro m
  obtain ⟨hs, hp, -⟩ := C23_mass3 hv hn
  have hpc := C25_poisson3 hv hn propagation
  refine ⟨?_, acceleration_form3 N m.U density, storesEnergy_of_form hpc.1 hpc.2.2.1,
    storesEnergy_of_form (C27_symmetric_translation_partial hv hn mu mu).1 fun x => ?_⟩
  · refine storesEnergy_of_form (fun r hr s hs' => ?_) fun x => ?_
    · have hN : 0 < N := by rcases Nat.eq_zero_or_pos N with h | h; · simp [h] at hr
                            · exact h
      have e1 := hs (r % N) (Nat.mod_lt _ hN) (s % N) (Nat.mod_lt _ hN)
      have r1 : r / N < 3 := by rw [Nat.div_lt_iff_lt_mul hN]; omega
      have r2 : s / N < 3 := by rw [Nat.div_lt_iff_lt_mul hN]; omega
      simp only [Space.acceleration, block]
      interval_cases r / N <;> interval_cases s / N <;> simp [e1, m]
    · rw [acceleration_form3]
      exact mul_nonneg hdensity (add_nonneg (add_nonneg (hp _) (hp _)) (hp _))
  · obtain ⟨X, hX⟩ := exists_vectorGradient (N := N) (Space.allLocal hn) x
    rw [(C27_equal_coefficients_partial hv hn mu).1 x x X X hX hX]
    exact sumElements_nonneg _ _ fun t ht =>
      mul_nonneg (Space.allLocal hn _ (getD_mem ht)).pos.le (hooke_nonneg 3 hmu hmu _)

example : StoresEnergy (3 * 5) (Space.acceleration 5 (basicMatrices3 exampleMesh3 exampleNodes3).U 2) :=
  (C71_operators3 exampleMesh3_valid exampleMesh3_nondegenerate 2 1 1 (by norm_num) (by norm_num)).1

end order
/-! ### A body that meets the hypotheses -/

/-- Two nodes with diagonal operators. -/
def diagonalOps : Operators ℚ :=
  { exampleOps with
    elasticity := fun r s => if r = s then 2 else 0
    poisson := fun r s => if r = s then 2 else 0
    force := fun _ r => r + 1 }

/-- Node 1 is fixed. -/
def diagonalEngine (cls : SolverClass) (kind : StatementKind) : Engine ℚ where
  grid := { nodesCount := 2, dimension := 2, nodes := fun _ _ => 0 }
  cls := cls
  kind := kind
  ops := diagonalOps
  boundaries := [⟨.list [1], fun _ => 0⟩]
  solve := fun s _ r => s.system.rhs r / s.system.lhs r r

theorem diagonal_valid (cls : SolverClass) (kind : StatementKind) :
    ValidBoundaries (diagonalEngine cls kind).ops.nodesCount (diagonalEngine cls kind).boundaries := by
  intro b hb
  simp only [diagonalEngine, List.mem_singleton] at hb
  subst hb
  constructor
  · intro v hv
    simp [nodesOf] at hv; subst hv; exact (by decide : 1 < 2)
  · intro i h; simp at h; subst h; simp

theorem diagonal_data (cls : SolverClass) (kind : StatementKind) (dim : ℕ) :
    DirichletData (diagonalEngine cls kind).ops.nodesCount dim (diagonalEngine cls kind).boundaries
      (fun r => r < 2 * dim ∧ r % 2 = 1) fun _ => 0 := by
  constructor
  · intro x
    constructor
    · rintro ⟨h1, h2⟩
      exact ⟨0, _, List.mem_singleton.2 rfl, x / 2, by omega, 0, 1, by simp [nodesOf],
        by simp only [diagonalEngine, diagonalOps, exampleOps]; omega, rfl⟩
    · rintro ⟨v, b, hb, d, hd, j, node, hj, hx, -⟩
      simp only [diagonalEngine, List.mem_singleton] at hb
      subst hb
      have : node = 1 := by
        rcases j with _ | j
        · simpa [nodesOf] using hj.symm
        · simp [nodesOf] at hj
      subst this
      simp only [diagonalEngine, diagonalOps, exampleOps] at hx
      omega
  · rintro x v ⟨b, hb, d, hd, j, node, hj, hx, hvv⟩
    simp only [diagonalEngine, List.mem_singleton] at hb
    subst hb
    exact hvv

theorem diagonal_stores (n : ℕ) (c : ℚ) (hc : 0 ≤ c) :
    StoresEnergy n (fun r s : ℕ => if r = s then c else 0) := by
  refine ⟨fun r _ s _ => by simp [eq_comm], fun x => ?_⟩
  unfold quad
  refine Finset.sum_nonneg fun r hr => ?_
  simp only [ite_mul, zero_mul]
  rw [Finset.sum_ite_eq, if_pos hr]
  nlinarith [mul_nonneg hc (mul_self_nonneg (x r))]

/-- A diagonal system is solved by division, also after the elimination. -/
theorem diagonal_solves (cls : SolverClass) (kind : StatementKind) (dim : ℕ) (lhs : ℕ → ℕ → ℚ)
    (rhs : ℕ → ℚ) (h0 : ∀ r s, r ≠ s → lhs r s = 0) (h1 : ∀ r, lhs r r ≠ 0) :
    let S := applyDirichlet 2 dim [⟨.list [1], fun _ => (0 : ℚ)⟩] ⟨lhs, rhs⟩
    Solves (dim * 2) S fun r => S.rhs r / S.lhs r r := by
  intro S r hr
  have hc := C14_all_at_once_partial 2 dim [⟨.list [1], fun _ => (0 : ℚ)⟩] ⟨lhs, rhs⟩ _ _
    (diagonal_valid cls kind) (diagonal_data cls kind dim) r
  unfold Row
  rw [Finset.sum_eq_single r]
  · have : S.lhs r r ≠ 0 := by
      rw [hc.1 r, if_pos rfl]
      by_cases h : r < 2 * dim ∧ r % 2 = 1 ∨ r < 2 * dim ∧ r % 2 = 1
      · rw [if_pos h]; exact one_ne_zero
      · rw [if_neg h]; exact h1 r
    field_simp
  · intro s _ hne
    have : S.lhs r s = 0 := by
      rw [hc.1 s, if_neg (Ne.symm hne)]
      split_ifs
      · rfl
      · exact h0 r s (Ne.symm hne)
    rw [this, zero_mul]
  · intro h; exact absurd (Finset.mem_range.2 hr) h

/-- The hypotheses of `C71_dynamic`, `C71_quasistatic` and `C71_wave` are met. -/
example :
    Registered .DynamicDisplacementProblem .dynamicSchur .dynamicVelocity ∧
    Registered .QuasistaticDisplacementProblem .quasistaticGlobal .quasistaticVelocity ∧
    Registered .WaveProblem .dynamicGlobal .wave ∧
    StoresEnergy 4 diagonalOps.acceleration ∧ StoresEnergy 4 diagonalOps.elasticity ∧
    Dissipates 4 diagonalOps.viscosity ∧
    StoresEnergy 2 diagonalOps.acceleration ∧ StoresEnergy 2 diagonalOps.poisson ∧
    PassiveSolve (diagonalEngine .dynamicSchur .dynamicVelocity) (2 * 2)
      (fun r => r < 2 * 2 ∧ r % 2 = 1) (1 / 2) ∧
    PassiveSolve (diagonalEngine .quasistaticGlobal .quasistaticVelocity) (2 * 2)
      (fun r => r < 2 * 2 ∧ r % 2 = 1) (1 / 2) ∧
    PassiveSolve (diagonalEngine .dynamicGlobal .wave) (1 * 2)
      (fun r => r < 2 * 1 ∧ r % 2 = 1) (1 / 2) := by
  refine ⟨⟨⟨.dynamic, by decide +kernel, by decide +kernel⟩, Or.inl (by decide +kernel)⟩,
    ⟨⟨.quasistatic, by decide +kernel, by decide +kernel⟩, Or.inl (by decide +kernel)⟩,
    ⟨⟨.dynamic, by decide +kernel, by decide +kernel⟩, Or.inl (by decide +kernel)⟩, diagonal_stores 4 1 (by norm_num),
    diagonal_stores 4 2 (by norm_num), ⟨(diagonal_stores 4 3 (by norm_num)).nonneg⟩,
    diagonal_stores 2 1 (by norm_num), diagonal_stores 2 2 (by norm_num), ?_, ?_, ?_⟩
  · refine C71_exact _ _ 2 rfl (diagonal_valid _ _) (diagonal_data _ _ 2) _ fun S guess var hdt h => ?_
    obtain ⟨lhs, rhs, h1, -, h3⟩ := update_eliminated _ _ _ _ _ h
    obtain rfl : (fun r s => diagonalOps.viscosity r s +
        1 / (1 / 2 : ℚ) * diagonalOps.acceleration r s + diagonalOps.elasticity r s * (1 / 2)) = lhs := by
      simpa [updateLhs, dynamicLhs, quasistaticLhs, diagonalEngine, hdt, required, bind, Except.bind,
        pure, Except.pure] using h1
    change Solves _ S.system fun r => S.system.rhs r / S.system.lhs r r
    rw [h3]
    refine diagonal_solves .dynamicSchur .dynamicVelocity 2 _ rhs (fun r s hne => ?_) fun r => ?_
    · simp [diagonalOps, exampleOps, hne]
    · simp [diagonalOps, exampleOps]; norm_num
  · refine C71_exact _ _ 2 rfl (diagonal_valid _ _) (diagonal_data _ _ 2) _ fun S guess var hdt h => ?_
    obtain ⟨lhs, rhs, h1, -, h3⟩ := update_eliminated _ _ _ _ _ h
    obtain rfl : (fun r s =>
        diagonalOps.viscosity r s + diagonalOps.elasticity r s * (1 / 2)) = lhs := by
      simpa [updateLhs, dynamicLhs, quasistaticLhs, diagonalEngine, hdt, required, bind, Except.bind,
        pure, Except.pure] using h1
    change Solves _ S.system fun r => S.system.rhs r / S.system.lhs r r
    rw [h3]
    refine diagonal_solves .quasistaticGlobal .quasistaticVelocity 2 _ rhs (fun r s hne => ?_) fun r => ?_
    · simp [diagonalOps, exampleOps, hne]
    · simp [diagonalOps, exampleOps]; norm_num
  · refine C71_exact _ _ 1 rfl (diagonal_valid _ _) (diagonal_data _ _ 1) _ fun S guess var hdt h => ?_
    obtain ⟨lhs, rhs, h1, -, h3⟩ := update_eliminated _ _ _ _ _ h
    obtain rfl : (fun r s => 1 / (1 / 2 : ℚ) * diagonalOps.acceleration r s +
        diagonalOps.poisson r s * (1 / 2)) = lhs := by
      simpa [updateLhs, dynamicLhs, quasistaticLhs, diagonalEngine, hdt, required, bind, Except.bind,
        pure, Except.pure] using h1
    change Solves _ S.system fun r => S.system.rhs r / S.system.lhs r r
    rw [h3]
    refine diagonal_solves .dynamicGlobal .wave 1 _ rhs (fun r s hne => ?_) fun r => ?_
    · simp [diagonalOps, exampleOps, hne]
    · simp [diagonalOps, exampleOps]; norm_num

end Conmech
