import Verif.Props.Energy
/-!
C72: the momentum of bodies without contact changes by the impulse of the loads, for every rigid motion
which the supports allow. C73: bodies at rest in equilibrium stay at rest.

`D` is the set of constrained degrees of freedom; the prescribed velocities are zero.
-/
namespace Conmech
open Spec

section
variable {K : Type} [Field K] [LinearOrder K] [IsStrictOrderedRing K] {V : Type}

/-- `step_solver.solve` solves the systems that can occur during the run. -/
def ExactSolve (e : Engine K) (n : ℕ) (dt : K) : Prop :=
  ∀ (S : SolverState K) (guess : ℕ → K) (var : Variables K), var.timeStep = some dt →
    e.kind.update e.ops e.boundaries var = .ok S.system → Solves n S.system (e.solve S guess)

theorem between_time (e : Engine K) (dt : K) (sim sim' : Simulation K V)
    (hb : Between e dt sim.solver sim.state.toSnapshot) (h : e.step .velocity sim = .ok sim') :
    sim'.state.time = sim.state.time + dt := by
  obtain ⟨s1, _⟩ := velocity_step e _ _ h
  have := hb.time
  change sim.state.time = _ at this
  rw [s1, this, hb.timeStep]

/-- The equations of one step of dynamic elasticity. -/
theorem dynamic_step_rows {c : ProblemClass} (e : Engine K) (hk : e.kind = .dynamicVelocity)
    (hr : Registered c e.cls e.kind) (hne : e.cls ≠ .direct) {d : ℕ} (hdim : e.ops.dimension = d)
    (D : ℕ → Prop) [DecidablePred D] (hv : ValidBoundaries e.ops.nodesCount e.boundaries)
    (hd : DirichletData e.ops.nodesCount 2 e.boundaries D fun _ => 0)
    (dt : K) (hs : ExactSolve e (d * e.ops.nodesCount) dt) (sim sim' : Simulation K V)
    (hb : Between e dt sim.solver sim.state.toSnapshot) (h : e.step .velocity sim = .ok sim') :
    let n := d * e.ops.nodesCount
    let u := State.flatten e.grid sim.state.displacement
    let v := State.flatten e.grid sim.state.velocity
    let w := State.flatten e.grid sim'.state.velocity
    (∀ r < n, D r → w r = 0) ∧
    ∀ r < n, ¬ D r →
      act n e.ops.acceleration (fun i => (w i - v i) / dt) r + act n e.ops.viscosity w r +
        act n e.ops.elasticity (fun i => u i + dt * w i) r = e.ops.force sim.solver.currentTime r := by
  intro n u v w
  obtain ⟨h1, hu, S, guess, h2, h3⟩ := between_step e hr hne (by rw [hk]; simp) dt sim sim' hb h
  have hP := hs S guess _ rfl h2
  have hvel : w = e.solve S guess := by
    change State.flatten e.grid sim'.state.velocity = _
    rw [h3]; exact flatten_unflatten _ _
  rw [hk] at h2
  have h4 : applyDirichlet e.ops.nodesCount 2 e.boundaries
      ⟨fun r s => e.ops.viscosity r s + 1 / dt * e.ops.acceleration r s + e.ops.elasticity r s * dt,
        fun r => e.ops.force sim.solver.currentTime r +
          (matVec (e.ops.dimension * e.ops.nodesCount) (fun r s => -1 * e.ops.elasticity r s)
            (State.flatten e.grid sim.state.displacement) r +
          matVec (e.ops.dimension * e.ops.nodesCount) (fun r s => 1 / dt * e.ops.acceleration r s)
            (State.flatten e.grid sim.state.velocity) r)⟩ = S.system := Except.ok.inj h2
  rw [hdim] at h4
  rw [← h4] at hP
  have hP := elimination_size _ _ _ _ _ D hv hd _ hP
  rw [← hvel] at hP
  refine ⟨hP.1, fun r hr' hD => ?_⟩
  have := hP.2 r hr' hD
  unfold Row at this
  have := sub_eq_zero.2 this
  simp only at this
  rw [dynamic_residual] at this
  exact sub_eq_zero.1 this

/-- The equations of one step of the wave equation. -/
theorem wave_step_rows {c : ProblemClass} (e : Engine K) (hk : e.kind = .wave)
    (hr : Registered c e.cls e.kind) (hne : e.cls ≠ .direct)
    (D : ℕ → Prop) [DecidablePred D] (hv : ValidBoundaries e.ops.nodesCount e.boundaries)
    (hd : DirichletData e.ops.nodesCount 1 e.boundaries D fun _ => 0)
    (dt : K) (hs : ExactSolve e e.ops.nodesCount dt) (sim sim' : Simulation K V)
    (hb : Between e dt sim.solver sim.state.toSnapshot) (h : e.step .velocity sim = .ok sim') :
    let n := e.ops.nodesCount
    let u := State.flatten e.grid sim.state.displacement
    let v := State.flatten e.grid sim.state.velocity
    let w := State.flatten e.grid sim'.state.velocity
    (∀ r < n, D r → w r = 0) ∧
    ∀ r < n, ¬ D r →
      act n e.ops.acceleration (fun i => (w i - v i) / dt) r +
        act n e.ops.poisson (fun i => u i + dt * w i) r = e.ops.force sim.solver.currentTime r := by
  intro n u v w
  obtain ⟨h1, hu, S, guess, h2, h3⟩ := between_step e hr hne (by rw [hk]; simp) dt sim sim' hb h
  have hP := hs S guess _ rfl h2
  have hvel : w = e.solve S guess := by
    change State.flatten e.grid sim'.state.velocity = _
    rw [h3]; exact flatten_unflatten _ _
  rw [hk] at h2
  have h4 : applyDirichlet e.ops.nodesCount 1 e.boundaries
      ⟨fun r s => 1 / dt * e.ops.acceleration r s + e.ops.poisson r s * dt,
        fun r => e.ops.force sim.solver.currentTime r +
          (matVec e.ops.nodesCount (fun r s => -1 * e.ops.poisson r s)
            (State.flatten e.grid sim.state.displacement) r +
          matVec e.ops.nodesCount (fun r s => 1 / dt * e.ops.acceleration r s)
            (State.flatten e.grid sim.state.velocity) r)⟩ = S.system := Except.ok.inj h2
  have hel := C12_elimination_equivalent e.ops.nodesCount 1 e.boundaries
      ⟨fun r s => 1 / dt * e.ops.acceleration r s + e.ops.poisson r s * dt,
        fun r => e.ops.force sim.solver.currentTime r +
          (matVec e.ops.nodesCount (fun r s => -1 * e.ops.poisson r s)
            (State.flatten e.grid sim.state.displacement) r +
          matVec e.ops.nodesCount (fun r s => 1 / dt * e.ops.acceleration r s)
            (State.flatten e.grid sim.state.velocity) r)⟩ D _ hv hd (e.solve S guess)
  rw [Nat.one_mul] at hel
  rw [← h4, hel, ← hvel] at hP
  refine ⟨hP.1, fun r hr' hD => ?_⟩
  have := hP.2 r hr' hD
  unfold Row at this
  have := sub_eq_zero.2 this
  have e2 := dynamic_residual n r u v w (e.ops.force sim.solver.currentTime) dt (fun _ _ => 0)
    e.ops.poisson e.ops.acceleration
  simp only [zero_add] at e2
  have e3 : act n (fun _ _ => (0 : K)) w r = 0 := by simp [act]
  rw [e3, add_zero] at e2
  exact sub_eq_zero.1 (e2.symm.trans this)

/-- An operator that exerts no force in the direction of `w`. -/
theorem unresisted_sum {n : ℕ} {A : ℕ → ℕ → K} {w : ℕ → K} (h : Unresisted n A w) (x : ℕ → K) :
    ∑ r ∈ Finset.range n, w r * act n A x r = 0 := by
  simp only [act, Finset.mul_sum]
  rw [Finset.sum_comm]
  refine Finset.sum_eq_zero fun s hs => ?_
  rw [← zero_mul (x s), ← h s (Finset.mem_range.1 hs), Finset.sum_mul]
  exact Finset.sum_congr rfl fun r _ => by ring

theorem momentum_sub (n : ℕ) (M : ℕ → ℕ → K) (z v w : ℕ → K) (dt : K) :
    ∑ r ∈ Finset.range n, z r * act n M (fun i => (w i - v i) / dt) r =
      (momentum n M z w - momentum n M z v) / dt := by
  have e : (fun i => (w i - v i) / dt) = fun i => (1 / dt) * (w i - v i) := by funext i; ring
  unfold momentum
  rw [bilin_eq_act, bilin_eq_act, bilin_eq_act, e, bilin_smul_right, bilin_sub_right]
  ring

/-- The balance of one step. -/
theorem momentum_balance (n : ℕ) (D : ℕ → Prop) [DecidablePred D] (M A B : ℕ → ℕ → K)
    (f u v w z : ℕ → K) (dt : K) (hdt : dt ≠ 0) (hz : ∀ r < n, D r → z r = 0)
    (hA : Unresisted n A z) (hB : Unresisted n B z)
    (h : ∀ r < n, ¬ D r → act n M (fun i => (w i - v i) / dt) r + act n A w r +
      act n B (fun i => u i + dt * w i) r = f r) :
    momentum n M z w = momentum n M z v + dt * ∑ r ∈ Finset.range n, z r * f r := by
  have key : ∑ r ∈ Finset.range n, z r * (act n M (fun i => (w i - v i) / dt) r + act n A w r +
      act n B (fun i => u i + dt * w i) r) = ∑ r ∈ Finset.range n, z r * f r := by
    refine Finset.sum_congr rfl fun r hr => ?_
    by_cases hD : D r
    · rw [hz r (Finset.mem_range.1 hr) hD]; ring
    · rw [h r (Finset.mem_range.1 hr) hD]
  simp only [mul_add, Finset.sum_add_distrib] at key
  rw [unresisted_sum hA, unresisted_sum hB, momentum_sub] at key
  rw [← key]
  field_simp
  ring

/-! ### Momentum -/

/-- C72, dynamic elasticity with any loads: after `k` steps the momentum in the direction of `z` has
changed by the impulse of the loads at the times `t₀, t₀ + dt, …`. -/
theorem C72_steps {c : ProblemClass} (e : Engine K) (hk : e.kind = .dynamicVelocity)
    (hr : Registered c e.cls e.kind) (hne : e.cls ≠ .direct) {d : ℕ} (hdim : e.ops.dimension = d)
    (D : ℕ → Prop) [DecidablePred D] (hv : ValidBoundaries e.ops.nodesCount e.boundaries)
    (hd : DirichletData e.ops.nodesCount 2 e.boundaries D fun _ => 0) (z : ℕ → K)
    (hz : ∀ r < d * e.ops.nodesCount, D r → z r = 0)
    (hA : Unresisted (d * e.ops.nodesCount) e.ops.viscosity z)
    (hB : Unresisted (d * e.ops.nodesCount) e.ops.elasticity z)
    (m : ℕ) (traj : ℕ → Simulation K V) (hf : Follows (e.step .velocity) m traj)
    (h0 : Ready e (traj 0)) (hv0 : (traj 0).solver.vVector = State.flatten e.grid (traj 0).state.velocity)
    (ht0 : (traj 0).state.time = (traj 0).solver.currentTime)
    (hdt : (traj 0).solver.timeStep ≠ 0)
    (hs : ExactSolve e (d * e.ops.nodesCount) (traj 0).solver.timeStep) (k : ℕ) (hkm : k ≤ m) :
    momentum (d * e.ops.nodesCount) e.ops.acceleration z (State.flatten e.grid (traj k).state.velocity) =
      momentum (d * e.ops.nodesCount) e.ops.acceleration z (State.flatten e.grid (traj 0).state.velocity) +
      (traj 0).solver.timeStep * ∑ j ∈ Finset.range k, ∑ r ∈ Finset.range (d * e.ops.nodesCount),
        z r * e.ops.force ((traj 0).state.time + j * (traj 0).solver.timeStep) r := by
  have main : ∀ k ≤ m, Between e (traj 0).solver.timeStep (traj k).solver (traj k).state.toSnapshot ∧
      (traj k).state.time = (traj 0).state.time + k * (traj 0).solver.timeStep ∧
      momentum (d * e.ops.nodesCount) e.ops.acceleration z (State.flatten e.grid (traj k).state.velocity) =
      momentum (d * e.ops.nodesCount) e.ops.acceleration z (State.flatten e.grid (traj 0).state.velocity) +
      (traj 0).solver.timeStep * ∑ j ∈ Finset.range k, ∑ r ∈ Finset.range (d * e.ops.nodesCount),
        z r * e.ops.force ((traj 0).state.time + j * (traj 0).solver.timeStep) r := by
    intro k
    induction k with
    | zero => intro _; exact ⟨⟨h0.1, h0.2, hv0, ht0, rfl⟩, by simp, by simp⟩
    | succ k ih =>
      intro hkm
      obtain ⟨i1, i2, i3⟩ := ih (by omega)
      have hstep := hf k (by omega)
      have hb := (between_step e hr hne (by rw [hk]; simp) _ _ _ i1 hstep).1
      have htime := between_time e _ _ _ i1 hstep
      obtain ⟨-, hrows⟩ := dynamic_step_rows e hk hr hne hdim D hv hd _ hs _ _ i1 hstep
      have hbal := momentum_balance _ D _ _ _ _ _ _ _ z _ hdt hz hA hB hrows
      refine ⟨hb, by rw [htime, i2]; push_cast; ring, ?_⟩
      have hcur : (traj k).solver.currentTime =
          (traj 0).state.time + k * (traj 0).solver.timeStep := by rw [← i2]; exact i1.time.symm
      rw [hbal, i3, Finset.sum_range_succ, hcur]
      ring
  exact (main k hkm).2.2

/-- C72, dynamic elasticity, constant loads: for all states returned by `solve` the momentum is that of
the initial state plus the elapsed time times the total load. -/
theorem C72_dynamic {c : ProblemClass} (e : Engine K) (hk : e.kind = .dynamicVelocity)
    (hr : Registered c e.cls e.kind) (hne : e.cls ≠ .direct) {d : ℕ} (hdim : e.ops.dimension = d)
    (D : ℕ → Prop) [DecidablePred D] (hv : ValidBoundaries e.ops.nodesCount e.boundaries)
    (hd : DirichletData e.ops.nodesCount 2 e.boundaries D fun _ => 0) (z : ℕ → K)
    (hz : ∀ r < d * e.ops.nodesCount, D r → z r = 0)
    (hA : Unresisted (d * e.ops.nodesCount) e.ops.viscosity z)
    (hB : Unresisted (d * e.ops.nodesCount) e.ops.elasticity z)
    (f : ℕ → K) (hf : ∀ t, e.ops.force t = f)
    (a : Engine.Arguments K) (solver : SolverState K) (hdt : solver.timeStep ≠ 0)
    (hc : solver.currentTime = 0) (hs : ExactSolve e (d * e.ops.nodesCount) solver.timeStep)
    (store : ProductStore K V) (rs : List (State K)) (sim : Simulation K V)
    (h : e.timeDependentSolve a solver store = .ok (rs, sim)) (s : State K) (hmem : s ∈ rs) :
    momentum (d * e.ops.nodesCount) e.ops.acceleration z (State.flatten e.grid s.velocity) =
      momentum (d * e.ops.nodesCount) e.ops.acceleration z (State.flatten e.grid a.initialVelocity) +
      s.time * ∑ r ∈ Finset.range (d * e.ops.nodesCount), z r * f r := by
  have := timeDependent_relation e a solver store hc
    (fun s s' => momentum (d * e.ops.nodesCount) e.ops.acceleration z (State.flatten e.grid s'.velocity) =
      momentum (d * e.ops.nodesCount) e.ops.acceleration z (State.flatten e.grid s.velocity) +
      (s'.time - s.time) * ∑ r ∈ Finset.range (d * e.ops.nodesCount), z r * f r)
    (fun _ => by ring) (fun _ _ _ h1 h2 => by rw [h2, h1]; ring)
    (fun sim sim' hb hstep => by
      have hb' := (between_step e hr hne (by rw [hk]; simp) _ _ _ hb hstep).1
      have htime := between_time e _ _ _ hb hstep
      obtain ⟨-, hrows⟩ := dynamic_step_rows e hk hr hne hdim D hv hd _ hs _ _ hb hstep
      have hbal := momentum_balance _ D _ _ _ _ _ _ _ z _ hdt hz hA hB hrows
      refine ⟨hb', ?_⟩
      have e1 : sim'.state.toSnapshot.time - sim.state.toSnapshot.time = solver.timeStep := by
        change sim'.state.time - sim.state.time = _
        rw [htime]; ring
      rw [e1]
      rw [hf] at hbal
      exact hbal) rs sim h
  have := (List.pairwise_cons.1 this).1 s.toSnapshot (List.mem_map_of_mem hmem)
  simpa [State.new] using this

/-- C72, waves (from the beginning or resumed), constant loads. -/
theorem C72_wave {c : ProblemClass} (e : Engine K) (hk : e.kind = .wave)
    (hr : Registered c e.cls e.kind) (hne : e.cls ≠ .direct)
    (D : ℕ → Prop) [DecidablePred D] (hv : ValidBoundaries e.ops.nodesCount e.boundaries)
    (hd : DirichletData e.ops.nodesCount 1 e.boundaries D fun _ => 0) (z : ℕ → K)
    (hz : ∀ r < e.ops.nodesCount, D r → z r = 0)
    (hB : Unresisted e.ops.nodesCount e.ops.poisson z)
    (f : ℕ → K) (hf : ∀ t, e.ops.force t = f)
    (a : Engine.Arguments K) (resume : Option (State K)) (solver : SolverState K)
    (hdt : solver.timeStep ≠ 0) (hs : ExactSolve e e.ops.nodesCount solver.timeStep)
    (store : ProductStore K V) (rs : List (State K)) (sim : Simulation K V)
    (h : e.waveSolve a resume solver store = .ok (rs, sim)) (s : State K) (hmem : s ∈ rs) :
    momentum e.ops.nodesCount e.ops.acceleration z (State.flatten e.grid s.velocity) =
      momentum e.ops.nodesCount e.ops.acceleration z
        (State.flatten e.grid (resume.elim a.initialVelocity fun s => s.velocity)) +
      (s.time - resume.elim 0 fun s => s.time) * ∑ r ∈ Finset.range e.ops.nodesCount, z r * f r := by
  have := wave_relation e a resume solver store
    (fun s s' => momentum e.ops.nodesCount e.ops.acceleration z (State.flatten e.grid s'.velocity) =
      momentum e.ops.nodesCount e.ops.acceleration z (State.flatten e.grid s.velocity) +
      (s'.time - s.time) * ∑ r ∈ Finset.range e.ops.nodesCount, z r * f r)
    (fun _ => by ring) (fun _ _ _ h1 h2 => by rw [h2, h1]; ring)
    (fun sim sim' hb hstep => by
      have hb' := (between_step e hr hne (by rw [hk]; simp) _ _ _ hb hstep).1
      have htime := between_time e _ _ _ hb hstep
      obtain ⟨-, hrows⟩ := wave_step_rows e hk hr hne D hv hd _ hs _ _ hb hstep
      have hbal := momentum_balance e.ops.nodesCount D e.ops.acceleration (fun _ _ => 0) e.ops.poisson
        _ _ _ _ z _ hdt hz (fun s _ => by simp) hB (fun r hr hD => by
          rw [show act e.ops.nodesCount (fun _ _ => (0 : K))
            (State.flatten e.grid sim'.state.velocity) r = 0 by simp [act], add_zero, hrows r hr hD])
      refine ⟨hb', ?_⟩
      have e1 : sim'.state.toSnapshot.time - sim.state.toSnapshot.time = solver.timeStep := by
        change sim'.state.time - sim.state.time = _
        rw [htime]; ring
      rw [e1]
      rw [hf] at hbal
      exact hbal) rs sim h
  have := (List.pairwise_cons.1 this).1 s.toSnapshot (List.mem_map_of_mem hmem)
  cases resume <;> simpa [waveInitial, State.new] using this

/-- C72: on a triangular mesh translations and rotations meet no resistance, and constants none in the
wave equation. -/
theorem C72_rigid2 {N : ℕ} {elements : List (List ℕ)} {nodes : ℕ → ℕ → K}
    (hv : ValidElements 2 N elements) (hn : Nondegenerate2 elements nodes) (mu lam propagation : K)
    (z : ℕ → K) :
    (RigidMotion 2 N nodes z →
      Unresisted (2 * N) (Plane.constitutive N (basicMatrices2 elements nodes).W mu lam) z) ∧
    ((∀ p < N, z p = z 0) →
      Unresisted N (poissonMatrix 2 (basicMatrices2 elements nodes).W propagation) z) := by
  constructor
  · intro hz s hs
    rw [← C26_rigid hv hn mu lam z hz s hs]
    exact Finset.sum_congr rfl fun r hr => by
      rw [C26_symmetric hv hn mu lam r (Finset.mem_range.1 hr) s hs, mul_comm]
  · intro hz s hs
    obtain ⟨h1, -, -, h4, -⟩ := C25_poisson2 hv hn propagation
    rw [← h4 (z 0) s hs]
    exact Finset.sum_congr rfl fun r hr => by
      rw [h1 r (Finset.mem_range.1 hr) s hs, hz r (Finset.mem_range.1 hr), mul_comm]

/-! ### Rest -/

/-- A step from rest. -/
theorem rest_step (n : ℕ) (D : ℕ → Prop) [DecidablePred D] (M A B : ℕ → ℕ → K)
    (hM : StoresEnergy n M) (hA : Dissipates n A) (hB : StoresEnergy n B)
    (f u v w : ℕ → K) (dt : K) (hdt : 0 < dt) (hrest : AtRest n D B f u v)
    (hdef : DefiniteOn n D M ∨ DefiniteOn n D A)
    (hD : ∀ r < n, D r → w r = 0)
    (h : ∑ r ∈ Finset.range n, w r * (act n M (fun i => (w i - v i) / dt) r + act n A w r +
        act n B (fun i => u i + dt * w i) r - f r) ≤ 0) :
    ∀ r < n, w r = 0 := by
  have e0 : ∀ r, act n M (fun i => (w i - v i) / dt) r = 1 / dt * act n M w r := by
    intro r
    simp only [act, Finset.mul_sum]
    refine Finset.sum_congr rfl fun s hs => ?_
    rw [hrest.velocity s (Finset.mem_range.1 hs)]
    ring
  have e1 : ∀ r, act n B (fun i => u i + dt * w i) r = act n B u r + dt * act n B w r := by
    intro r
    simp only [act, Finset.mul_sum, ← Finset.sum_add_distrib]
    exact Finset.sum_congr rfl fun s _ => by ring
  have e2 : ∑ r ∈ Finset.range n, w r * (act n M (fun i => (w i - v i) / dt) r + act n A w r +
        act n B (fun i => u i + dt * w i) r - f r) =
      1 / dt * quad n M w + quad n A w + dt * quad n B w := by
    rw [quad_eq_bilin, quad_eq_bilin, quad_eq_bilin, ← bilin_eq_act, ← bilin_eq_act, ← bilin_eq_act,
      Finset.mul_sum, Finset.mul_sum, ← Finset.sum_add_distrib, ← Finset.sum_add_distrib]
    refine Finset.sum_congr rfl fun r hr => ?_
    rw [e0, e1]
    by_cases hDr : D r
    · rw [hD r (Finset.mem_range.1 hr) hDr]; ring
    · rw [hrest.equilibrium r (Finset.mem_range.1 hr) hDr]; ring
  rw [e2] at h
  have h1 := mul_nonneg (one_div_nonneg.2 hdt.le) (hM.nonneg w)
  have h2 := hA.nonneg w
  have h3 := mul_nonneg hdt.le (hB.nonneg w)
  rcases hdef with hdef | hdef
  · refine hdef w hD ?_
    have : 1 / dt * quad n M w = 0 := by linarith
    exact (mul_eq_zero.1 this).resolve_left (by positivity)
  · exact hdef w hD (by linarith)

/-- What C73 says about two states. -/
def StaysAtRest (e : Engine K) (n : ℕ) (D : ℕ → Prop) (B : ℕ → ℕ → K) (f : ℕ → K)
    (s s' : Snapshot K) : Prop :=
  AtRest n D B f (State.flatten e.grid s.displacement) (State.flatten e.grid s.velocity) →
    ∀ r < n, State.flatten e.grid s'.displacement r = State.flatten e.grid s.displacement r ∧
      State.flatten e.grid s'.velocity r = State.flatten e.grid s.velocity r

omit [IsStrictOrderedRing K] [LinearOrder K] in
theorem staysAtRest_trans (e : Engine K) (n : ℕ) (D : ℕ → Prop) (B : ℕ → ℕ → K) (f : ℕ → K)
    (s s' s'' : Snapshot K) (h1 : StaysAtRest e n D B f s s') (h2 : StaysAtRest e n D B f s' s'') :
    StaysAtRest e n D B f s s'' := by
  intro hrest r hr
  have a1 := h1 hrest
  have a2 := h2 ⟨fun q hq hD => by
      rw [← hrest.equilibrium q hq hD]
      exact Finset.sum_congr rfl fun s hs => by rw [(a1 s (Finset.mem_range.1 hs)).1],
    fun q hq => by rw [(a1 q hq).2, hrest.velocity q hq]⟩ r hr
  exact ⟨a2.1.trans (a1 r hr).1, a2.2.trans (a1 r hr).2⟩

/-- C73, dynamic elasticity: a body which starts at rest in equilibrium stays there. Contact is allowed
as long as it does no positive work. -/
theorem C73_dynamic {c : ProblemClass} (e : Engine K) (hk : e.kind = .dynamicVelocity)
    (hr : Registered c e.cls e.kind) (hne : e.cls ≠ .direct) {d : ℕ} (hdim : e.ops.dimension = d)
    (D : ℕ → Prop) [DecidablePred D] (hv : ValidBoundaries e.ops.nodesCount e.boundaries)
    (hd : DirichletData e.ops.nodesCount 2 e.boundaries D fun _ => 0)
    (f : ℕ → K) (hf : ∀ t, e.ops.force t = f)
    (hM : StoresEnergy (d * e.ops.nodesCount) e.ops.acceleration)
    (hA : Dissipates (d * e.ops.nodesCount) e.ops.viscosity)
    (hB : StoresEnergy (d * e.ops.nodesCount) e.ops.elasticity)
    (hdef : DefiniteOn (d * e.ops.nodesCount) D e.ops.acceleration ∨
      DefiniteOn (d * e.ops.nodesCount) D e.ops.viscosity)
    (a : Engine.Arguments K) (solver : SolverState K) (hdt : 0 < solver.timeStep)
    (hc : solver.currentTime = 0) (hs : PassiveSolve e (d * e.ops.nodesCount) D solver.timeStep)
    (store : ProductStore K V)
    (hrest : AtRest (d * e.ops.nodesCount) D e.ops.elasticity f
      (State.flatten e.grid a.initialDisplacement) (State.flatten e.grid a.initialVelocity))
    (rs : List (State K)) (sim : Simulation K V)
    (h : e.timeDependentSolve a solver store = .ok (rs, sim)) (s : State K) (hmem : s ∈ rs) :
    ∀ r < d * e.ops.nodesCount,
      State.flatten e.grid s.displacement r = State.flatten e.grid a.initialDisplacement r ∧
      State.flatten e.grid s.velocity r = 0 := by
  have := timeDependent_relation e a solver store hc
    (StaysAtRest e (d * e.ops.nodesCount) D e.ops.elasticity f) (fun _ _ _ _ => ⟨rfl, rfl⟩)
    (staysAtRest_trans e _ D _ f) (fun sim sim' hb hstep => by
      obtain ⟨h1, hu, S, guess, h2, h3⟩ := between_step e hr hne (by rw [hk]; simp) _ sim sim' hb hstep
      refine ⟨h1, fun hrest => ?_⟩
      obtain ⟨hD, hP⟩ := hs S guess _ rfl h2
      rw [hk] at h2
      have h4 : applyDirichlet e.ops.nodesCount 2 e.boundaries
          ⟨fun r s => e.ops.viscosity r s + 1 / solver.timeStep * e.ops.acceleration r s +
              e.ops.elasticity r s * solver.timeStep,
            fun r => e.ops.force sim.solver.currentTime r +
              (matVec (e.ops.dimension * e.ops.nodesCount) (fun r s => -1 * e.ops.elasticity r s)
                (State.flatten e.grid sim.state.displacement) r +
              matVec (e.ops.dimension * e.ops.nodesCount)
                (fun r s => 1 / solver.timeStep * e.ops.acceleration r s)
                (State.flatten e.grid sim.state.velocity) r)⟩ = S.system := Except.ok.inj h2
      rw [hdim] at h4
      rw [← h4, passive_elimination_size _ _ _ _ _ D hv hd _ hD] at hP
      have hvel : State.flatten e.grid sim'.state.velocity = e.solve S guess := by
        rw [h3]; exact flatten_unflatten _ _
      have hdis := new_displacement e _ sim.state.toSnapshot sim'.state.toSnapshot _ hu h3
      have hzero := rest_step _ D _ _ _ hM hA hB f (State.flatten e.grid sim.state.displacement)
        (State.flatten e.grid sim.state.velocity) (e.solve S guess) _ hdt hrest hdef hD (by
          refine le_trans (le_of_eq (Finset.sum_congr rfl fun r _ => ?_)) hP
          congr 1
          rw [← dynamic_residual]
          simp only [hf])
      intro r hr'
      refine ⟨?_, ?_⟩
      · rw [congrFun hdis r, hzero r hr']; ring
      · rw [show State.flatten e.grid sim'.state.toSnapshot.velocity = _ from hvel, hzero r hr',
          hrest.velocity r hr']) rs sim h
  have := (List.pairwise_cons.1 this).1 s.toSnapshot (List.mem_map_of_mem hmem) hrest
  intro r hr'
  exact ⟨(this r hr').1, (this r hr').2.trans (hrest.velocity r hr')⟩

/-- C73, waves. -/
theorem C73_wave {c : ProblemClass} (e : Engine K) (hk : e.kind = .wave)
    (hr : Registered c e.cls e.kind) (hne : e.cls ≠ .direct)
    (D : ℕ → Prop) [DecidablePred D] (hv : ValidBoundaries e.ops.nodesCount e.boundaries)
    (hd : DirichletData e.ops.nodesCount 1 e.boundaries D fun _ => 0)
    (f : ℕ → K) (hf : ∀ t, e.ops.force t = f)
    (hM : StoresEnergy e.ops.nodesCount e.ops.acceleration)
    (hB : StoresEnergy e.ops.nodesCount e.ops.poisson)
    (hdef : DefiniteOn e.ops.nodesCount D e.ops.acceleration)
    (a : Engine.Arguments K) (resume : Option (State K)) (solver : SolverState K)
    (hdt : 0 < solver.timeStep) (hs : PassiveSolve e e.ops.nodesCount D solver.timeStep)
    (store : ProductStore K V)
    (hrest : AtRest e.ops.nodesCount D e.ops.poisson f
      (State.flatten e.grid (resume.elim a.initialDisplacement fun s => s.displacement))
      (State.flatten e.grid (resume.elim a.initialVelocity fun s => s.velocity)))
    (rs : List (State K)) (sim : Simulation K V)
    (h : e.waveSolve a resume solver store = .ok (rs, sim)) (s : State K) (hmem : s ∈ rs) :
    ∀ r < e.ops.nodesCount,
      State.flatten e.grid s.displacement r =
        State.flatten e.grid (resume.elim a.initialDisplacement fun s => s.displacement) r ∧
      State.flatten e.grid s.velocity r = 0 := by
  have hz : ∀ x, quad e.ops.nodesCount (fun _ _ => (0 : K)) x = 0 := fun x => by simp [quad]
  have := wave_relation e a resume solver store
    (StaysAtRest e e.ops.nodesCount D e.ops.poisson f) (fun _ _ _ _ => ⟨rfl, rfl⟩)
    (staysAtRest_trans e _ D _ f) (fun sim sim' hb hstep => by
      obtain ⟨h1, hu, S, guess, h2, h3⟩ := between_step e hr hne (by rw [hk]; simp) _ sim sim' hb hstep
      refine ⟨h1, fun hrest => ?_⟩
      obtain ⟨hD, hP⟩ := hs S guess _ rfl h2
      rw [hk] at h2
      have h4 : applyDirichlet e.ops.nodesCount 1 e.boundaries
          ⟨fun r s => 1 / solver.timeStep * e.ops.acceleration r s + e.ops.poisson r s * solver.timeStep,
            fun r => e.ops.force sim.solver.currentTime r +
              (matVec e.ops.nodesCount (fun r s => -1 * e.ops.poisson r s)
                (State.flatten e.grid sim.state.displacement) r +
              matVec e.ops.nodesCount (fun r s => 1 / solver.timeStep * e.ops.acceleration r s)
                (State.flatten e.grid sim.state.velocity) r)⟩ = S.system := Except.ok.inj h2
      have hel := passive_elimination e.ops.nodesCount 1 e.boundaries
        ⟨fun r s => 1 / solver.timeStep * e.ops.acceleration r s + e.ops.poisson r s * solver.timeStep,
          fun r => e.ops.force sim.solver.currentTime r +
            (matVec e.ops.nodesCount (fun r s => -1 * e.ops.poisson r s)
              (State.flatten e.grid sim.state.displacement) r +
            matVec e.ops.nodesCount (fun r s => 1 / solver.timeStep * e.ops.acceleration r s)
              (State.flatten e.grid sim.state.velocity) r)⟩ D hv hd (e.solve S guess)
        (by rw [Nat.one_mul]; exact hD)
      rw [Nat.one_mul] at hel
      rw [← h4, hel] at hP
      have hvel : State.flatten e.grid sim'.state.velocity = e.solve S guess := by
        rw [h3]; exact flatten_unflatten _ _
      have hdis := new_displacement e _ sim.state.toSnapshot sim'.state.toSnapshot _ hu h3
      have hzero := rest_step _ D _ (fun _ _ => 0) _ hM ⟨fun x => (hz x).ge⟩ hB f
        (State.flatten e.grid sim.state.displacement)
        (State.flatten e.grid sim.state.velocity) (e.solve S guess) _ hdt hrest (Or.inl hdef) hD (by
          refine le_trans (le_of_eq (Finset.sum_congr rfl fun r _ => ?_)) hP
          congr 1
          rw [← dynamic_residual]
          simp only [zero_add, hf])
      intro r hr'
      refine ⟨?_, ?_⟩
      · rw [congrFun hdis r, hzero r hr']; ring
      · rw [show State.flatten e.grid sim'.state.toSnapshot.velocity = _ from hvel, hzero r hr',
          hrest.velocity r hr']) rs sim h
  have hinit : AtRest e.ops.nodesCount D e.ops.poisson f
      (State.flatten e.grid (waveInitial e a resume).displacement)
      (State.flatten e.grid (waveInitial e a resume).velocity) := by
    cases resume <;> exact hrest
  have := (List.pairwise_cons.1 this).1 s.toSnapshot (List.mem_map_of_mem hmem) hinit
  intro r hr'
  refine ⟨(this r hr').1.trans ?_, (this r hr').2.trans (hinit.velocity r hr')⟩
  cases resume <;> rfl

/-- C73, quasistatic elasticity: a body which starts in equilibrium stays there; the initial velocity
has no effect. -/
theorem C73_quasistatic {c : ProblemClass} (e : Engine K) (hk : e.kind = .quasistaticVelocity)
    (hr : Registered c e.cls e.kind) (hne : e.cls ≠ .direct) {d : ℕ} (hdim : e.ops.dimension = d)
    (D : ℕ → Prop) [DecidablePred D] (hv : ValidBoundaries e.ops.nodesCount e.boundaries)
    (hd : DirichletData e.ops.nodesCount 2 e.boundaries D fun _ => 0)
    (f : ℕ → K) (hf : ∀ t, e.ops.force t = f)
    (hA : Dissipates (d * e.ops.nodesCount) e.ops.viscosity)
    (hB : StoresEnergy (d * e.ops.nodesCount) e.ops.elasticity)
    (hdef : DefiniteOn (d * e.ops.nodesCount) D e.ops.viscosity)
    (a : Engine.Arguments K) (solver : SolverState K) (hdt : 0 < solver.timeStep)
    (hc : solver.currentTime = 0) (hs : PassiveSolve e (d * e.ops.nodesCount) D solver.timeStep)
    (store : ProductStore K V)
    (hrest : AtRest (d * e.ops.nodesCount) D e.ops.elasticity f
      (State.flatten e.grid a.initialDisplacement) fun _ => 0)
    (rs : List (State K)) (sim : Simulation K V)
    (h : e.timeDependentSolve a solver store = .ok (rs, sim)) (s : State K) (hmem : s ∈ rs) :
    ∀ r < d * e.ops.nodesCount,
      State.flatten e.grid s.displacement r = State.flatten e.grid a.initialDisplacement r := by
  have hz : ∀ x, quad (d * e.ops.nodesCount) (fun _ _ => (0 : K)) x = 0 := fun x => by simp [quad]
  have := timeDependent_relation e a solver store hc
    (fun s s' => AtRest (d * e.ops.nodesCount) D e.ops.elasticity f
        (State.flatten e.grid s.displacement) (fun _ => 0) →
      ∀ r < d * e.ops.nodesCount,
        State.flatten e.grid s'.displacement r = State.flatten e.grid s.displacement r)
    (fun _ _ _ _ => rfl)
    (fun s s' s'' h1 h2 hrest r hr => by
      have a1 := h1 hrest
      refine (h2 ⟨fun q hq hD => ?_, fun _ _ => rfl⟩ r hr).trans (a1 r hr)
      rw [← hrest.equilibrium q hq hD]
      exact Finset.sum_congr rfl fun s hs => by rw [a1 s (Finset.mem_range.1 hs)])
    (fun sim sim' hb hstep => by
      obtain ⟨h1, hu, S, guess, h2, h3⟩ := between_step e hr hne (by rw [hk]; simp) _ sim sim' hb hstep
      refine ⟨h1, fun hrest => ?_⟩
      obtain ⟨hD, hP⟩ := hs S guess _ rfl h2
      rw [hk] at h2
      have h4 : applyDirichlet e.ops.nodesCount 2 e.boundaries
          ⟨fun r s => e.ops.viscosity r s + e.ops.elasticity r s * solver.timeStep,
            fun r => e.ops.force sim.solver.currentTime r -
              matVec (e.ops.dimension * e.ops.nodesCount) e.ops.elasticity
                (State.flatten e.grid sim.state.displacement) r⟩ = S.system := Except.ok.inj h2
      rw [hdim] at h4
      rw [← h4, passive_elimination_size _ _ _ _ _ D hv hd _ hD] at hP
      have hdis := new_displacement e _ sim.state.toSnapshot sim'.state.toSnapshot _ hu h3
      have hzero := rest_step _ D (fun _ _ => 0) _ _ ⟨fun _ _ _ _ => rfl, fun x => (hz x).ge⟩ hA hB f
        (State.flatten e.grid sim.state.displacement) (fun _ => 0) (e.solve S guess) _ hdt hrest
        (Or.inr hdef) hD (by
          refine le_trans (le_of_eq (Finset.sum_congr rfl fun r _ => ?_)) hP
          congr 1
          rw [← dynamic_residual]
          simp only [hf, matVec, mul_zero, add_zero, zero_mul, Finset.sum_const_zero, neg_mul, one_mul,
            Finset.sum_neg_distrib]
          ring)
      intro r hr'
      rw [congrFun hdis r, hzero r hr']; ring) rs sim h
  exact (List.pairwise_cons.1 this).1 s.toSnapshot (List.mem_map_of_mem hmem) hrest

end

end Conmech
