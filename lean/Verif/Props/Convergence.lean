import Verif.Lemmas.Motion
import Verif.Props.Balance
import Verif.Props.ContactSolution
/-!
C105: time steps follow the motion of the body, the closer the smaller they are.

`D` is the set of constrained degrees of freedom; the prescribed velocities are zero. `J` is the
potential of contact, as a function of the velocities; `J = 0` without contact.
-/
namespace Conmech
open Spec

section
variable {V : Type}

/-- What is asked of `step_solver.solve`: the prescribed velocities are zero and the residual forces are
those of a contact with the potential `J`. Only systems that can occur during the run matter. -/
def ContactSolve (e : Engine ℝ) (n : ℕ) (D : ℕ → Prop) (dt : ℝ) (J : (ℕ → ℝ) → ℝ) : Prop :=
  ∀ (S : SolverState ℝ) (guess : ℕ → ℝ) (var : Variables ℝ), var.timeStep = some dt →
    e.kind.update e.ops e.boundaries var = .ok S.system →
    Still n D (e.solve S guess) ∧ ∀ y, Still n D y →
      0 ≤ ∑ r ∈ Finset.range n, (y r - e.solve S guess r) *
        (∑ s ∈ Finset.range n, S.system.lhs r s * e.solve S guess s - S.system.rhs r) +
        (J y - J (e.solve S guess))

/-- For zero prescribed values the elimination does not change the residual outside of the supports. -/
theorem residual_elimination {n : ℕ} (N dim : ℕ) (bs : List (CondBoundary ℝ)) (S : System ℝ)
    (D : ℕ → Prop) [DecidablePred D] (hv : ValidBoundaries N bs)
    (hd : DirichletData N dim bs D fun _ => 0) (x z : ℕ → ℝ) (hx : Still n D x)
    (hz : Still n D z) :
    ∑ r ∈ Finset.range n, z r * (∑ s ∈ Finset.range n,
        (applyDirichlet N dim bs S).lhs r s * x s - (applyDirichlet N dim bs S).rhs r) =
      ∑ r ∈ Finset.range n, z r * (∑ s ∈ Finset.range n,
        S.lhs r s * x s - S.rhs r) := by
  have hc := C14_all_at_once_partial N dim bs S D (fun _ => (0 : ℝ)) hv hd
  refine Finset.sum_congr rfl fun r hr => ?_
  by_cases hD : D r
  · rw [hz r (Finset.mem_range.1 hr) hD]; ring
  · congr 1
    rw [(hc r).2, if_neg hD]
    have e1 : ∑ s ∈ Finset.range n, (applyDirichlet N dim bs S).lhs r s * x s =
        ∑ s ∈ Finset.range n, S.lhs r s * x s := by
      refine Finset.sum_congr rfl fun s hs => ?_
      rw [(hc r).1 s]
      by_cases hs' : D s
      · rw [hx s (Finset.mem_range.1 hs) hs']; ring
      · rw [if_neg (by tauto)]
    rw [e1]
    simp

/-- A step of the code is a balanced step of the motion. -/
structure StepOf (n : ℕ) (D : ℕ → Prop) (M A B : ℕ → ℕ → ℝ) (J : (ℕ → ℝ) → ℝ) (f : ℝ → ℕ → ℝ) (dt : ℝ)
    (e : Engine ℝ) (s s' : Snapshot ℝ) : Prop where
  time : s'.time = s.time + dt
  displacement : State.flatten e.grid s'.displacement =
    fun i => State.flatten e.grid s.displacement i + dt * State.flatten e.grid s'.velocity i
  held : Still n D (State.flatten e.grid s'.velocity)
  balanced : Balanced n D M A B J (f s.time)
    (fun i => State.flatten e.grid s.displacement i + dt * State.flatten e.grid s'.velocity i)
    (State.flatten e.grid s'.velocity)
    fun i => (State.flatten e.grid s'.velocity i - State.flatten e.grid s.velocity i) / dt

theorem dynamic_balanced {c : ProblemClass} (e : Engine ℝ) (hk : e.kind = .dynamicVelocity)
    (hr : Registered c e.cls e.kind) (hne : e.cls ≠ .direct) {d : ℕ} (hdim : e.ops.dimension = d)
    (D : ℕ → Prop) [DecidablePred D] (hv : ValidBoundaries e.ops.nodesCount e.boundaries)
    (hd : DirichletData e.ops.nodesCount 2 e.boundaries D fun _ => 0)
    (dt : ℝ) (J : (ℕ → ℝ) → ℝ) (hs : ContactSolve e (d * e.ops.nodesCount) D dt J)
    (sim sim' : Simulation ℝ V)
    (hb : Between e dt sim.solver sim.state.toSnapshot) (h : e.step .velocity sim = .ok sim') :
    Between e dt sim'.solver sim'.state.toSnapshot ∧
    StepOf (d * e.ops.nodesCount) D e.ops.acceleration e.ops.viscosity e.ops.elasticity J
      e.ops.force dt e sim.state.toSnapshot sim'.state.toSnapshot := by
  obtain ⟨h1, hu, S, guess, h2, h3⟩ := between_step e hr hne (by rw [hk]; simp) dt sim sim' hb h
  obtain ⟨hD, hP⟩ := hs S guess _ rfl h2
  rw [hk] at h2
  have h4 : applyDirichlet e.ops.nodesCount 2 e.boundaries
      ⟨fun r s => e.ops.viscosity r s + 1 / dt * e.ops.acceleration r s + e.ops.elasticity r s * dt,
        fun r => e.ops.force sim.solver.currentTime r +
          (matVec (e.ops.dimension * e.ops.nodesCount) (fun r s => -1 * e.ops.elasticity r s)
            (State.flatten e.grid sim.state.displacement) r +
          matVec (e.ops.dimension * e.ops.nodesCount) (fun r s => 1 / dt * e.ops.acceleration r s)
            (State.flatten e.grid sim.state.velocity) r)⟩ = S.system := Except.ok.inj h2
  rw [hdim] at h4
  have hvel : State.flatten e.grid sim'.state.velocity = e.solve S guess := by
    rw [h3]; exact flatten_unflatten _ _
  have hdis := new_displacement e dt sim.state.toSnapshot sim'.state.toSnapshot _ hu h3
  refine ⟨h1, between_time e dt sim sim' hb h, ?_, ?_, ?_⟩
  · change _ = fun i => _ + dt * State.flatten e.grid sim'.state.velocity i
    rw [hvel]; exact hdis
  · change Still _ D (State.flatten e.grid sim'.state.velocity)
    rw [hvel]; exact hD
  · change Balanced _ D _ _ _ J (e.ops.force sim.state.time)
      (fun i => State.flatten e.grid sim.state.displacement i +
        dt * State.flatten e.grid sim'.state.velocity i)
      (State.flatten e.grid sim'.state.velocity)
      fun i => (State.flatten e.grid sim'.state.velocity i - State.flatten e.grid sim.state.velocity i) / dt
    rw [hvel]
    intro y hy
    refine (hP y hy).trans (le_of_eq ?_)
    have hz : Still (d * e.ops.nodesCount) D fun i => y i - e.solve S guess i :=
      fun r hr hDr => by
        beta_reduce
        rw [hy r hr hDr, hD r hr hDr, sub_zero]
    rw [← h4, residual_elimination _ _ _ _ D hv hd _ (fun i => y i - e.solve S guess i) hD hz]
    congr 1
    refine Finset.sum_congr rfl fun r _ => ?_
    congr 1
    have ht : sim.state.time = sim.solver.currentTime := hb.time
    rw [ht]
    exact dynamic_residual _ r _ _ _ _ dt _ _ _

theorem quasistatic_balanced {c : ProblemClass} (e : Engine ℝ) (hk : e.kind = .quasistaticVelocity)
    (hr : Registered c e.cls e.kind) (hne : e.cls ≠ .direct) {d : ℕ} (hdim : e.ops.dimension = d)
    (D : ℕ → Prop) [DecidablePred D] (hv : ValidBoundaries e.ops.nodesCount e.boundaries)
    (hd : DirichletData e.ops.nodesCount 2 e.boundaries D fun _ => 0)
    (dt : ℝ) (J : (ℕ → ℝ) → ℝ) (hs : ContactSolve e (d * e.ops.nodesCount) D dt J)
    (sim sim' : Simulation ℝ V)
    (hb : Between e dt sim.solver sim.state.toSnapshot) (h : e.step .velocity sim = .ok sim') :
    Between e dt sim'.solver sim'.state.toSnapshot ∧
    StepOf (d * e.ops.nodesCount) D (fun _ _ => 0) e.ops.viscosity e.ops.elasticity J
      e.ops.force dt e sim.state.toSnapshot sim'.state.toSnapshot := by
  obtain ⟨h1, hu, S, guess, h2, h3⟩ := between_step e hr hne (by rw [hk]; simp) dt sim sim' hb h
  obtain ⟨hD, hP⟩ := hs S guess _ rfl h2
  rw [hk] at h2
  have h4 : applyDirichlet e.ops.nodesCount 2 e.boundaries
      ⟨fun r s => e.ops.viscosity r s + e.ops.elasticity r s * dt,
        fun r => e.ops.force sim.solver.currentTime r -
          matVec (e.ops.dimension * e.ops.nodesCount) e.ops.elasticity
            (State.flatten e.grid sim.state.displacement) r⟩ = S.system := Except.ok.inj h2
  rw [hdim] at h4
  have hvel : State.flatten e.grid sim'.state.velocity = e.solve S guess := by
    rw [h3]; exact flatten_unflatten _ _
  have hdis := new_displacement e dt sim.state.toSnapshot sim'.state.toSnapshot _ hu h3
  refine ⟨h1, between_time e dt sim sim' hb h, ?_, ?_, ?_⟩
  · change _ = fun i => _ + dt * State.flatten e.grid sim'.state.velocity i
    rw [hvel]; exact hdis
  · change Still _ D (State.flatten e.grid sim'.state.velocity)
    rw [hvel]; exact hD
  · change Balanced _ D _ _ _ J (e.ops.force sim.state.time)
      (fun i => State.flatten e.grid sim.state.displacement i +
        dt * State.flatten e.grid sim'.state.velocity i)
      (State.flatten e.grid sim'.state.velocity)
      fun i => (State.flatten e.grid sim'.state.velocity i - State.flatten e.grid sim.state.velocity i) / dt
    rw [hvel]
    intro y hy
    refine (hP y hy).trans (le_of_eq ?_)
    have hz : Still (d * e.ops.nodesCount) D fun i => y i - e.solve S guess i :=
      fun r hr hDr => by
        beta_reduce
        rw [hy r hr hDr, hD r hr hDr, sub_zero]
    rw [← h4, residual_elimination _ _ _ _ D hv hd _ (fun i => y i - e.solve S guess i) hD hz]
    congr 1
    refine Finset.sum_congr rfl fun r _ => ?_
    congr 1
    have ht : sim.state.time = sim.solver.currentTime := hb.time
    rw [ht, ← dynamic_residual]
    simp only [matVec, mul_zero, add_zero, zero_mul, Finset.sum_const_zero, neg_mul, one_mul,
      Finset.sum_neg_distrib]
    ring

theorem wave_balanced {c : ProblemClass} (e : Engine ℝ) (hk : e.kind = .wave)
    (hr : Registered c e.cls e.kind) (hne : e.cls ≠ .direct)
    (D : ℕ → Prop) [DecidablePred D] (hv : ValidBoundaries e.ops.nodesCount e.boundaries)
    (hd : DirichletData e.ops.nodesCount 1 e.boundaries D fun _ => 0)
    (dt : ℝ) (J : (ℕ → ℝ) → ℝ) (hs : ContactSolve e e.ops.nodesCount D dt J)
    (sim sim' : Simulation ℝ V)
    (hb : Between e dt sim.solver sim.state.toSnapshot) (h : e.step .velocity sim = .ok sim') :
    Between e dt sim'.solver sim'.state.toSnapshot ∧
    StepOf e.ops.nodesCount D e.ops.acceleration (fun _ _ => 0) e.ops.poisson J
      e.ops.force dt e sim.state.toSnapshot sim'.state.toSnapshot := by
  obtain ⟨h1, hu, S, guess, h2, h3⟩ := between_step e hr hne (by rw [hk]; simp) dt sim sim' hb h
  obtain ⟨hD, hP⟩ := hs S guess _ rfl h2
  rw [hk] at h2
  have h4 : applyDirichlet e.ops.nodesCount 1 e.boundaries
      ⟨fun r s => 1 / dt * e.ops.acceleration r s + e.ops.poisson r s * dt,
        fun r => e.ops.force sim.solver.currentTime r +
          (matVec e.ops.nodesCount (fun r s => -1 * e.ops.poisson r s)
            (State.flatten e.grid sim.state.displacement) r +
          matVec e.ops.nodesCount (fun r s => 1 / dt * e.ops.acceleration r s)
            (State.flatten e.grid sim.state.velocity) r)⟩ = S.system := Except.ok.inj h2
  have hvel : State.flatten e.grid sim'.state.velocity = e.solve S guess := by
    rw [h3]; exact flatten_unflatten _ _
  have hdis := new_displacement e dt sim.state.toSnapshot sim'.state.toSnapshot _ hu h3
  refine ⟨h1, between_time e dt sim sim' hb h, ?_, ?_, ?_⟩
  · change _ = fun i => _ + dt * State.flatten e.grid sim'.state.velocity i
    rw [hvel]; exact hdis
  · change Still _ D (State.flatten e.grid sim'.state.velocity)
    rw [hvel]; exact hD
  · change Balanced _ D _ _ _ J (e.ops.force sim.state.time)
      (fun i => State.flatten e.grid sim.state.displacement i +
        dt * State.flatten e.grid sim'.state.velocity i)
      (State.flatten e.grid sim'.state.velocity)
      fun i => (State.flatten e.grid sim'.state.velocity i - State.flatten e.grid sim.state.velocity i) / dt
    rw [hvel]
    intro y hy
    refine (hP y hy).trans (le_of_eq ?_)
    have hz : Still e.ops.nodesCount D fun i => y i - e.solve S guess i :=
      fun r hr hDr => by
        beta_reduce
        rw [hy r hr hDr, hD r hr hDr, sub_zero]
    have hel := residual_elimination (n := 1 * e.ops.nodesCount) e.ops.nodesCount 1 e.boundaries
      ⟨fun r s => 1 / dt * e.ops.acceleration r s + e.ops.poisson r s * dt,
        fun r => e.ops.force sim.solver.currentTime r +
          (matVec e.ops.nodesCount (fun r s => -1 * e.ops.poisson r s)
            (State.flatten e.grid sim.state.displacement) r +
          matVec e.ops.nodesCount (fun r s => 1 / dt * e.ops.acceleration r s)
            (State.flatten e.grid sim.state.velocity) r)⟩ D hv hd (e.solve S guess)
      (fun i => y i - e.solve S guess i) (by rw [Nat.one_mul]; exact hD) (by rw [Nat.one_mul]; exact hz)
    rw [Nat.one_mul] at hel
    rw [← h4, hel]
    congr 1
    refine Finset.sum_congr rfl fun r _ => ?_
    congr 1
    have ht : sim.state.time = sim.solver.currentTime := hb.time
    rw [ht, ← dynamic_residual]
    simp only [zero_add]

/-! ### Convergence -/

/-- The error of a state of a run. -/
noncomputable def errorOf (n : ℕ) (M B : ℕ → ℕ → ℝ) (u v : ℝ → ℕ → ℝ) (e : Engine ℝ) (s : Snapshot ℝ) : ℝ :=
  energyDistance n M B (State.flatten e.grid s.displacement) (State.flatten e.grid s.velocity)
    (u s.time) (v s.time)

/-- The errors of two states of a run. -/
def ErrorGrows (n : ℕ) (M B : ℕ → ℕ → ℝ) (u v : ℝ → ℕ → ℝ) (t₀ t₁ C : ℝ) (e : Engine ℝ)
    (s s' : Snapshot ℝ) : Prop :=
  s.time ≤ s'.time ∧ (t₀ ≤ s.time → s'.time ≤ t₁ →
    errorOf n M B u v e s' ≤ errorOf n M B u v e s + (s'.time - s.time) * C)

theorem errorGrows_refl (n : ℕ) (M B : ℕ → ℕ → ℝ) (u v : ℝ → ℕ → ℝ) (t₀ t₁ C : ℝ) (e : Engine ℝ)
    (s : Snapshot ℝ) : ErrorGrows n M B u v t₀ t₁ C e s s :=
  ⟨le_rfl, fun _ _ => by simp⟩

theorem errorGrows_trans (n : ℕ) (M B : ℕ → ℕ → ℝ) (u v : ℝ → ℕ → ℝ) (t₀ t₁ C : ℝ) (e : Engine ℝ)
    (a b c : Snapshot ℝ) (h1 : ErrorGrows n M B u v t₀ t₁ C e a b)
    (h2 : ErrorGrows n M B u v t₀ t₁ C e b c) : ErrorGrows n M B u v t₀ t₁ C e a c :=
  ⟨h1.1.trans h2.1, fun h0 h3 => by
    have e1 := h1.2 h0 (h2.1.trans h3)
    have e2 := h2.2 (h0.trans h1.1) h3
    linarith⟩

theorem errorGrows_step {n : ℕ} {D : ℕ → Prop} {M A B : ℕ → ℕ → ℝ} (hM : StoresEnergy n M)
    (hA : Dissipates n A) (hB : StoresEnergy n B) {J : (ℕ → ℝ) → ℝ} {f : ℝ → ℕ → ℝ} {t₀ t₁ : ℝ}
    {u v a : ℝ → ℕ → ℝ} (hm : Motion n D M A B J f t₀ t₁ u v a) {cv ca cf : ℝ}
    (hmod : Moderate n D M B f t₀ t₁ v a cv ca cf) {dt : ℝ} (hdt : 0 < dt) (e : Engine ℝ)
    {s s' : Snapshot ℝ} (h : StepOf n D M A B J f dt e s s') :
    ErrorGrows n M B u v t₀ t₁ (dt * ((cv + ca) / 2 + cf)) e s s' := by
  refine ⟨by rw [h.time]; linarith, fun h0 h1 => ?_⟩
  rw [h.time] at h1
  have := motion_step hM hA hB hm hmod hdt h0 h1 h.held h.balanced
  unfold errorOf
  rw [h.displacement, h.time]
  refine this.trans (le_of_eq ?_)
  ring

/-- C105, dynamic elasticity: the distance of the states returned from the motion of the body grows at
most in proportion to the elapsed time and to the time step. -/
theorem C105_dynamic {c : ProblemClass} (e : Engine ℝ) (hk : e.kind = .dynamicVelocity)
    (hr : Registered c e.cls e.kind) (hne : e.cls ≠ .direct) {d : ℕ} (hdim : e.ops.dimension = d)
    (D : ℕ → Prop) [DecidablePred D] (hv : ValidBoundaries e.ops.nodesCount e.boundaries)
    (hd : DirichletData e.ops.nodesCount 2 e.boundaries D fun _ => 0)
    (hM : StoresEnergy (d * e.ops.nodesCount) e.ops.acceleration)
    (hA : Dissipates (d * e.ops.nodesCount) e.ops.viscosity)
    (hB : StoresEnergy (d * e.ops.nodesCount) e.ops.elasticity) (J : (ℕ → ℝ) → ℝ)
    (T : ℝ) (u v acc : ℝ → ℕ → ℝ)
    (hm : Motion (d * e.ops.nodesCount) D e.ops.acceleration e.ops.viscosity
      e.ops.elasticity J e.ops.force 0 T u v acc)
    (cv ca cf : ℝ) (hmod : Moderate (d * e.ops.nodesCount) D e.ops.acceleration
      e.ops.elasticity e.ops.force 0 T v acc cv ca cf)
    (a : Engine.Arguments ℝ) (solver : SolverState ℝ) (hdt : 0 < solver.timeStep)
    (hc : solver.currentTime = 0)
    (hs : ContactSolve e (d * e.ops.nodesCount) D solver.timeStep J)
    (store : ProductStore ℝ V) (rs : List (State ℝ)) (sim : Simulation ℝ V)
    (h : e.timeDependentSolve a solver store = .ok (rs, sim)) (s : State ℝ) (hmem : s ∈ rs)
    (hT : s.time ≤ T) :
    energyDistance (d * e.ops.nodesCount) e.ops.acceleration e.ops.elasticity
        (State.flatten e.grid s.displacement) (State.flatten e.grid s.velocity) (u s.time) (v s.time) ≤
      energyDistance (d * e.ops.nodesCount) e.ops.acceleration e.ops.elasticity
        (State.flatten e.grid a.initialDisplacement) (State.flatten e.grid a.initialVelocity) (u 0) (v 0) +
      s.time * solver.timeStep * ((cv + ca) / 2 + cf) := by
  have := timeDependent_relation e a solver store hc
    (ErrorGrows _ e.ops.acceleration e.ops.elasticity u v 0 T _ e)
    (errorGrows_refl _ _ _ _ _ _ _ _ _) (errorGrows_trans _ _ _ _ _ _ _ _ _)
    (fun sim sim' hb hstep => by
      obtain ⟨h1, h2⟩ := dynamic_balanced e hk hr hne hdim D hv hd _ J hs sim sim' hb hstep
      exact ⟨h1, errorGrows_step hM hA hB hm hmod hdt e h2⟩) rs sim h
  have := ((List.pairwise_cons.1 this).1 s.toSnapshot (List.mem_map_of_mem hmem)).2
    (by simp [State.new]) hT
  refine this.trans (le_of_eq ?_)
  simp [errorOf, State.new]
  ring

/-- C105, waves, from the beginning or resumed. -/
theorem C105_wave {c : ProblemClass} (e : Engine ℝ) (hk : e.kind = .wave)
    (hr : Registered c e.cls e.kind) (hne : e.cls ≠ .direct)
    (D : ℕ → Prop) [DecidablePred D] (hv : ValidBoundaries e.ops.nodesCount e.boundaries)
    (hd : DirichletData e.ops.nodesCount 1 e.boundaries D fun _ => 0)
    (hM : StoresEnergy e.ops.nodesCount e.ops.acceleration)
    (hB : StoresEnergy e.ops.nodesCount e.ops.poisson) (J : (ℕ → ℝ) → ℝ)
    (a : Engine.Arguments ℝ) (resume : Option (State ℝ)) (T : ℝ) (u v acc : ℝ → ℕ → ℝ)
    (hm : Motion e.ops.nodesCount D e.ops.acceleration (fun _ _ => 0) e.ops.poisson J e.ops.force
      (resume.elim 0 fun s => s.time) T u v acc)
    (cv ca cf : ℝ) (hmod : Moderate e.ops.nodesCount D e.ops.acceleration
      e.ops.poisson e.ops.force (resume.elim 0 fun s => s.time) T v acc cv ca cf)
    (solver : SolverState ℝ) (hdt : 0 < solver.timeStep)
    (hs : ContactSolve e e.ops.nodesCount D solver.timeStep J)
    (store : ProductStore ℝ V) (rs : List (State ℝ)) (sim : Simulation ℝ V)
    (h : e.waveSolve a resume solver store = .ok (rs, sim)) (s : State ℝ) (hmem : s ∈ rs)
    (hT : s.time ≤ T) :
    let t₀ := resume.elim 0 fun s => s.time
    energyDistance e.ops.nodesCount e.ops.acceleration e.ops.poisson
        (State.flatten e.grid s.displacement) (State.flatten e.grid s.velocity) (u s.time) (v s.time) ≤
      energyDistance e.ops.nodesCount e.ops.acceleration e.ops.poisson
        (State.flatten e.grid (resume.elim a.initialDisplacement fun s => s.displacement))
        (State.flatten e.grid (resume.elim a.initialVelocity fun s => s.velocity)) (u t₀) (v t₀) +
      (s.time - t₀) * solver.timeStep * ((cv + ca) / 2 + cf) := by
  intro t₀
  have hz : ∀ x, quad e.ops.nodesCount (fun _ _ => (0 : ℝ)) x = 0 := fun x => by simp [quad]
  have := wave_relation e a resume solver store
    (ErrorGrows _ e.ops.acceleration e.ops.poisson u v t₀ T _ e)
    (errorGrows_refl _ _ _ _ _ _ _ _ _) (errorGrows_trans _ _ _ _ _ _ _ _ _)
    (fun sim sim' hb hstep => by
      obtain ⟨h1, h2⟩ := wave_balanced e hk hr hne D hv hd _ J hs sim sim' hb hstep
      exact ⟨h1, errorGrows_step hM ⟨fun x => (hz x).ge⟩ hB hm hmod hdt e h2⟩) rs sim h
  have := ((List.pairwise_cons.1 this).1 s.toSnapshot (List.mem_map_of_mem hmem)).2
    (by cases resume <;> simp [State.new, waveInitial, t₀]) hT
  refine this.trans (le_of_eq ?_)
  cases resume <;> simp [errorOf, State.new, waveInitial, t₀] <;> ring

end

end Conmech
