import Verif.Props.Modes
import Verif.Props.CreepBody
/-!
C122: under constant loads every shape of a creeping body decays for itself.
-/
namespace Conmech
open Spec

section
variable {K : Type} [Field K] [LinearOrder K] [IsStrictOrderedRing K] {V : Type}

/-- The equations of one step of quasistatic elasticity. -/
theorem quasistatic_step_rows {c : ProblemClass} (e : Engine K) (hk : e.kind = .quasistaticVelocity)
    (hr : Registered c e.cls e.kind) (hne : e.cls ≠ .direct) {d : ℕ} (hdim : e.ops.dimension = d)
    (D : ℕ → Prop) [DecidablePred D] (hv : ValidBoundaries e.ops.nodesCount e.boundaries)
    (hd : DirichletData e.ops.nodesCount 2 e.boundaries D fun _ => 0)
    (dt : K) (hs : ExactSolve e (d * e.ops.nodesCount) dt) (sim sim' : Simulation K V)
    (hb : Between e dt sim.solver sim.state.toSnapshot) (h : e.step .velocity sim = .ok sim') :
    let n := d * e.ops.nodesCount
    let u := State.flatten e.grid sim.state.displacement
    let w := State.flatten e.grid sim'.state.velocity
    (∀ r < n, D r → w r = 0) ∧
    ∀ r < n, ¬ D r → act n e.ops.viscosity w r + act n e.ops.elasticity (fun i => u i + dt * w i) r =
      e.ops.force sim.solver.currentTime r := by
  intro n u w
  obtain ⟨h1, hu, S, guess, h2, h3⟩ := between_step e hr hne (by rw [hk]; simp) dt sim sim' hb h
  have hP := hs S guess _ rfl h2
  have hvel : w = e.solve S guess := by
    change State.flatten e.grid sim'.state.velocity = _
    rw [h3]; exact flatten_unflatten _ _
  rw [hk] at h2
  have h4 : applyDirichlet e.ops.nodesCount 2 e.boundaries
      ⟨fun r s => e.ops.viscosity r s + e.ops.elasticity r s * dt,
        fun r => e.ops.force sim.solver.currentTime r -
          matVec (e.ops.dimension * e.ops.nodesCount) e.ops.elasticity
            (State.flatten e.grid sim.state.displacement) r⟩ = S.system := Except.ok.inj h2
  rw [hdim] at h4
  rw [← h4] at hP
  have hP := elimination_size _ _ _ _ _ D hv hd _ hP
  rw [← hvel] at hP
  refine ⟨hP.1, fun r hr' hD => ?_⟩
  have := hP.2 r hr' hD
  unfold Row at this
  simp only at this
  have e1 : act n e.ops.elasticity (fun i => u i + dt * w i) r =
      act n e.ops.elasticity u r + dt * act n e.ops.elasticity w r := by
    rw [act_on (y := fun i => 1 * u i + dt * w i) fun i _ => by ring, act_linear, one_mul]
  have e3 : ∑ s ∈ Finset.range n, (e.ops.viscosity r s + e.ops.elasticity r s * dt) * w s =
      act n e.ops.viscosity w r + dt * act n e.ops.elasticity w r := by
    simp only [act, Finset.mul_sum, ← Finset.sum_add_distrib]
    exact Finset.sum_congr rfl fun s _ => by ring
  change ∑ s ∈ Finset.range n, _ = e.ops.force _ r - act n e.ops.elasticity u r at this
  rw [e3] at this
  rw [e1]
  linear_combination this

/-- One implicit step of `A u' + B u = f`: the amplitude of every shape is divided by `1 + κ i dt`. -/
theorem decay_step {n : ℕ} {D : ℕ → Prop} [DecidablePred D] {A B : ℕ → ℕ → K} (hA : StoresEnergy n A)
    (hAd : DefiniteOn n D A) (hB : StoresEnergy n B) {m : ℕ} {κ : ℕ → K} {φ : ℕ → ℕ → K}
    (hκ : ∀ i < m, 0 ≤ κ i) (hφ : ∀ i < m, ModeOf n D A (fun _ _ => 0) B (κ i) 0 (φ i)) {dt : K} (hdt : 0 < dt)
    {f r₀ u w : ℕ → K} (h₀ : ∀ r < n, ¬ D r → act n B r₀ r = f r) (q : ℕ → K)
    (hq : ∀ r < n, u r = r₀ r + superposed m φ q r) (h3 : ∀ r < n, D r → w r = 0)
    (h4 : ∀ r < n, ¬ D r → act n A w r + act n B (fun i => u i + dt * w i) r = f r) :
    ∀ r < n, u r + dt * w r = r₀ r + superposed m φ (fun i => q i / (1 + κ i * dt)) r := by
  have scale : ∀ x, quad n (fun r s => dt * A r s) x = dt * quad n A x := fun x => by
    simp only [quad, Finset.mul_sum]
    exact Finset.sum_congr rfl fun r _ => Finset.sum_congr rfl fun s _ => by ring
  have key := modes_step (n := n) (D := D) (M := fun r s => dt * A r s) (A := fun _ _ => 0)
    (B := B) ⟨fun r hr s hs => by rw [hA.symm r hr s hs], fun x => ?_⟩ ?_
    ⟨fun x => by simp [quad]⟩ hB (κ := fun i => κ i / dt) (γ := fun _ => 0)
    (fun i hi => div_nonneg (hκ i hi) hdt.le) (fun _ _ => le_rfl) (fun i hi => ⟨(hφ i hi).still,
      fun r hr hD => ?_, fun r hr hD => by simp [act]⟩) hdt (v := fun _ => 0) h₀ (fun i => (q i, 0)) hq
    (fun r _ => by simp [superposed]) h3 fun r hr hD => ?_
  · intro r hr
    rw [hq r hr, key r hr, add_assoc]
    congr 1
    unfold superposed
    rw [Finset.mul_sum, ← Finset.sum_add_distrib]
    refine Finset.sum_congr rfl fun i hi => ?_
    have h5 : 1 + κ i * dt ≠ 0 :=
      (by linarith [mul_nonneg (hκ i (Finset.mem_range.1 hi)) hdt.le] : 0 < 1 + κ i * dt).ne'
    have h6 : 1 + 0 * dt + κ i / dt * dt ^ 2 = 1 + κ i * dt := by
      have := hdt.ne'
      field_simp
      ring
    simp only [oscillatorStep]
    rw [h6]
    have := hdt.ne'
    have h7 : (0 - dt * (κ i / dt) * q i) / (1 + κ i * dt) = -(κ i * (q i / (1 + κ i * dt))) := by
      have : dt * (κ i / dt) = κ i := by field_simp
      rw [this]; ring
    have h8 : q i / (1 + κ i * dt) * (1 + κ i * dt) = q i := div_mul_cancel₀ _ h5
    rw [h7]
    linear_combination (-φ i r) * h8
  · rw [scale]
    exact mul_nonneg hdt.le (hA.nonneg x)
  · intro x hx h0
    rw [scale] at h0
    exact hAd x hx ((mul_eq_zero.1 h0).resolve_left hdt.ne')
  · have : act n (fun r s => dt * A r s) (φ i) r = dt * act n A (φ i) r := by
      simp only [act, Finset.mul_sum]
      exact Finset.sum_congr rfl fun s _ => by ring
    rw [this, (hφ i hi).elastic r hr hD]
    have := hdt.ne'
    field_simp
  · have e1 : act n (fun r s => dt * A r s) (fun i => (w i - 0) / dt) r = act n A w r := by
      have := hdt.ne'
      simp only [act]
      exact Finset.sum_congr rfl fun s _ => by field_simp; ring
    have e2 : act n (fun _ _ => (0 : K)) w r = 0 := by simp [act]
    rw [e1, e2, add_zero]
    exact h4 r hr hD

/-- C122, quasistatic elasticity: when the displacement is a sum of shapes whose elastic forces are `κ i` times their
viscous forces, added to a displacement that balances the loads, then so it is in every returned state, and the
amplitude of every shape is divided by `1 + κ i dt` in every step. -/
theorem C122_creep {c : ProblemClass} (e : Engine K) (hk : e.kind = .quasistaticVelocity)
    (hr : Registered c e.cls e.kind) (hne : e.cls ≠ .direct) {d : ℕ} (hdim : e.ops.dimension = d)
    (D : ℕ → Prop) [DecidablePred D] (hv : ValidBoundaries e.ops.nodesCount e.boundaries)
    (hd : DirichletData e.ops.nodesCount 2 e.boundaries D fun _ => 0)
    (hA : StoresEnergy (d * e.ops.nodesCount) e.ops.viscosity)
    (hAd : DefiniteOn (d * e.ops.nodesCount) D e.ops.viscosity)
    (hB : StoresEnergy (d * e.ops.nodesCount) e.ops.elasticity) (f r₀ : ℕ → K) (hf : ∀ t, e.ops.force t = f)
    (h₀ : ∀ r < d * e.ops.nodesCount, ¬ D r → act (d * e.ops.nodesCount) e.ops.elasticity r₀ r = f r)
    (m : ℕ) (κ : ℕ → K) (φ : ℕ → ℕ → K) (hκ : ∀ i < m, 0 ≤ κ i)
    (hφ : ∀ i < m, ModeOf (d * e.ops.nodesCount) D e.ops.viscosity (fun _ _ => 0) e.ops.elasticity (κ i) 0 (φ i))
    (a : Engine.Arguments K) (solver : SolverState K) (hdt : 0 < solver.timeStep)
    (hc : solver.currentTime = 0) (hs : ExactSolve e (d * e.ops.nodesCount) solver.timeStep) (q : ℕ → K)
    (hu : ∀ r < d * e.ops.nodesCount, State.flatten e.grid a.initialDisplacement r =
      r₀ r + superposed m φ q r)
    (store : ProductStore K V) (rs : List (State K)) (sim : Simulation K V)
    (h : e.timeDependentSolve a solver store = .ok (rs, sim)) (s : State K) (hmem : s ∈ rs) :
    ∃ j : ℕ, s.time = j * solver.timeStep ∧
      ∀ r < d * e.ops.nodesCount, State.flatten e.grid s.displacement r = r₀ r +
        superposed m φ (fun i => q i / (1 + κ i * solver.timeStep) ^ j) r := by
  set n := d * e.ops.nodesCount with hn
  set dt := solver.timeStep with hdt'
  have := timeDependent_relation e a solver store hc
    (fun s s' => ∃ j : ℕ, s'.time = s.time + j * dt ∧ ∀ q : ℕ → K,
      (∀ r < n, State.flatten e.grid s.displacement r = r₀ r + superposed m φ q r) →
      ∀ r < n, State.flatten e.grid s'.displacement r =
        r₀ r + superposed m φ (fun i => q i / (1 + κ i * dt) ^ j) r)
    (fun s => ⟨0, by simp, fun q hq => by simpa using hq⟩)
    (fun a b c ⟨j, t1, h1⟩ ⟨j', t2, h2⟩ => ⟨j + j', by rw [t2, t1]; push_cast; ring, fun q hq => by
      have := h2 _ (h1 q hq)
      simpa only [div_div, ← pow_add] using this⟩)
    (fun sim sim' hb hst => by
      obtain ⟨h1, h2, -⟩ := between_step e hr hne (by rw [hk]; simp) _ sim sim' hb hst
      obtain ⟨h3, h4⟩ := quasistatic_step_rows e hk hr hne hdim D hv hd _ hs sim sim' hb hst
      rw [hf] at h4
      refine ⟨h1, 1, ?_, fun q hq => ?_⟩
      · obtain ⟨s1, s2, -⟩ := velocity_step e _ _ hst
        have := hb.time
        change sim.state.time = _ at this
        change sim'.state.time = sim.state.time + _
        rw [s1, this, hb.timeStep]
        push_cast; ring
      · intro r hr
        have e1 : State.flatten e.grid sim'.state.displacement r =
          State.flatten e.grid sim.state.displacement r +
            dt * State.flatten e.grid sim'.state.velocity r := h2 _ _
        change State.flatten e.grid sim'.state.displacement r = _
        rw [e1, decay_step hA hAd hB hκ hφ hdt h₀ q hq h3 h4 r hr]
        simp only [pow_one]) rs sim h
  obtain ⟨j, ht, h1⟩ := (List.pairwise_cons.1 this).1 s.toSnapshot (List.mem_map_of_mem hmem)
  exact ⟨j, by simpa [State.new] using ht, h1 q hu⟩

end

section
variable {V : Type}

/-- If the second matrix is definite, every shape decays. -/
theorem modes_positive {n m : ℕ} {D : ℕ → Prop} {A B : ℕ → ℕ → ℝ} (hBd : DefiniteOn n D B) {κ : ℕ → ℝ}
    {φ : ℕ → ℕ → ℝ} (hφ : ∀ i < m, ModeOf n D A (fun _ _ => 0) B (κ i) 0 (φ i)) (hκ : ∀ i < m, 0 ≤ κ i)
    (ho : ∀ i < m, ∀ j < m, bilin n A (φ i) (φ j) = if i = j then 1 else 0) : ∀ i < m, 0 < κ i := by
  classical
  intro i hi
  refine lt_of_le_of_ne (hκ i hi) fun h0 => ?_
  have h1 : quad n B (φ i) = 0 := by
    rw [quad_eq_bilin, ← bilin_eq_act]
    refine Finset.sum_eq_zero fun r hr => ?_
    have hr := Finset.mem_range.1 hr
    by_cases hD : D r
    · rw [(hφ i hi).still r hr hD, zero_mul]
    · rw [(hφ i hi).elastic r hr hD, ← h0, zero_mul, mul_zero]
  have h2 := hBd (φ i) (hφ i hi).still h1
  have h3 := ho i hi i hi
  rw [if_pos rfl, ← bilin_eq_act, Finset.sum_eq_zero fun r hr => by
    rw [h2 r (Finset.mem_range.1 hr), zero_mul]] at h3
  exact zero_ne_one h3

/-- A sum of shapes that decay is small after sufficiently many steps. -/
theorem superposed_small (n m : ℕ) (κ : ℕ → ℝ) (hκ : ∀ i < m, 0 < κ i) (φ : ℕ → ℕ → ℝ) (q : ℕ → ℝ) {dt : ℝ}
    (hdt : 0 < dt) {ε : ℝ} (hε : 0 < ε) :
    ∃ J : ℕ, ∀ j ≥ J, ∀ r < n, |superposed m φ (fun i => q i / (1 + κ i * dt) ^ j) r| ≤ ε := by
  have h1 : ∀ r, Filter.Tendsto (fun j : ℕ => superposed m φ (fun i => q i / (1 + κ i * dt) ^ j) r) Filter.atTop
      (nhds 0) := by
    intro r
    have : (0 : ℝ) = ∑ i ∈ Finset.range m, q i * 0 * φ i r := by simp
    rw [this]
    refine tendsto_finsetSum _ fun i hi => Filter.Tendsto.mul_const _ ?_
    have h2 : 0 < κ i * dt := mul_pos (hκ i (Finset.mem_range.1 hi)) hdt
    have h3 : Filter.Tendsto (fun j : ℕ => (1 / (1 + κ i * dt)) ^ j) Filter.atTop (nhds 0) :=
      tendsto_pow_atTop_nhds_zero_of_lt_one (by positivity) (by rw [div_lt_one (by linarith)]; linarith)
    refine (h3.const_mul (q i)).congr fun j => ?_
    rw [one_div_pow]; ring
  have h2 : ∀ r : Fin n, ∃ J : ℕ, ∀ j ≥ J, |superposed m φ (fun i => q i / (1 + κ i * dt) ^ j) r| ≤ ε := by
    intro r
    obtain ⟨J, hJ⟩ := Metric.tendsto_atTop.1 (h1 r) ε hε
    exact ⟨J, fun j hj => by simpa [Real.dist_eq] using (hJ j hj).le⟩
  choose J hJ using h2
  exact ⟨∑ r : Fin n, J r, fun j hj r hr => hJ ⟨r, hr⟩ j
    (le_trans (Finset.single_le_sum (f := J) (fun _ _ => Nat.zero_le _) (Finset.mem_univ (⟨r, hr⟩ : Fin n))) hj)⟩

/-- C122: the shapes exist. They do not depend on the time step, the loads and the initial state, and every run from
a state that respects the supports is a sum of them. -/
theorem C122_complete {c : ProblemClass} (e : Engine ℝ) (hk : e.kind = .quasistaticVelocity)
    (hr : Registered c e.cls e.kind) (hne : e.cls ≠ .direct) {d : ℕ} (hdim : e.ops.dimension = d)
    (D : ℕ → Prop) [DecidablePred D] (hv : ValidBoundaries e.ops.nodesCount e.boundaries)
    (hd : DirichletData e.ops.nodesCount 2 e.boundaries D fun _ => 0)
    (hA : StoresEnergy (d * e.ops.nodesCount) e.ops.viscosity)
    (hAd : DefiniteOn (d * e.ops.nodesCount) D e.ops.viscosity)
    (hB : StoresEnergy (d * e.ops.nodesCount) e.ops.elasticity)
    (hBd : DefiniteOn (d * e.ops.nodesCount) D e.ops.elasticity) :
    ∃ (m : ℕ) (κ : ℕ → ℝ) (φ : ℕ → ℕ → ℝ), (∀ i < m, 0 < κ i) ∧
      (∀ i < m, ModeOf (d * e.ops.nodesCount) D e.ops.viscosity (fun _ _ => 0) e.ops.elasticity (κ i) 0 (φ i)) ∧
      ∀ (f r₀ : ℕ → ℝ), (∀ t, e.ops.force t = f) →
      (∀ r < d * e.ops.nodesCount, ¬ D r → act (d * e.ops.nodesCount) e.ops.elasticity r₀ r = f r) →
      ∀ (a : Engine.Arguments ℝ) (solver : SolverState ℝ), 0 < solver.timeStep →
      solver.currentTime = 0 → ExactSolve e (d * e.ops.nodesCount) solver.timeStep →
      (∀ r < d * e.ops.nodesCount, D r → State.flatten e.grid a.initialDisplacement r = r₀ r) →
      ∃ q : ℕ → ℝ, ∀ (store : ProductStore ℝ V) (rs : List (State ℝ)) (sim : Simulation ℝ V),
        e.timeDependentSolve a solver store = .ok (rs, sim) → ∀ s ∈ rs,
        ∃ j : ℕ, s.time = j * solver.timeStep ∧
          ∀ r < d * e.ops.nodesCount, State.flatten e.grid s.displacement r =
            r₀ r + superposed m φ (fun i => q i / (1 + κ i * solver.timeStep) ^ j) r := by
  obtain ⟨m, κ, φ, hκ, hφ, ho, hall⟩ := exists_modes hA hAd hB
  have hκ' := modes_positive hBd hφ hκ ho
  refine ⟨m, κ, φ, hκ', hφ, fun f r₀ hf h₀ a solver hdt hc hs hu => ?_⟩
  obtain ⟨q, hq⟩ := hall (fun r => State.flatten e.grid a.initialDisplacement r - r₀ r)
    fun r hr hD => sub_eq_zero.2 (hu r hr hD)
  exact ⟨q, fun store rs sim h s hmem => C122_creep e hk hr hne hdim D hv hd hA hAd hB f r₀ hf h₀ m κ φ hκ hφ a
    solver hdt hc hs q (fun r hr => by rw [← hq r hr]; ring) store rs sim h s hmem⟩

/-- C122: with every time step, however long, the body comes to rest: the displacements of all late states are close
to the one that balances the loads. -/
theorem C122_settles {c : ProblemClass} (e : Engine ℝ) (hk : e.kind = .quasistaticVelocity)
    (hr : Registered c e.cls e.kind) (hne : e.cls ≠ .direct) {d : ℕ} (hdim : e.ops.dimension = d)
    (D : ℕ → Prop) [DecidablePred D] (hv : ValidBoundaries e.ops.nodesCount e.boundaries)
    (hd : DirichletData e.ops.nodesCount 2 e.boundaries D fun _ => 0)
    (hA : StoresEnergy (d * e.ops.nodesCount) e.ops.viscosity)
    (hAd : DefiniteOn (d * e.ops.nodesCount) D e.ops.viscosity)
    (hB : StoresEnergy (d * e.ops.nodesCount) e.ops.elasticity)
    (hBd : DefiniteOn (d * e.ops.nodesCount) D e.ops.elasticity) (f r₀ : ℕ → ℝ) (hf : ∀ t, e.ops.force t = f)
    (h₀ : ∀ r < d * e.ops.nodesCount, ¬ D r → act (d * e.ops.nodesCount) e.ops.elasticity r₀ r = f r)
    (a : Engine.Arguments ℝ) (solver : SolverState ℝ) (hdt : 0 < solver.timeStep)
    (hc : solver.currentTime = 0) (hs : ExactSolve e (d * e.ops.nodesCount) solver.timeStep)
    (hu : ∀ r < d * e.ops.nodesCount, D r → State.flatten e.grid a.initialDisplacement r = r₀ r)
    (ε : ℝ) (hε : 0 < ε) :
    ∃ T : ℝ, ∀ (store : ProductStore ℝ V) (rs : List (State ℝ)) (sim : Simulation ℝ V),
      e.timeDependentSolve a solver store = .ok (rs, sim) → ∀ s ∈ rs, T ≤ s.time →
      ∀ r < d * e.ops.nodesCount, |State.flatten e.grid s.displacement r - r₀ r| ≤ ε := by
  obtain ⟨m, κ, φ, hκ, -, h⟩ := C122_complete (V := V) e hk hr hne hdim D hv hd hA hAd hB hBd
  obtain ⟨q, hq⟩ := h f r₀ hf h₀ a solver hdt hc hs hu
  obtain ⟨J, hJ⟩ := superposed_small (d * e.ops.nodesCount) m κ hκ φ q hdt hε
  refine ⟨J * solver.timeStep, fun store rs sim hrun s hmem hT r hr => ?_⟩
  obtain ⟨j, ht, hj⟩ := hq store rs sim hrun s hmem
  rw [ht] at hT
  have hle : J ≤ j := by exact_mod_cast le_of_mul_le_mul_right hT hdt
  rw [hj r hr, add_sub_cancel_left]
  exact hJ j hle r hr

/-- C122: the factor of a shape after `j` steps is not below the one of the body, `exp (-κ t)`, and tends to it. Creep
is computed too slow. -/
theorem C122_slower (κ : ℝ) (hκ : 0 ≤ κ) (dt : ℝ) (hdt : 0 ≤ dt) (j : ℕ) :
    Real.exp (-(κ * (j * dt))) ≤ 1 / (1 + κ * dt) ^ j ∧
      1 / (1 + κ * dt) ^ j ≤ Real.exp (-(κ * (j * dt)) + κ ^ 2 * dt * (j * dt)) := by
  have h0 : 0 ≤ κ * dt := mul_nonneg hκ hdt
  have hpos : 0 < (1 + κ * dt) ^ j := by positivity
  constructor
  · rw [Real.exp_neg, one_div]
    refine inv_anti₀ hpos ?_
    calc (1 + κ * dt) ^ j ≤ Real.exp (κ * dt) ^ j :=
          pow_le_pow_left₀ (by linarith) (by linarith [Real.add_one_le_exp (κ * dt)]) j
      _ = Real.exp (κ * (j * dt)) := by rw [← Real.exp_nat_mul]; congr 1; ring
  · have h1 : 1 / (1 + κ * dt) ≤ Real.exp (-(κ * dt) + (κ * dt) ^ 2) := by
      refine le_trans ?_ (Real.add_one_le_exp _)
      rw [div_le_iff₀ (by linarith)]
      nlinarith [pow_nonneg h0 3]
    calc 1 / (1 + κ * dt) ^ j = (1 / (1 + κ * dt)) ^ j := by rw [one_div_pow]
      _ ≤ Real.exp (-(κ * dt) + (κ * dt) ^ 2) ^ j := pow_le_pow_left₀ (by positivity) h1 j
      _ = _ := by rw [← Real.exp_nat_mul]; congr 1; ring

/-- C122: the conditions on the matrices are met on every triangular mesh the supports of which hold all nodes. -/
theorem C122_operators2 {N : ℕ} {elements : List (List ℕ)} {nodes : ℕ → ℕ → ℝ} (hv : ValidElements 2 N elements)
    (hn : Nondegenerate2 elements nodes) (mu lam theta zeta : ℝ) (hmu : 0 < mu) (hlam : 0 ≤ lam)
    (htheta : 0 < theta) (hzeta : 0 ≤ zeta) (D : ℕ → Prop)
    (hh : ∀ p < N, Held elements (fun q => q < N ∧ D q ∧ D (N + q)) p) :
    let m := basicMatrices2 elements nodes
    StoresEnergy (2 * N) (Plane.constitutive N m.W theta zeta) ∧
    DefiniteOn (2 * N) D (Plane.constitutive N m.W theta zeta) ∧
    StoresEnergy (2 * N) (Plane.constitutive N m.W mu lam) ∧
    DefiniteOn (2 * N) D (Plane.constitutive N m.W mu lam) :=
  ⟨(C71_operators2 hv hn 0 theta zeta 0 0 0 le_rfl htheta.le hzeta le_rfl le_rfl).2.1,
    C74_elastic2 hv hn theta zeta htheta hzeta D hh,
    (C71_operators2 hv hn 0 mu lam 0 0 0 le_rfl hmu.le hlam le_rfl le_rfl).2.1,
    C74_elastic2 hv hn mu lam hmu hlam D hh⟩

open Classical in
/-- The square of `CreepBody.lean` without contact, under a constant load, solved exactly. -/
noncomputable def creepingSquare : Engine ℝ where
  grid := ⟨4, 2, heldSquareNodes⟩
  cls := .quasistaticSchur
  kind := .quasistaticVelocity
  ops := { heldSquareOps with force := fun _ _ => 0 }
  boundaries := heldSquareBoundaries
  solve := fun s _ => if h : ∃ x, Solves 8 s.system x then h.choose else fun _ => 0

/-- The hypotheses of `C122_creep` and `C122_complete` are met by the square. -/
example : ∃ (m : ℕ) (κ : ℕ → ℝ) (φ : ℕ → ℕ → ℝ), (∀ i < m, 0 < κ i) ∧
    ∀ (a : Engine.Arguments ℝ) (solver : SolverState ℝ), 0 < solver.timeStep → solver.currentTime = 0 →
      (∀ r < 8, r < 2 * 4 ∧ 2 ≤ r % 4 → State.flatten creepingSquare.grid a.initialDisplacement r = 0) →
      ∃ q : ℕ → ℝ, ∀ (store : ProductStore ℝ Unit) (rs : List (State ℝ)) (sim : Simulation ℝ Unit),
        creepingSquare.timeDependentSolve a solver store = .ok (rs, sim) → ∀ s ∈ rs, ∃ j : ℕ,
          s.time = j * solver.timeStep ∧
          ∀ r < 8, State.flatten creepingSquare.grid s.displacement r =
            superposed m φ (fun i => q i / (1 + κ i * solver.timeStep) ^ j) r := by
  obtain ⟨o1, o2, o3, o4⟩ := C122_operators2 heldSquare_mesh.1 heldSquare_mesh.2 4 5 2 3 (by norm_num)
    (by norm_num) (by norm_num) (by norm_num) _ heldSquare_held
  have hsolve : ∀ dt : ℝ, 0 < dt → ExactSolve creepingSquare 8 dt := by
    intro dt hdt S guess var hvar h
    have hex : ∃ x, Solves 8 S.system x := by
      have hu := update_solvable .quasistaticVelocity creepingSquare.ops heldSquareBoundaries var S.system 2 rfl _ _
        heldSquare_boundaries.1 heldSquare_boundaries.2 (fun lhs hl => lhs_definite creepingSquare.ops var _ dt hdt
          hvar .quasistaticVelocity _ ⟨⟨o1.nonneg⟩, ⟨o3.nonneg⟩, Or.inl o2⟩ lhs hl) h
      obtain ⟨x, hx, -⟩ := hu
      exact ⟨x, hx⟩
    have : creepingSquare.solve S guess = hex.choose := dif_pos hex
    rw [this]
    exact hex.choose_spec
  obtain ⟨m, κ, φ, h1, -, h3⟩ := C122_complete (V := Unit) (c := .QuasistaticDisplacementProblem) creepingSquare rfl
    ⟨⟨.quasistatic, by decide +kernel, by decide +kernel⟩, Or.inl (by decide +kernel)⟩ SolverClass.noConfusion
    (d := 2) rfl _ heldSquare_boundaries.1 heldSquare_boundaries.2 o1 o2 o3 o4
  refine ⟨m, κ, φ, h1, fun a solver hdt hc hu => ?_⟩
  obtain ⟨q, hq⟩ := h3 (fun _ => 0) (fun _ => 0) (fun _ => rfl) (fun r _ _ => by simp [act]) a solver hdt hc
    (hsolve _ hdt) hu
  refine ⟨q, fun store rs sim h s hs => ?_⟩
  obtain ⟨j, ht, hj⟩ := hq store rs sim h s hs
  exact ⟨j, ht, fun r hr => by simpa using hj r hr⟩

end
end Conmech
