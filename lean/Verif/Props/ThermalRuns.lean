import Verif.Lemmas.ThermalStep
import Verif.Lemmas.Monotone
import Verif.Props.Motions
import Verif.Props.HeatCharge
/-!
C116: the passes of `find_solution_uzawa` and the runs of thermoelastic problems.
-/
namespace Conmech
open Spec

/-! ### Bodies -/

section
variable {b : ThermalBody}

/-- C116: two motions of the same thermoelastic body under the same loads never get further apart. -/
theorem C116_contraction (h : b.Sound) {f : ℝ → ℕ → ℝ} {T : ℝ} {u v a θ η u' v' a' θ' η' : ℝ → ℕ → ℝ}
    (hm : b.Motion f T u v a θ η) (hm' : b.Motion f T u' v' a' θ' η') :
    AntitoneOn (fun t => b.distance (u t) (v t) (θ t) (u' t) (v' t) (θ' t)) (Set.Icc 0 T) := by
  have key := C105_contraction h.storesMass h.dissipates h.storesElasticity (hm.both h) (hm'.both h)
  have e : ∀ t, energyDistance (b.n + b.N) b.bothMass b.bothElasticity
      (pair b.n (u t) fun p => 0 + ∫ s in (0 : ℝ)..t, θ s p) (pair b.n (v t) (θ t))
      (pair b.n (u' t) fun p => 0 + ∫ s in (0 : ℝ)..t, θ' s p) (pair b.n (v' t) (θ' t)) =
      b.distance (u t) (v t) (θ t) (u' t) (v' t) (θ' t) := by
    intro t
    rw [ThermalBody.distance_eq, shift_pair, shift_pair]
    unfold ThermalBody.distance
    rw [quad_congr (x := fun i => pair b.n (u t) (fun p => 0 + ∫ s in (0 : ℝ)..t, θ s p) i -
        pair b.n (u' t) (fun p => 0 + ∫ s in (0 : ℝ)..t, θ' s p) i) (y := fun i => u t i - u' t i)
        fun r hr => by rw [pair_left _ _ hr, pair_left _ _ hr],
      quad_congr (x := fun i => pair b.n (v t) (θ t) i - pair b.n (v' t) (θ' t) i)
        (y := fun i => v t i - v' t i) fun r hr => by rw [pair_left _ _ hr, pair_left _ _ hr]]
  simpa only [e] using key

/-- C116: there is only one motion from a given state. -/
theorem C116_unique (h : b.Sound) {f : ℝ → ℕ → ℝ} {T : ℝ} {u v a θ η u' v' a' θ' η' : ℝ → ℕ → ℝ}
    (hm : b.Motion f T u v a θ η) (hm' : b.Motion f T u' v' a' θ' η')
    (h0 : ∀ r < b.n, u 0 r = u' 0 r ∧ v 0 r = v' 0 r) (h0' : ∀ p < b.N, θ 0 p = θ' 0 p) :
    ∀ t ∈ Set.Icc 0 T, (∀ r < b.n, u t r = u' t r ∧ v t r = v' t r) ∧ ∀ p < b.N, θ t p = θ' t p := by
  intro t ht
  have key := C105_unique h.storesMass h.dissipates h.storesElasticity h.definite (hm.both h) (hm'.both h)
    (fun r hr => by
      by_cases hn : r < b.n
      · rw [pair_left _ _ hn, pair_left _ _ hn]; exact (h0 r hn).1
      · obtain ⟨p, rfl⟩ : ∃ p, r = b.n + p := ⟨r - b.n, by omega⟩
        rw [pair_right, pair_right, intervalIntegral.integral_same, intervalIntegral.integral_same])
    (fun r hr => by
      by_cases hn : r < b.n
      · rw [pair_left _ _ hn, pair_left _ _ hn]; exact (h0 r hn).2
      · obtain ⟨p, rfl⟩ : ∃ p, r = b.n + p := ⟨r - b.n, by omega⟩
        rw [pair_right, pair_right]; exact h0' p (by omega)) t ht
  refine ⟨fun r hr => ?_, fun p hp => ?_⟩
  · have := key r (by omega)
    rwa [pair_left _ _ hr, pair_left _ _ hr, pair_left _ _ hr, pair_left _ _ hr] at this
  · have := (key (b.n + p) (by omega)).2
    rwa [pair_right, pair_right] at this

/-- C116: motions exist if the loads change at a bounded rate. -/
theorem C116_exists (h : b.Sound) (f : ℝ → ℕ → ℝ) (T l : ℝ) (hT : 0 ≤ T) (hl : 0 ≤ l)
    (hf : ∀ s ∈ Set.Icc 0 T, ∀ t ∈ Set.Icc 0 T, ∀ r < b.n, |f s r - f t r| ≤ l * |s - t|)
    (u₀ v₀ θ₀ : ℕ → ℝ) (hv₀ : Still b.n b.D v₀) (hθ₀ : Still b.N b.D' θ₀) :
    ∃ u v a θ η, b.Motion f T u v a θ η ∧ (∀ r < b.n, u 0 r = u₀ r ∧ v 0 r = v₀ r) ∧
      ∀ p < b.N, θ 0 p = θ₀ p := by
  obtain ⟨U, V, A, hm, h0, h1, -⟩ := h.exists_motion f T l hT hl hf u₀ v₀ θ₀ hv₀ hθ₀
  exact ⟨U, V, A, _, _, h.motion hm, h0, h1⟩

/-- C116: however strong the coupling, it is weak in short time steps. -/
theorem C116_short (h : b.Sound) {q : ℝ} (hq : 0 < q) :
    ∃ τ₀, 0 < τ₀ ∧ ∀ τ, 0 < τ → τ ≤ τ₀ → b.Coupling τ q := h.coupling hq

/-- C116: in every time step the velocity and the temperature can be found together. -/
theorem C116_together (h : b.Sound) (f u v θ : ℕ → ℝ) {τ : ℝ} (hτ : 0 < τ) :
    ∃ w y, b.Pass f τ u v θ y w y := by
  obtain ⟨g, k, hk, hg⟩ := h.smooth
  obtain ⟨z, hz, hbal⟩ := exists_balanced h.storesMass h.definite h.dissipates h.storesElasticity hk hg
    (pair b.n f fun _ => 0) (pair b.n u fun _ => 0) (pair b.n v θ) hτ
  obtain ⟨h1, h2⟩ := (h.both (fun p _ => pair_right _ _ _ p) hz).1 hbal
  obtain ⟨z1, z2⟩ := ThermalBody.still_both.1 hz
  refine ⟨z, shift b.n z, z1, z2, fun y hy => ?_, fun y hy => ?_⟩
  · refine (h1 y hy).trans (le_of_eq ?_)
    congr 1
    refine Finset.sum_congr rfl fun r hr => ?_
    have hr := Finset.mem_range.1 hr
    beta_reduce
    rw [pair_left _ _ hr, act_congr (x := fun i => (z i - pair b.n v θ i) / τ) (y := fun i => (z i - v i) / τ)
      fun i hi => by rw [pair_left _ _ hi],
      act_congr (x := fun i => pair b.n u (fun _ => 0) i + τ * z i) (y := fun i => u i + τ * z i)
      fun i hi => by rw [pair_left _ _ hi]]
  · refine (h2 y hy).trans (le_of_eq ?_)
    congr 1
    refine Finset.sum_congr rfl fun p hp => ?_
    congr 3
    refine congrArg (fun x => act b.N b.capacity x p) ?_
    funext q
    simp only [shift, pair_right]

/-- C116: and in only one way. -/
theorem C116_together_unique (h : b.Sound) {f u v θ w y w' y' : ℕ → ℝ} {τ : ℝ} (hτ : 0 < τ)
    (h1 : b.Pass f τ u v θ y w y) (h2 : b.Pass f τ u v θ y' w' y') :
    (∀ r < b.n, w r = w' r) ∧ ∀ p < b.N, y p = y' p := by
  have k1 := h1.velocity hτ h2
  have k2 := h1.temperature h2
  have k3 := h.stepEnergy_nonneg hτ fun i => w i - w' i
  have k4 := h.stepHeat_nonneg hτ fun i => y i - y' i
  have k5 : b.stepEnergy τ (fun i => w i - w' i) = 0 := by linarith
  have k6 : b.stepHeat τ (fun i => y i - y' i) = 0 := by linarith
  unfold ThermalBody.stepEnergy at k5
  unfold ThermalBody.stepHeat at k6
  have n1 := div_nonneg (h.mass.nonneg fun i => w i - w' i) hτ.le
  have n2 := h.viscosity.nonneg fun i => w i - w' i
  have n3 := mul_nonneg hτ.le (h.elasticity.nonneg fun i => w i - w' i)
  have n4 := div_nonneg (h.capacity.nonneg fun i => y i - y' i) hτ.le
  have n5 := h.conductivity.nonneg fun i => y i - y' i
  have z1 : quad b.n b.mass (fun i => w i - w' i) / τ = 0 := by linarith
  have z2 : quad b.N b.capacity (fun i => y i - y' i) / τ = 0 := by linarith
  refine ⟨fun r hr => ?_, fun p hp => ?_⟩
  · have := h.massive _ (still_sub h1.held h2.held) ((div_eq_zero_iff.1 z1).resolve_right hτ.ne') r hr
    exact sub_eq_zero.1 this
  · have := h.capacious _ (still_sub h1.kept h2.kept) ((div_eq_zero_iff.1 z2).resolve_right hτ.ne') p hp
    exact sub_eq_zero.1 this

/-- The passes of a time step approach the fields found together. -/
theorem passes_converge (h : b.Sound) {f u v : ℕ → ℝ} {τ q : ℝ} (hτ : 0 < τ) (hq : 0 ≤ q)
    (hc : b.Coupling τ q) {m : ℕ} {x w : ℕ → ℕ → ℝ} (h0 : Still b.N b.D' (x 0))
    (hp : ∀ i < m, b.Pass f τ u v (x 0) (x i) (w (i + 1)) (x (i + 1)))
    {y z : ℕ → ℝ} (hz : b.Pass f τ u v (x 0) z y z) :
    ∀ i ≤ m, b.stepHeat τ (fun p => x i p - z p) ≤ q ^ (2 * i) * b.stepHeat τ (fun p => x 0 p - z p) ∧
      (0 < i → b.stepEnergy τ (fun r => w i r - y r) ≤
        q ^ (2 * i - 1) * b.stepHeat τ fun p => x 0 p - z p) := by
  have hstill : ∀ i ≤ m, Still b.N b.D' (x i) := by
    intro i hi
    cases i with
    | zero => exact h0
    | succ i => exact (hp i (by omega)).kept
  intro i
  induction i with
  | zero => intro _; simp
  | succ i ih =>
    intro hi
    have i1 := (ih (by omega)).1
    obtain ⟨c1, c2⟩ := (hp i (by omega)).contracts h hτ hq hc hz (hstill i (by omega)) hz.kept
    have c3 := mul_le_mul_of_nonneg_left i1 hq
    have e1 : q * (q ^ (2 * i) * b.stepHeat τ fun p => x 0 p - z p) =
        q ^ (2 * i + 1) * b.stepHeat τ fun p => x 0 p - z p := by rw [pow_succ]; ring
    rw [e1] at c3
    refine ⟨?_, fun _ => ?_⟩
    · have c4 := mul_le_mul_of_nonneg_left (c1.trans c3) hq
      refine c2.trans (c4.trans (le_of_eq ?_))
      rw [show 2 * (i + 1) = 2 * i + 1 + 1 by ring, pow_succ q (2 * i + 1)]; ring
    · rw [show 2 * (i + 1) - 1 = 2 * i + 1 by omega]
      exact c1.trans c3

end

/-! ### Engines -/

section
variable {V : Type}

/-- A coupled solver of thermoelastic problems: `D` is the set of the held degrees of freedom of the
displacement, `D'` the one of the nodes kept at zero temperature. -/
structure Thermoelastic (e : CoupledEngine ℝ) (D D' : ℕ → Prop) : Prop where
  first : e.first.kind = .dynamicVelocityWithTemperature
  second : e.second.kind = .temperature
  state : e.stateKind = .temperature
  ops : e.second.ops = e.first.ops
  dimension : e.first.ops.dimension = 2
  boundaries : ValidBoundaries e.first.ops.nodesCount e.first.boundaries
  supports : DirichletData e.first.ops.nodesCount 2 e.first.boundaries D fun _ => 0
  boundaries' : ValidBoundaries e.first.ops.nodesCount e.second.boundaries
  kept : DirichletData e.first.ops.nodesCount 1 e.second.boundaries D' fun _ => 0

/-- The body of the problem, with the potentials `J` of contact and `J'` of heat exchange. -/
def thermalBody (e : CoupledEngine ℝ) (D D' : ℕ → Prop) (J J' : (ℕ → ℝ) → ℝ) : ThermalBody where
  n := 2 * e.first.ops.nodesCount
  N := e.first.ops.nodesCount
  D := D
  D' := D'
  mass := e.first.ops.acceleration
  viscosity := e.first.ops.viscosity
  elasticity := e.first.ops.elasticity
  capacity := e.first.ops.acceleration
  conductivity := e.first.ops.thermalConductivity
  expansion := e.first.ops.thermalExpansion
  contact := J
  exchange := J'

theorem thermal_passes (e : CoupledEngine ℝ) (D D' : ℕ → Prop) [DecidablePred D] [DecidablePred D']
    (he : Thermoelastic e D D') (J J' : (ℕ → ℝ) → ℝ) (dt : ℝ)
    (hs : ContactSolve e.first (2 * e.first.ops.nodesCount) D dt J)
    (hs' : ContactSolve e.second e.first.ops.nodesCount D' dt J') (u v θ p : ℕ → ℝ) (t : ℝ) (m : ℕ)
    (it : ℕ → Coupled ℝ) (hp : Passes e u v θ p dt dt t m it) :
    ∀ i < m, (thermalBody e D D' J J').Pass (e.first.ops.force t) dt u v θ (it i).solutionT
      (it (i + 1)).solution (it (i + 1)).solutionT := by
  intro i hi
  obtain ⟨k1, k2, k3, k4, k5, k6, k7, k8, k9⟩ := he
  have h1 := hp.first i hi
  have h2 := hp.solution i hi
  obtain ⟨hD, hP⟩ := hs (it (i + 1)).first (it i).solution _ rfl h1
  have h1' := hp.second i hi
  have h2' := hp.solutionT i hi
  obtain ⟨hD', hP'⟩ := hs' (it (i + 1)).second (it i).solutionT _ rfl h1'
  rw [← h2] at hD hP
  rw [← h2'] at hD' hP'
  rw [k1] at h1
  rw [k2, k4] at h1'
  have h4 : applyDirichlet e.first.ops.nodesCount 2 e.first.boundaries
      ⟨fun r s => e.first.ops.viscosity r s + 1 / dt * e.first.ops.acceleration r s +
          e.first.ops.elasticity r s * dt,
        fun i' => e.first.ops.force t i' +
          (matVec (e.first.ops.dimension * e.first.ops.nodesCount)
            (fun r s => -1 * e.first.ops.elasticity r s) u i' +
          matVec (e.first.ops.dimension * e.first.ops.nodesCount)
            (fun r s => 1 / dt * e.first.ops.acceleration r s) v i') +
          matVec e.first.ops.nodesCount (transposed e.first.ops.thermalExpansion) (it i).solutionT i'⟩ =
        (it (i + 1)).first.system := Except.ok.inj h1
  have h4' : applyDirichlet e.first.ops.nodesCount 1 e.second.boundaries
      ⟨fun r s => 1 / dt * e.first.ops.acceleration r s + e.first.ops.thermalConductivity r s,
        fun i' => matVec (e.first.ops.dimension * e.first.ops.nodesCount)
            (fun r s => -1 * e.first.ops.thermalExpansion r s) (it (i + 1)).solution i' +
          matVec e.first.ops.nodesCount (fun r s => 1 / dt * e.first.ops.acceleration r s) θ i'⟩ =
        (it (i + 1)).second.system := Except.ok.inj h1'
  rw [k5] at h4 h4'
  refine ⟨hD, hD', fun y hy => ?_, fun y hy => ?_⟩
  · refine (hP y hy).trans (le_of_eq ?_)
    rw [← h4, residual_elimination _ _ _ _ D k6 k7 _ (fun i' => y i' - (it (i + 1)).solution i') hD
      (still_sub hy hD)]
    change _ + _ = _ + (J y - J _)
    congr 1
    refine Finset.sum_congr rfl fun r _ => ?_
    congr 1
    have := dynamic_residual (2 * e.first.ops.nodesCount) r u v (it (i + 1)).solution
      (fun i' => e.first.ops.force t i' +
        matVec e.first.ops.nodesCount (transposed e.first.ops.thermalExpansion) (it i).solutionT i')
      dt e.first.ops.viscosity e.first.ops.elasticity e.first.ops.acceleration
    refine Eq.trans ?_ this
    ring
  · refine (hP' y hy).trans (le_of_eq ?_)
    have hel := residual_elimination (n := 1 * e.first.ops.nodesCount) e.first.ops.nodesCount 1 e.second.boundaries
      ⟨fun r s => 1 / dt * e.first.ops.acceleration r s + e.first.ops.thermalConductivity r s,
        fun i' => matVec (2 * e.first.ops.nodesCount)
            (fun r s => -1 * e.first.ops.thermalExpansion r s) (it (i + 1)).solution i' +
          matVec e.first.ops.nodesCount (fun r s => 1 / dt * e.first.ops.acceleration r s) θ i'⟩ D' k8 k9
      (it (i + 1)).solutionT (fun i' => y i' - (it (i + 1)).solutionT i') (by rw [Nat.one_mul]; exact hD')
      (by rw [Nat.one_mul]; exact still_sub hy hD')
    rw [Nat.one_mul] at hel
    rw [← h4', hel]
    change _ + _ = _ + (J' y - J' _)
    congr 1
    refine Finset.sum_congr rfl fun r _ => ?_
    congr 1
    change _ = act e.first.ops.nodesCount e.first.ops.acceleration
      (fun i' => ((it (i + 1)).solutionT i' - θ i') / dt) r +
      act e.first.ops.nodesCount e.first.ops.thermalConductivity (it (i + 1)).solutionT r +
      act (2 * e.first.ops.nodesCount) e.first.ops.thermalExpansion (it (i + 1)).solution r
    have a1 : act e.first.ops.nodesCount e.first.ops.acceleration
        (fun i' => ((it (i + 1)).solutionT i' - θ i') / dt) r =
        1 / dt * (act e.first.ops.nodesCount e.first.ops.acceleration (it (i + 1)).solutionT r -
          act e.first.ops.nodesCount e.first.ops.acceleration θ r) := by
      rw [← act_difference]
      unfold act
      rw [Finset.mul_sum]
      exact Finset.sum_congr rfl fun s _ => by ring
    have a2 : matVec (2 * e.first.ops.nodesCount) (fun r s => -1 * e.first.ops.thermalExpansion r s)
        (it (i + 1)).solution r =
        -act (2 * e.first.ops.nodesCount) e.first.ops.thermalExpansion (it (i + 1)).solution r := by
      unfold matVec act
      rw [← Finset.sum_neg_distrib]
      exact Finset.sum_congr rfl fun s _ => by ring
    have a3 : matVec e.first.ops.nodesCount (fun r s => 1 / dt * e.first.ops.acceleration r s) θ r =
        1 / dt * act e.first.ops.nodesCount e.first.ops.acceleration θ r := by
      unfold matVec act
      rw [Finset.mul_sum]
      exact Finset.sum_congr rfl fun s _ => by ring
    have a4 : ∑ s ∈ Finset.range e.first.ops.nodesCount, (1 / dt * e.first.ops.acceleration r s +
        e.first.ops.thermalConductivity r s) * (it (i + 1)).solutionT s =
        1 / dt * act e.first.ops.nodesCount e.first.ops.acceleration (it (i + 1)).solutionT r +
          act e.first.ops.nodesCount e.first.ops.thermalConductivity (it (i + 1)).solutionT r := by
      unfold act
      rw [Finset.mul_sum, ← Finset.sum_add_distrib]
      exact Finset.sum_congr rfl fun s _ => by ring
    rw [a1]
    dsimp only
    rw [a2, a3, a4]
    ring

/-- Between two steps the temperature from which the passes start is the one of the state. -/
def GuessIsState (r : CoupledEngine.Run ℝ V) : Prop := r.coupled.solutionT = r.coupled.first.tVector

theorem guess_step (e : CoupledEngine ℝ) (fuel : ℕ) (r r' : CoupledEngine.Run ℝ V)
    (h : e.step fuel r = .ok r') : GuessIsState r' := by
  simp only [CoupledEngine.step, bind, Except.bind] at h
  split at h
  · cases h
  · rename_i c1 h1
    obtain ⟨_, _, _, ⟨g2, _⟩, _⟩ := C40_consistent e fuel _ c1.1 c1.2 h1
    simp only [State.setVelocity, bind, Except.bind] at h
    split at h
    · cases h
    · rename_i p hp'
      split at hp'
      · cases hp'
      · cases hp'
        cases h
        exact g2.symm

theorem guess_start (e : CoupledEngine ℝ) (hst : e.stateKind = .temperature) (a : Engine.Arguments ℝ)
    (x : ℕ → ℝ) (first second : SolverState ℝ) (store : ProductStore ℝ V) (hc : first.currentTime = 0)
    (hdt : second.timeStep = first.timeStep) (c : Coupled ℝ) (s : State ℝ)
    (h : e.start a x first second = .ok (c, s)) : GuessIsState (V := V) ⟨c, s, store⟩ := by
  obtain ⟨_, _, _, _, _, h4, _⟩ := coupled_between_start e a x first second store hc hdt c s h
  have h4 := h4 hst
  simp only [CoupledEngine.start, bind, Except.bind] at h
  split at h
  · cases h
  · split at h
    · cases h
    · cases h
      exact h4.symm

/-- One step in terms of the passes of the body. -/
theorem thermal_step_passes (e : CoupledEngine ℝ) (D D' : ℕ → Prop) [DecidablePred D] [DecidablePred D']
    (he : Thermoelastic e D D') (J J' : (ℕ → ℝ) → ℝ) (fuel : ℕ) (dt : ℝ)
    (hs : ContactSolve e.first (2 * e.first.ops.nodesCount) D dt J)
    (hs' : ContactSolve e.second e.first.ops.nodesCount D' dt J')
    (r r' : CoupledEngine.Run ℝ V) (hb : CoupledBetween e dt r) (hg : GuessIsState r)
    (h : e.step fuel r = .ok r') :
    r'.state.time = r.state.time + dt ∧
    (State.flatten e.first.grid r'.state.displacement = fun i =>
      State.flatten e.first.grid r.state.displacement i +
        dt * State.flatten e.first.grid r'.state.velocity i) ∧
    ∃ (m : ℕ) (x w : ℕ → ℕ → ℝ), 5 ≤ m ∧ m ≤ 10 ∧
      (∀ i < m, (thermalBody e D D' J J').Pass (e.first.ops.force (r.state.time + dt)) dt
        (State.flatten e.first.grid r.state.displacement) (State.flatten e.first.grid r.state.velocity)
        (x 0) (x i) (w (i + 1)) (x (i + 1))) ∧
      r.state.scalar = .temperature (x 0) ∧ r'.state.scalar = .temperature (x m) ∧
      State.flatten e.first.grid r'.state.velocity = w m := by
  obtain ⟨hb', hdis, htime, m, it, m5, m10, hp, h0, hv, hT, _⟩ := coupled_step_passes e fuel dt r r' hb h
  have hx0 : (it 0).solutionT = r.coupled.first.tVector := h0.trans hg
  refine ⟨htime, hdis, m, fun i => (it i).solutionT, fun i => (it i).solution, m5, m10, fun i hi => ?_, ?_, ?_, hv⟩
  · beta_reduce
    rw [hx0]
    exact thermal_passes e D D' he J J' dt hs hs' _ _ _ _ _ m it hp i hi
  · beta_reduce
    rw [hb.scalar, he.state, hx0]; rfl
  · beta_reduce
    rw [hb'.scalar, he.state, ← hT]; rfl

/-- C116, the passes of one step: if the coupling in a time step is at most `q`, the returned fields are
close to the ones of the step in which both are found together, the velocity `y` and the temperature `z`:
their distances are at most `q⁹` and `q¹⁰` times the distance of the temperature at the beginning. -/
theorem C116_step (e : CoupledEngine ℝ) (D D' : ℕ → Prop) [DecidablePred D] [DecidablePred D']
    (he : Thermoelastic e D D') (J J' : (ℕ → ℝ) → ℝ) (hb : (thermalBody e D D' J J').Sound) (fuel : ℕ)
    (dt : ℝ) (hdt : 0 < dt) (q : ℝ) (hq : 0 ≤ q) (hq1 : q ≤ 1)
    (hc : (thermalBody e D D' J J').Coupling dt q)
    (hs : ContactSolve e.first (2 * e.first.ops.nodesCount) D dt J)
    (hs' : ContactSolve e.second e.first.ops.nodesCount D' dt J')
    (r r' : CoupledEngine.Run ℝ V) (hbet : CoupledBetween e dt r) (hg : GuessIsState r)
    (h : e.step fuel r = .ok r') :
    ∃ θ θ', r.state.scalar = .temperature θ ∧ r'.state.scalar = .temperature θ' ∧
      ∀ y z, Still e.first.ops.nodesCount D' θ → (thermalBody e D D' J J').Pass
        (e.first.ops.force (r.state.time + dt)) dt (State.flatten e.first.grid r.state.displacement)
        (State.flatten e.first.grid r.state.velocity) θ z y z →
      (thermalBody e D D' J J').stepHeat dt (fun p => θ' p - z p) ≤
        q ^ 10 * (thermalBody e D D' J J').stepHeat dt (fun p => θ p - z p) ∧
      (thermalBody e D D' J J').stepEnergy dt
          (fun i => State.flatten e.first.grid r'.state.velocity i - y i) ≤
        q ^ 9 * (thermalBody e D D' J J').stepHeat dt fun p => θ p - z p := by
  obtain ⟨_, _, m, x, w, m5, m10, hp, h0, h1, h2⟩ := thermal_step_passes e D D' he J J' fuel dt hs hs' r r'
    hbet hg h
  refine ⟨x 0, x m, h0, h1, fun y z hθ hz => ?_⟩
  obtain ⟨k1, k2⟩ := passes_converge hb hdt hq hc hθ hp hz m le_rfl
  have k2 := k2 (by omega)
  have hn := hb.stepHeat_nonneg hdt fun p => x 0 p - z p
  rw [h2]
  constructor
  · exact k1.trans (mul_le_mul_of_nonneg_right (pow_le_pow_of_le_one hq hq1 (by omega)) hn)
  · exact k2.trans (mul_le_mul_of_nonneg_right (pow_le_pow_of_le_one hq hq1 (by omega)) hn)

/-- The errors of a run. -/
theorem real_gronwall {E E' t τ K : ℝ} (hK : 0 ≤ K) (hτ : 0 < τ) (ht : 0 ≤ t)
    (hE : E ≤ t * τ * (K * Real.exp (K * t))) (h : E' ≤ (1 + K * τ) * E + K * τ ^ 2) :
    E' ≤ (t + τ) * τ * (K * Real.exp (K * (t + τ))) := by
  have h1 : 1 + K * τ ≤ Real.exp (K * τ) := by have := Real.add_one_le_exp (K * τ); linarith
  have h2 : Real.exp (K * (t + τ)) = Real.exp (K * t) * Real.exp (K * τ) := by
    rw [← Real.exp_add]; congr 1; ring
  have h3 : 1 ≤ Real.exp (K * (t + τ)) := Real.one_le_exp (by positivity)
  have h4 : (1 + K * τ) * E ≤ (1 + K * τ) * (t * τ * (K * Real.exp (K * t))) :=
    mul_le_mul_of_nonneg_left hE (by positivity)
  have h5 : (1 + K * τ) * (t * τ * (K * Real.exp (K * t))) ≤
      Real.exp (K * τ) * (t * τ * (K * Real.exp (K * t))) :=
    mul_le_mul_of_nonneg_right h1 (by positivity)
  have h6 : K * τ ^ 2 * 1 ≤ K * τ ^ 2 * Real.exp (K * (t + τ)) :=
    mul_le_mul_of_nonneg_left h3 (by positivity)
  calc E' ≤ Real.exp (K * τ) * (t * τ * (K * Real.exp (K * t))) +
        K * τ ^ 2 * Real.exp (K * (t + τ)) := by linarith
    _ = _ := by rw [h2]; ring

/-- C116, thermoelastic runs: there is a motion of the body from the initial state, and the states
returned by `solve` are at most a multiple of the elapsed time and of the time step away from it, however
strong the coupling and whenever a step stops to pass between the fields. The multiple depends on the body, the loads, the
initial state and the time considered, not on the time step. -/
theorem C116_converges (e : CoupledEngine ℝ) (D D' : ℕ → Prop) [DecidablePred D] [DecidablePred D']
    (he : Thermoelastic e D D') (J J' : (ℕ → ℝ) → ℝ) (hb : (thermalBody e D D' J J').Sound) (fuel : ℕ)
    (T l : ℝ) (hT : 0 ≤ T) (hl : 0 ≤ l)
    (hf : ∀ s ∈ Set.Icc 0 T, ∀ t ∈ Set.Icc 0 T, ∀ r < 2 * e.first.ops.nodesCount,
      |e.first.ops.force s r - e.first.ops.force t r| ≤ l * |s - t|)
    (hs : ∀ dt, 0 < dt → ContactSolve e.first (2 * e.first.ops.nodesCount) D dt J)
    (hs' : ∀ dt, 0 < dt → ContactSolve e.second e.first.ops.nodesCount D' dt J')
    (u₀ v₀ : ℕ → ℕ → ℝ) (θ₀ : ℕ → ℝ)
    (hv₀ : Still (2 * e.first.ops.nodesCount) D (State.flatten e.first.grid v₀))
    (hθ₀ : Still e.first.ops.nodesCount D' θ₀) :
    ∃ (u v acc θ η : ℝ → ℕ → ℝ) (C : ℝ),
      (thermalBody e D D' J J').Motion e.first.ops.force T u v acc θ η ∧
      (∀ r < 2 * e.first.ops.nodesCount,
        u 0 r = State.flatten e.first.grid u₀ r ∧ v 0 r = State.flatten e.first.grid v₀ r) ∧
      (∀ p < e.first.ops.nodesCount, θ 0 p = θ₀ p) ∧
      ∀ (a : Engine.Arguments ℝ) (first second : SolverState ℝ) (store : ProductStore ℝ V)
        (rs : List (State ℝ)) (r : CoupledEngine.Run ℝ V),
        a.initialDisplacement = u₀ → a.initialVelocity = v₀ → first.currentTime = 0 →
        0 < first.timeStep → second.timeStep = first.timeStep →
        e.solve fuel a θ₀ first second store = .ok (rs, r) →
        ∀ s ∈ rs, s.time ≤ T → ∃ ϑ, s.scalar = .temperature ϑ ∧
          (thermalBody e D D' J J').distance (State.flatten e.first.grid s.displacement)
            (State.flatten e.first.grid s.velocity) ϑ (u s.time) (v s.time) (θ s.time) ≤
              s.time * first.timeStep * C := by
  set b := thermalBody e D D' J J' with hbdef
  obtain ⟨U, W, A, hm, h0, h0', cv, ca, cf, hmod⟩ := hb.exists_motion e.first.ops.force T l hT hl hf
    (State.flatten e.first.grid u₀) (State.flatten e.first.grid v₀) θ₀ hv₀ hθ₀
  obtain ⟨K, hK, hstep⟩ := ThermalBody.thermal_step hb hm hmod
  refine ⟨U, W, A, _, _, K * Real.exp (K * T), hb.motion hm, h0, h0',
    fun a first second store rs r ha1 ha2 hc hdt hts hsol s hmem hsT => ?_⟩
  obtain ⟨qr, hqb, ⟨hg, ht, ϑ, hϑ, hstill, herr⟩, rfl⟩ := coupled_invariant e fuel a θ₀ first second store hc hts
    (fun q => GuessIsState q ∧ 0 ≤ q.state.time ∧ ∃ ϑ, q.state.scalar = .temperature ϑ ∧
      Still e.first.ops.nodesCount D' ϑ ∧
      (q.state.time ≤ T → b.distance (State.flatten e.first.grid q.state.displacement)
        (State.flatten e.first.grid q.state.velocity) ϑ (U q.state.time) (W q.state.time)
        (shift b.n (W q.state.time)) ≤
          q.state.time * first.timeStep * (K * Real.exp (K * q.state.time))))
    (fun c s hst hbet => by
      obtain ⟨_, _, h2, h3, h4, h5, _⟩ := coupled_between_start e a θ₀ first second store hc hts c s hst
      refine ⟨guess_start e he.state a θ₀ first second store hc hts c s hst, by simp only [h2]; exact le_rfl,
        c.first.tVector, ?_, by rw [h5 he.state]; exact hθ₀, fun _ => ?_⟩
      · rw [hbet.scalar, he.state]; rfl
      · simp only [h2, h3, h4, h5 he.state, ha1, ha2]
        unfold ThermalBody.distance
        rw [quad_zero_vector fun r hr => by rw [(h0 r hr).1, sub_self],
          quad_zero_vector fun r hr => by rw [(h0 r hr).2, sub_self],
          quad_zero_vector fun p hp => by rw [shift, h0' p hp, sub_self]]
        simp)
    (fun q q' hbet hq hstp => by
      obtain ⟨hg, ht, ϑ, hϑ, hstill, herr⟩ := hq
      obtain ⟨htime, hdis, m, x, w, m5, m10, hp, k0, k1, k2⟩ := thermal_step_passes e D D' he J J' fuel _
        (hs _ hdt) (hs' _ hdt) q q' hbet hg hstp
      rw [hϑ] at k0
      cases k0
      refine ⟨guess_step e fuel q q' hstp, by rw [htime]; positivity, x m, k1, ?_, fun hle => ?_⟩
      · obtain ⟨j, rfl⟩ : ∃ j, m = j + 1 := ⟨m - 1, by omega⟩
        exact (hp j (by omega)).kept
      · rw [htime] at hle ⊢
        have := hstep first.timeStep q.state.time _ _ m x w hdt ht hle hstill (by omega) m10 hp
        rw [hdis, k2]
        exact real_gronwall hK hdt ht (herr (by linarith)) this)
    rs r hsol s hmem
  refine ⟨ϑ, hϑ, (herr hsT).trans ?_⟩
  refine mul_le_mul_of_nonneg_left ?_ (mul_nonneg ht hdt.le)
  exact mul_le_mul_of_nonneg_left (Real.exp_le_exp.2 (mul_le_mul_of_nonneg_left hsT hK)) hK

theorem coupled_loop_succeeds (e : CoupledEngine ℝ)
    (hpass : ∀ u v θ p c, ∃ c', e.pass u v θ p c = .ok c') (u v θ p : ℕ → ℝ) :
    ∀ (fuel : ℕ) (fuse m : ℤ) (large : Bool) (k : ℕ) (c : Coupled ℝ), 0 ≤ fuse → m ≤ fuse → fuse < fuel →
    ∃ r, e.loop u v θ p fuel fuse m large k c = .ok r := by
  intro fuel
  induction fuel with
  | zero => intro fuse m large k c h1 _ h2; simp at h2; omega
  | succ fuel ih =>
    intro fuse m large k c h1 h2 h3
    unfold CoupledEngine.loop
    split
    · rename_i hc
      obtain ⟨c', hc'⟩ := hpass u v θ p c
      simp only [hc', bind, Except.bind]
      refine ih _ _ _ _ _ ?_ ?_ ?_
      · rcases hc with hc | ⟨-, hc⟩ <;> omega
      · omega
      · push_cast at h3; omega
    · exact ⟨_, rfl⟩

/-- Coupled runs whose passes and first iterations do not fail return. -/
theorem coupled_runs (e : CoupledEngine ℝ) (hpass : ∀ u v θ p c, ∃ c', e.pass u v θ p c = .ok c')
    (i1 : ∀ s, ∃ s', e.first.iterate s = .ok s') (i2 : ∀ s, ∃ s', e.second.iterate s = .ok s')
    (fuel : ℕ) (hf : 11 ≤ fuel)
    (a : Engine.Arguments ℝ) (θ₀ : ℕ → ℝ) (first second : SolverState ℝ) (store : ProductStore ℝ V) :
    ∃ rs r, e.solve fuel a θ₀ first second store = .ok (rs, r) := by
  have h1 : ∀ r : CoupledEngine.Run ℝ V, r.state.products = [] →
      ∃ r', e.step fuel r = .ok r' ∧ r'.state.products = [] := by
    intro r hp
    have hp' : ∀ v t, (r.state.withVelocity e.first.grid v t true).products = [] := fun v t => hp
    obtain ⟨c, hc⟩ := coupled_loop_succeeds e hpass r.coupled.first.uVector r.coupled.first.vVector
      r.coupled.first.tVector r.coupled.first.pVector fuel 10 5 true 0 { r.coupled with
        first := { r.coupled.first with
          currentTime := r.coupled.first.currentTime + r.coupled.first.timeStep }
        second := { r.coupled.second with
          currentTime := r.coupled.second.currentTime + r.coupled.second.timeStep } }
      (by omega) (by omega) (by omega)
    simp only [CoupledEngine.step, CoupledEngine.findSolutionUzawa, hc, State.setVelocity, hp', updateAll,
      bind, Except.bind, pure, Except.pure]
    refine ⟨_, rfl, ?_⟩
    simp only [State.setScalar]
    split <;> exact hp
  have h2 : ∀ (k : ℕ) (r : CoupledEngine.Run ℝ V), r.state.products = [] →
      ∃ r', e.steps fuel k r = .ok r' ∧ r'.state.products = [] := by
    intro k
    induction k with
    | zero => exact fun r hp => ⟨r, rfl, hp⟩
    | succ k ih =>
      intro r hp
      obtain ⟨s1, h3, h4⟩ := h1 r hp
      obtain ⟨s2, h5, h6⟩ := ih s1 h4
      exact ⟨s2, by simp [CoupledEngine.steps, h3, h5, bind, Except.bind], h6⟩
  have h3 : ∀ (l : List ℤ) (r : CoupledEngine.Run ℝ V), r.state.products = [] →
      ∃ q, e.outputs fuel l r = .ok q := by
    intro l
    induction l with
    | nil => exact fun r _ => ⟨_, rfl⟩
    | cons k l ih =>
      intro r hp
      obtain ⟨s1, h4, h5⟩ := h2 k.toNat r hp
      obtain ⟨q, h6⟩ := ih { s1 with store := (s1.state.copy e.first.grid s1.store).2 } h5
      exact ⟨((s1.state.copy e.first.grid s1.store).1 :: q.1, q.2), by
        simp [CoupledEngine.outputs, h4, h6, bind, Except.bind, pure, Except.pure]⟩
  have h4 : ∃ c s, e.start a θ₀ first second = .ok (c, s) ∧ s.products = [] := by
    simp only [CoupledEngine.start, bind, Except.bind]
    split
    · rename_i err h
      obtain ⟨s', hs'⟩ := i1 _
      rw [hs'] at h
      cases h
    · split
      · rename_i err h
        obtain ⟨s', hs'⟩ := i2 _
        rw [hs'] at h
        cases h
      · refine ⟨_, _, rfl, ?_⟩
        simp only [State.setScalar]
        split <;> rfl
  obtain ⟨c, s, h5, h6⟩ := h4
  obtain ⟨q, h7⟩ := h3 (Engine.outputDiffs a.nSteps a.outputStep) ⟨c, s, store⟩ h6
  exact ⟨q.1, q.2, by simp only [CoupledEngine.solve, h5, bind, Except.bind, h7]⟩

/-- C116: thermoelastic runs return, with either dynamic solver and from every state. -/
theorem C116_runs (e : CoupledEngine ℝ) (hk : e.first.kind = .dynamicVelocityWithTemperature)
    (hk' : e.second.kind = .temperature) (hc : e.first.cls = .dynamicGlobal ∨ e.first.cls = .dynamicSchur)
    (hc' : e.second.cls = .dynamicGlobal ∨ e.second.cls = .dynamicSchur) (fuel : ℕ) (hf : 11 ≤ fuel)
    (a : Engine.Arguments ℝ) (θ₀ : ℕ → ℝ) (first second : SolverState ℝ) (store : ProductStore ℝ V) :
    ∃ rs r, e.solve fuel a θ₀ first second store = .ok (rs, r) := by
  have hpass : ∀ (u v θ p : ℕ → ℝ) (c : Coupled ℝ), ∃ c', e.pass u v θ p c = .ok c' := by
    intro u v θ p c
    unfold CoupledEngine.pass SolverState.updateSystem
    rw [hk, hk']
    exact ⟨_, rfl⟩
  have i1 : ∀ s, ∃ s', e.first.iterate s = .ok s' := fun s => by
    unfold Engine.iterate SolverState.iterate
    rw [hk]
    rcases hc with h | h <;> rw [h] <;> exact ⟨_, rfl⟩
  have i2 : ∀ s, ∃ s', e.second.iterate s = .ok s' := fun s => by
    unfold Engine.iterate SolverState.iterate
    rw [hk']
    rcases hc' with h | h <;> rw [h] <;> exact ⟨_, rfl⟩
  exact coupled_runs e hpass i1 i2 fuel hf a θ₀ first second store

end

/-! ### Triangular meshes -/

theorem tensor_square (c : ℕ → ℕ → ℝ) (hc : c 0 1 = c 1 0) (G : ℕ → ℕ → ℝ) (p m l : ℝ) (hl : 0 ≤ l)
    (h : (c 0 0 ^ 2 + c 0 1 ^ 2 + c 1 0 ^ 2 + c 1 1 ^ 2) * p ≤ 2 * m) (hp : 0 ≤ p) :
    p * (c 0 0 * G 0 0 + c 0 1 * G 0 1 + (c 1 0 * G 1 0 + c 1 1 * G 1 1)) ^ 2 ≤ hooke 2 m l G G := by
  unfold hooke
  simp only [Finset.sum_range_succ, Finset.sum_range_zero, zero_add]
  set s := (G 0 1 + G 1 0) / 2 with hs
  have e1 : (G 1 0 + G 0 1) / 2 = s := by rw [hs]; ring
  have e2 : c 0 0 * G 0 0 + c 0 1 * G 0 1 + (c 1 0 * G 1 0 + c 1 1 * G 1 1) =
      c 0 0 * G 0 0 + c 0 1 * s + (c 1 0 * s + c 1 1 * G 1 1) := by rw [hs, hc]; ring
  rw [e1, e2]
  have k1 : (c 0 0 * G 0 0 + c 0 1 * s + (c 1 0 * s + c 1 1 * G 1 1)) ^ 2 ≤
      (c 0 0 ^ 2 + c 0 1 ^ 2 + c 1 0 ^ 2 + c 1 1 ^ 2) * (G 0 0 ^ 2 + s ^ 2 + (s ^ 2 + G 1 1 ^ 2)) := by
    nlinarith [sq_nonneg (c 0 0 * s - c 0 1 * G 0 0), sq_nonneg (c 0 0 * s - c 1 0 * G 0 0),
      sq_nonneg (c 0 0 * G 1 1 - c 1 1 * G 0 0), sq_nonneg (c 0 1 * s - c 1 0 * s),
      sq_nonneg (c 0 1 * G 1 1 - c 1 1 * s), sq_nonneg (c 1 0 * G 1 1 - c 1 1 * s)]
  have k2 := mul_le_mul_of_nonneg_left k1 hp
  have k3 := mul_le_mul_of_nonneg_right h
    (by positivity : (0 : ℝ) ≤ G 0 0 ^ 2 + s ^ 2 + (s ^ 2 + G 1 1 ^ 2))
  have k4 : 0 ≤ l * ((G 0 0 + G 1 1) * (G 0 0 + G 1 1)) := mul_nonneg hl (mul_self_nonneg _)
  have e3 : (G 0 0 + G 0 0) / 2 = G 0 0 := by ring
  have e4 : (G 1 1 + G 1 1) / 2 = G 1 1 := by ring
  rw [e3, e4]
  nlinarith

/-- C116, how strong the coupling is on triangular meshes: it depends on the coefficients and the time
step, not on the mesh. If `|c|² ≤ 2 ρ μ`, where `c` are the coefficients of thermal expansion, `ρ` is the
density and `μ` the shear modulus, it is at most one in every time step. -/
theorem C116_coupling {N : ℕ} {elements : List (List ℕ)} {nodes : ℕ → ℕ → ℝ}
    (hve : ValidElements 2 N elements) (hnd : Nondegenerate2 elements nodes)
    (density mu lam theta zeta : ℝ) (hdensity : 0 < density) (hmu : 0 ≤ mu) (hlam : 0 ≤ lam)
    (htheta : 0 ≤ theta) (hzeta : 0 ≤ zeta) (c : ℕ → ℕ → ℝ) (hc : c 0 1 = c 1 0) (b : ThermalBody)
    (hn : b.n = 2 * N) (hN : b.N = N)
    (hmass : b.mass = Plane.acceleration N (basicMatrices2 elements nodes).U density)
    (hcap : b.capacity = Plane.acceleration N (basicMatrices2 elements nodes).U density)
    (hvis : b.viscosity = Plane.constitutive N (basicMatrices2 elements nodes).W theta zeta)
    (hel : b.elasticity = Plane.constitutive N (basicMatrices2 elements nodes).W mu lam)
    (hcon : Dissipates N b.conductivity)
    (hexp : b.expansion = Plane.thermalExpansion N (basicMatrices2 elements nodes).V c)
    (τ q : ℝ) (hτ : 0 < τ) (hq : 0 ≤ q)
    (hw : (c 0 0 ^ 2 + c 0 1 ^ 2 + c 1 0 ^ 2 + c 1 1 ^ 2) * τ ≤ q * (2 * density * (theta + τ * mu))) :
    b.Coupling τ q := by
  intro x y _ _
  obtain ⟨G, hG⟩ := exists_vectorGradient (N := N) (Plane.allLocal hnd) x
  set A : ℕ → ℝ := fun t => area (vertices nodes (elements.getD t [])) with hA
  have hA0 : ∀ t, 0 ≤ A t := fun t => by simp only [hA, area]; positivity
  set mean : ℕ → ℝ := fun t => (∑ i ∈ Finset.range 3, valuesOn (elements.getD t []) y i) / 3 with hmean
  set s : ℕ → ℝ := fun t => c 0 0 * G t 0 0 + c 0 1 * G t 0 1 + (c 1 0 * G t 1 0 + c 1 1 * G t 1 1) with hs
  have e1 : b.power y x = ∑ t ∈ Finset.range elements.length, A t * (mean t * s t) := by
    have := C28_expansion2 hve hnd c y x G hG
    unfold ThermalBody.power
    rw [hn, hN, hexp]
    refine Eq.trans ?_ (this.trans ?_)
    · unfold form act
      exact Finset.sum_congr rfl fun p _ => by
        rw [Finset.mul_sum]; exact Finset.sum_congr rfl fun r _ => by ring
    · unfold expansionPower sumElements
      refine Finset.sum_congr rfl fun t _ => ?_
      simp only [hA, hmean, hs, Finset.sum_range_succ, Finset.sum_range_zero, zero_add]
      norm_num
  have e2 : ∑ t ∈ Finset.range elements.length, A t * mean t ^ 2 ≤ quad N b.capacity y / density := by
    have hblock : ∀ r < N, ∀ s < N, b.capacity r s =
        density * (basicMatrices2 elements nodes).U r s := by
      intro r hr s hs'
      rw [hcap]
      simp only [Plane.acceleration, block, Nat.div_eq_of_lt hr, Nat.div_eq_of_lt hs',
        Nat.mod_eq_of_lt hr, Nat.mod_eq_of_lt hs']
    rw [quad_eq_form, form_congr y y hblock, form_mul, mul_div_cancel_left₀ _ hdensity.ne']
    have := form_mass hve (Plane.allLocal hnd) y y
    refine le_trans ?_ (le_of_eq this.symm)
    unfold sumElements
    refine Finset.sum_le_sum fun t _ => ?_
    have ht := hA0 t
    simp only [hmean]
    change A t * _ ≤ A t / _ * _
    simp only [Finset.sum_range_succ, Finset.sum_range_zero, zero_add]
    set p := valuesOn (elements.getD t []) y 0
    set p' := valuesOn (elements.getD t []) y 1
    set p'' := valuesOn (elements.getD t []) y 2
    rw [div_mul_eq_mul_div, mul_div_assoc]
    refine mul_le_mul_of_nonneg_left ?_ ht
    push_cast
    nlinarith [sq_nonneg (p - p'), sq_nonneg (p' - p''), sq_nonneg (p - p'')]
  have e3 : ∀ m l, quad (2 * N) (Plane.constitutive N (basicMatrices2 elements nodes).W m l) x =
      ∑ t ∈ Finset.range elements.length, A t * hooke 2 m l (G t) (G t) := by
    intro m l
    rw [quad_eq_form, C26_hooke hve hnd m l x x G G hG hG]
    rfl
  have e4 : b.power y x ^ 2 ≤ (∑ t ∈ Finset.range elements.length, A t * mean t ^ 2) *
      ∑ t ∈ Finset.range elements.length, A t * s t ^ 2 := by
    rw [e1]
    have := Finset.sum_mul_sq_le_sq_mul_sq (Finset.range elements.length)
      (fun t => Real.sqrt (A t) * mean t) fun t => Real.sqrt (A t) * s t
    have r : ∀ t, Real.sqrt (A t) * Real.sqrt (A t) = A t := fun t => Real.mul_self_sqrt (hA0 t)
    have f1 : ∀ t, Real.sqrt (A t) * mean t * (Real.sqrt (A t) * s t) = A t * (mean t * s t) := fun t => by
      rw [mul_mul_mul_comm, r t]
    have f2 : ∀ z t, (Real.sqrt (A t) * z) ^ 2 = A t * z ^ 2 := fun z t => by
      rw [mul_pow, Real.sq_sqrt (hA0 t)]
    simpa only [f1, f2] using this
  have hx0 : 0 ≤ quad (2 * N) b.mass x := by
    rw [hmass]
    exact (C71_operators2 hve hnd density mu lam theta zeta 0 hdensity.le hmu hlam htheta hzeta).1.nonneg x
  have hy0 : 0 ≤ quad N b.capacity y := by
    rw [hcap]
    exact (C71_operators2 hve hnd density mu lam theta zeta 0 hdensity.le hmu hlam htheta
      hzeta).2.2.2.1.nonneg y
  have e5 : τ / density * ∑ t ∈ Finset.range elements.length, A t * s t ^ 2 ≤ q * b.stepEnergy τ x := by
    have hpoint : ∀ t, τ / density * s t ^ 2 ≤
        q * (hooke 2 theta zeta (G t) (G t) + τ * hooke 2 mu lam (G t) (G t)) := by
      intro t
      have := tensor_square c hc (G t) (τ / density) (q * (theta + τ * mu)) (q * (zeta + τ * lam))
        (by positivity) (by
          rw [mul_div_assoc', div_le_iff₀ hdensity]
          refine hw.trans (le_of_eq (by ring))) (by positivity)
      refine this.trans (le_of_eq ?_)
      unfold hooke
      ring
    unfold ThermalBody.stepEnergy
    rw [hn, hvis, hel, e3, e3, Finset.mul_sum]
    have h1 : 0 ≤ q * (quad (2 * N) b.mass x / τ) := by positivity
    have h2 : ∑ t ∈ Finset.range elements.length, τ / density * (A t * s t ^ 2) ≤
        q * (∑ t ∈ Finset.range elements.length, A t * hooke 2 theta zeta (G t) (G t) +
          τ * ∑ t ∈ Finset.range elements.length, A t * hooke 2 mu lam (G t) (G t)) := by
      rw [Finset.mul_sum, ← Finset.sum_add_distrib, Finset.mul_sum]
      refine Finset.sum_le_sum fun t _ => ?_
      have := mul_le_mul_of_nonneg_left (hpoint t) (hA0 t)
      nlinarith
    linarith
  have h6 : 0 ≤ ∑ t ∈ Finset.range elements.length, A t * s t ^ 2 :=
    Finset.sum_nonneg fun t _ => mul_nonneg (hA0 t) (sq_nonneg _)
  have h7 : quad N b.capacity y / τ ≤ b.stepHeat τ y := by
    unfold ThermalBody.stepHeat
    rw [hN]
    exact le_add_of_nonneg_right (hcon.nonneg y)
  have h8 : 0 ≤ τ / density * ∑ t ∈ Finset.range elements.length, A t * s t ^ 2 := by positivity
  have h9 : 0 ≤ b.stepHeat τ y := le_trans (by positivity) h7
  calc b.power y x ^ 2 ≤ quad N b.capacity y / density *
        ∑ t ∈ Finset.range elements.length, A t * s t ^ 2 :=
        e4.trans (mul_le_mul_of_nonneg_right e2 h6)
    _ = quad N b.capacity y / τ * (τ / density *
        ∑ t ∈ Finset.range elements.length, A t * s t ^ 2) := by field_simp
    _ ≤ b.stepHeat τ y * (q * b.stepEnergy τ x) := mul_le_mul h7 e5 h8 h9
    _ = _ := by ring

/-- No heat is exchanged with the surroundings. -/
theorem smooth_nothing (n : ℕ) : SmoothContact n (fun _ => 0) (fun _ _ => 0) 0 :=
  ⟨fun v y => by simp, fun v w r hr => by simp⟩

/-- C116: thermoelastic bodies on triangular meshes, with contact given by a slope law and no exchange of
heat: runs with any time step follow the motion. -/
theorem C116_body {V : Type} (e : CoupledEngine ℝ) (D D' : ℕ → Prop) [DecidablePred D] [DecidablePred D']
    (he : Thermoelastic e D D') {elements : List (List ℕ)} {nodes : ℕ → ℕ → ℝ}
    (hve : ValidElements 2 e.first.ops.nodesCount elements) (hnd : Nondegenerate2 elements nodes)
    (hall : ∀ p < e.first.ops.nodesCount, ∃ t ∈ elements, p ∈ t)
    (density mu lam theta zeta : ℝ) (hdensity : 0 < density) (hmu : 0 ≤ mu) (hlam : 0 ≤ lam)
    (htheta : 0 ≤ theta) (hzeta : 0 ≤ zeta)
    (hacc : e.first.ops.acceleration =
      Plane.acceleration e.first.ops.nodesCount (basicMatrices2 elements nodes).U density)
    (hel : e.first.ops.elasticity =
      Plane.constitutive e.first.ops.nodesCount (basicMatrices2 elements nodes).W mu lam)
    (hvis : e.first.ops.viscosity =
      Plane.constitutive e.first.ops.nodesCount (basicMatrices2 elements nodes).W theta zeta)
    (κ : ℕ → ℕ → ℝ)
    (hκ : ∀ z : ℕ → ℝ, 0 ≤ ∑ k ∈ Finset.range 2, ∑ l ∈ Finset.range 2, κ k l * (z k * z l))
    (hcond : e.first.ops.thermalConductivity = Plane.conductivity (basicMatrices2 elements nodes).W κ)
    (slope : ℝ) (hslope : 0 ≤ slope) (d : ContactData ℝ) (hd2 : d.variableDimension = 2)
    (hed : ∀ s ∈ d.surfaces, s.edge ≠ [])
    (hn : ∀ s ∈ d.surfaces, ∀ node ∈ s.edge, node < e.first.ops.nodesCount)
    (hap : ContactApart e.first.ops.nodesCount D d) (data : SolverState ℝ → ContactData ℝ)
    (hdata : ∀ S, (data S).variableDimension = 2 ∧ (data S).nodes = d.nodes ∧
      (data S).surfaces = d.surfaces)
    (impl : SolverState ℝ → (ℕ → ℝ) → ℕ → ℝ)
    (hsolve : ∀ S guess, e.first.solve S guess =
      solverSolve (impl S) e.first.ops.nodesCount 2 e.first.boundaries guess)
    (hs : ∀ (S : SolverState ℝ) (guess : ℕ → ℝ) (var : Variables ℝ) (dt : ℝ), 0 < dt →
      var.timeStep = some dt →
      StatementKind.dynamicVelocityWithTemperature.update e.first.ops e.first.boundaries var =
        .ok S.system →
      Minimises (fun y => costFunctional Real.sqrt (frictionless (slopePotential slope)) (data S)
        (2 * e.first.ops.nodesCount) S.system.lhs S.system.rhs ⟨2 * e.first.ops.nodesCount, y⟩)
        (impl S guess))
    (hs' : ∀ (S : SolverState ℝ) (guess : ℕ → ℝ) (var : Variables ℝ) (dt : ℝ), 0 < dt →
      var.timeStep = some dt →
      StatementKind.temperature.update e.second.ops e.second.boundaries var = .ok S.system →
      Solves e.second.ops.nodesCount S.system (e.second.solve S guess))
    (fuel : ℕ) (T l : ℝ) (hT : 0 ≤ T) (hl : 0 ≤ l)
    (hf : ∀ s ∈ Set.Icc 0 T, ∀ t ∈ Set.Icc 0 T, ∀ r < 2 * e.first.ops.nodesCount,
      |e.first.ops.force s r - e.first.ops.force t r| ≤ l * |s - t|)
    (u₀ v₀ : ℕ → ℕ → ℝ) (θ₀ : ℕ → ℝ)
    (hv₀ : Still (2 * e.first.ops.nodesCount) D (State.flatten e.first.grid v₀))
    (hθ₀ : Still e.first.ops.nodesCount D' θ₀) :
    let b := thermalBody e D D' (fun y => contactCostFunctional Real.sqrt
      (frictionless (slopePotential slope)) d ⟨2 * e.first.ops.nodesCount, y⟩) fun _ => 0
    ∃ (u v acc θ η : ℝ → ℕ → ℝ) (C : ℝ), b.Motion e.first.ops.force T u v acc θ η ∧
      (∀ r < 2 * e.first.ops.nodesCount,
        u 0 r = State.flatten e.first.grid u₀ r ∧ v 0 r = State.flatten e.first.grid v₀ r) ∧
      (∀ p < e.first.ops.nodesCount, θ 0 p = θ₀ p) ∧
      ∀ (a : Engine.Arguments ℝ) (first second : SolverState ℝ) (store : ProductStore ℝ V)
        (rs : List (State ℝ)) (r : CoupledEngine.Run ℝ V),
        a.initialDisplacement = u₀ → a.initialVelocity = v₀ → first.currentTime = 0 →
        0 < first.timeStep → second.timeStep = first.timeStep →
        e.solve fuel a θ₀ first second store = .ok (rs, r) →
        ∀ s ∈ rs, s.time ≤ T → ∃ ϑ, s.scalar = .temperature ϑ ∧
          b.distance (State.flatten e.first.grid s.displacement) (State.flatten e.first.grid s.velocity) ϑ
            (u s.time) (v s.time) (θ s.time) ≤ s.time * first.timeStep * C := by
  intro b
  obtain ⟨o1, o2, o3, o4, -⟩ := C71_operators2 hve hnd density mu lam theta zeta 0 hdensity.le hmu hlam
    htheta hzeta
  rw [← hacc] at o1 o4
  rw [← hel] at o2
  rw [← hvis] at o3
  have hdef : DefiniteOn (2 * e.first.ops.nodesCount) D e.first.ops.acceleration := by
    rw [hacc]; exact (C74_mass2 hve hnd density hdensity hall D).1
  have hdef' : DefiniteOn e.first.ops.nodesCount D' e.first.ops.acceleration := by
    rw [hacc]; exact (C74_mass2 hve hnd density hdensity hall D').2
  have hAs : ∀ r < 2 * e.first.ops.nodesCount, ∀ s < 2 * e.first.ops.nodesCount,
      e.first.ops.viscosity r s = e.first.ops.viscosity s r := by
    rw [hvis]; exact C26_symmetric hve hnd theta zeta
  have hcon : Dissipates e.first.ops.nodesCount e.first.ops.thermalConductivity := by
    rw [hcond]
    exact ⟨fun x => by rw [quad_eq_form]; exact (C28_conduction2 hve hnd κ).2.2.1 hκ x⟩
  obtain ⟨k, hk0, hg⟩ := C105_slope slope hslope d (by omega) e.first.ops.nodesCount hed hn
  rw [hd2] at hg
  have hb : b.Sound := ⟨o1, hdef, o3, o2, o4, hdef', hcon, ⟨_, k, hk0, hg⟩, ⟨_, 0, le_rfl, smooth_nothing _⟩⟩
  have hcs : ∀ dt, 0 < dt → ContactSolve e.first (2 * e.first.ops.nodesCount) D dt b.contact := by
    intro dt hdt
    have := C105_law e.first D d (by omega) (by rw [hd2, he.first]; rfl) he.boundaries
      (by rw [hd2]; exact he.supports) dt (by
        rw [hd2, he.first]
        exact fun var lhs hvar h => dynamic_lhs e.first.ops var lhs dt hdt hvar h o1 hdef o3 hAs o2 |>.1)
      (slopePotential slope) (fun _ _ _ _ _ => rfl) (fun b c => C47_convex slope b c hslope) hn hap data
      (by rw [hd2]; exact hdata) impl (by rw [hd2]; exact hsolve) (by
        rw [hd2, he.first]
        exact fun S guess var hvar h => hs S guess var dt hdt hvar h)
    rw [hd2] at this
    exact this
  have hcs' : ∀ dt, 0 < dt → ContactSolve e.second e.first.ops.nodesCount D' dt b.exchange := by
    intro dt hdt
    have := C105_exact e.second D' 1 (by rw [he.second]; rfl) (by rw [he.ops]; exact he.boundaries')
      (by rw [he.ops]; exact he.kept) dt (by
        rw [he.second, Nat.one_mul]
        exact fun S guess var hvar h => hs' S guess var dt hdt hvar h)
    rw [Nat.one_mul, he.ops] at this
    exact this
  exact C116_converges (V := V) e D D' he _ _ hb fuel T l hT hl hf hcs hcs' u₀ v₀ θ₀ hv₀ hθ₀

/-- C116: solvers as required above exist: there are minimisers in every time step, and the systems of the
heat equation have solutions. -/
theorem C116_solver (ops : Operators ℝ)
    {elements : List (List ℕ)} {nodes : ℕ → ℕ → ℝ} (hve : ValidElements 2 ops.nodesCount elements)
    (hnd : Nondegenerate2 elements nodes) (hall : ∀ p < ops.nodesCount, ∃ t ∈ elements, p ∈ t)
    (density mu lam theta zeta : ℝ) (hdensity : 0 < density) (hmu : 0 ≤ mu) (hlam : 0 ≤ lam)
    (htheta : 0 ≤ theta) (hzeta : 0 ≤ zeta)
    (hacc : ops.acceleration = Plane.acceleration ops.nodesCount (basicMatrices2 elements nodes).U density)
    (hel : ops.elasticity = Plane.constitutive ops.nodesCount (basicMatrices2 elements nodes).W mu lam)
    (hvis : ops.viscosity = Plane.constitutive ops.nodesCount (basicMatrices2 elements nodes).W theta zeta)
    (κ : ℕ → ℕ → ℝ)
    (hκ : ∀ z : ℕ → ℝ, 0 ≤ ∑ k ∈ Finset.range 2, ∑ l ∈ Finset.range 2, κ k l * (z k * z l))
    (hcond : ops.thermalConductivity = Plane.conductivity (basicMatrices2 elements nodes).W κ)
    (bs bs' : List (CondBoundary ℝ)) (D D' : ℕ → Prop) [DecidablePred D] [DecidablePred D']
    (hv : ValidBoundaries ops.nodesCount bs) (hd : DirichletData ops.nodesCount 2 bs D fun _ => 0)
    (hv' : ValidBoundaries ops.nodesCount bs') (hd' : DirichletData ops.nodesCount 1 bs' D' fun _ => 0)
    (slope : ℝ) (hslope : 0 ≤ slope) (data : SolverState ℝ → ContactData ℝ)
    (hdata : ∀ S, (data S).variableDimension = 2) :
    (∃ impl : SolverState ℝ → (ℕ → ℝ) → ℕ → ℝ, ∀ (S : SolverState ℝ) (guess : ℕ → ℝ) (var : Variables ℝ)
      (dt : ℝ), 0 < dt → var.timeStep = some dt →
      StatementKind.dynamicVelocityWithTemperature.update ops bs var = .ok S.system →
      Minimises (fun y => costFunctional Real.sqrt (frictionless (slopePotential slope)) (data S)
        (2 * ops.nodesCount) S.system.lhs S.system.rhs ⟨2 * ops.nodesCount, y⟩) (impl S guess)) ∧
    ∃ solve : SolverState ℝ → (ℕ → ℝ) → ℕ → ℝ, ∀ (S : SolverState ℝ) (guess : ℕ → ℝ) (var : Variables ℝ)
      (dt : ℝ), 0 < dt → var.timeStep = some dt →
      StatementKind.temperature.update ops bs' var = .ok S.system →
      Solves ops.nodesCount S.system (solve S guess) := by
  classical
  obtain ⟨o1, o2, o3, o4, -⟩ := C71_operators2 hve hnd density mu lam theta zeta 0 hdensity.le hmu hlam
    htheta hzeta
  rw [← hacc] at o1 o4
  rw [← hel] at o2
  rw [← hvis] at o3
  have hdef : DefiniteOn (2 * ops.nodesCount) D ops.acceleration := by
    rw [hacc]; exact (C74_mass2 hve hnd density hdensity hall D).1
  have hdef' : DefiniteOn ops.nodesCount D' ops.acceleration := by
    rw [hacc]; exact (C74_mass2 hve hnd density hdensity hall D').2
  have hAs : ∀ r < 2 * ops.nodesCount, ∀ s < 2 * ops.nodesCount,
      ops.viscosity r s = ops.viscosity s r := by
    rw [hvis]; exact C26_symmetric hve hnd theta zeta
  have hcon : Dissipates ops.nodesCount ops.thermalConductivity := by
    rw [hcond]
    exact ⟨fun x => by rw [quad_eq_form]; exact (C28_conduction2 hve hnd κ).2.2.1 hκ x⟩
  constructor
  · refine ⟨fun S _ => if h : ∃ x, Minimises (fun y => costFunctional Real.sqrt
        (frictionless (slopePotential slope)) (data S) (2 * ops.nodesCount) S.system.lhs S.system.rhs
        ⟨2 * ops.nodesCount, y⟩) x then h.choose else fun _ => 0, fun S guess var dt hdt hvar hu => ?_⟩
    have hex : ∃ x, Minimises (fun y => costFunctional Real.sqrt
        (frictionless (slopePotential slope)) (data S) (2 * ops.nodesCount) S.system.lhs S.system.rhs
        ⟨2 * ops.nodesCount, y⟩) x := by
      obtain ⟨lhs, rhs, h2, -, h3⟩ := update_eliminated _ _ _ _ _ hu
      have h3 : S.system = applyDirichlet ops.nodesCount 2 bs ⟨lhs, rhs⟩ := h3
      obtain ⟨x, hx, -⟩ := C89_unique_minimiser (frictionless (slopePotential slope)) (data S)
        (by rw [hdata]; norm_num) (fun s _ sn st =>
          C48_density_convex _ _ _ _ _ _ (C47_convex slope sn _ hslope)) (2 * ops.nodesCount) S.system
        (by
          rw [h3]
          exact C13_positive ops.nodesCount 2 bs ⟨lhs, rhs⟩ D (fun _ => 0) hv hd
            (dynamic_lhs ops var lhs dt hdt hvar h2 o1 hdef o3 hAs o2).2)
      exact ⟨x, hx⟩
    beta_reduce
    rw [dif_pos hex]
    exact hex.choose_spec
  · refine ⟨fun S _ => if h : ∃ x, Solves ops.nodesCount S.system x then h.choose else fun _ => 0,
      fun S guess var dt hdt hvar hu => ?_⟩
    obtain ⟨lhs, rhs, h2, -, h3⟩ := update_eliminated _ _ _ _ _ hu
    have h3 : S.system = applyDirichlet ops.nodesCount 1 bs' ⟨lhs, rhs⟩ := h3
    obtain rfl : (fun r s => 1 / dt * ops.acceleration r s + ops.thermalConductivity r s) = lhs := by
      simpa [updateLhs, hvar, required, bind, Except.bind, pure, Except.pure] using h2
    have hdl : DefiniteOn (1 * ops.nodesCount) D' fun r s =>
        1 / dt * ops.acceleration r s + ops.thermalConductivity r s := by
      rw [Nat.one_mul]
      intro x hx h0
      have e1 : quad ops.nodesCount (fun r s => 1 / dt * ops.acceleration r s +
          ops.thermalConductivity r s) x = 1 / dt * quad ops.nodesCount ops.acceleration x +
          quad ops.nodesCount ops.thermalConductivity x := by
        simp only [quad_eq_act, act, Finset.mul_sum, ← Finset.sum_add_distrib]
        exact Finset.sum_congr rfl fun r _ => Finset.sum_congr rfl fun s _ => by ring
      rw [e1] at h0
      have q1 := mul_nonneg (by positivity : (0 : ℝ) ≤ 1 / dt) (o4.nonneg x)
      have q2 := hcon.nonneg x
      have q3 : 1 / dt * quad ops.nodesCount ops.acceleration x = 0 := by linarith
      exact hdef' x hx ((mul_eq_zero.1 q3).resolve_left (by positivity))
    obtain ⟨x, hx, -⟩ := C74_definite ops.nodesCount 1 bs' ⟨_, rhs⟩ D' (fun _ => 0) hv' hd' hdl
    rw [Nat.one_mul, ← h3] at hx
    have hex : ∃ x, Solves ops.nodesCount S.system x := ⟨x, hx⟩
    beta_reduce
    rw [dif_pos hex]
    exact hex.choose_spec

/-! ### The hanging triangle, heated -/

/-- The triangle hanging from its corner of C105 with the thermal coefficients of
`examples/example_temperature_dynamic.py`. -/
noncomputable def heatedOps : Operators ℝ :=
  { hangingOps with
    thermalExpansion := Plane.thermalExpansion 3 (basicMatrices2 [[0, 1, 2]] hangingNodes).V
      fun k l => if k = l then 1 / 2 else 0
    thermalConductivity := Plane.conductivity (basicMatrices2 [[0, 1, 2]] hangingNodes).W
      fun k l => if k = l then 1 / 10 else 0 }

/-- All hypotheses of `C116_body` are met by the heated triangle: its runs converge to the motion as the time
steps get small. -/
example {V : Type} (store : ProductStore ℝ V) (solver : SolverState ℝ) (h0 : solver.currentTime = 0) :
    ∃ e : CoupledEngine ℝ, e.first.ops = heatedOps ∧
    Thermoelastic e (fun r => r < 2 * 3 ∧ r % 3 = 2) (fun _ => False) ∧
    ∃ (u v acc θ η : ℝ → ℕ → ℝ) (C : ℝ),
      (thermalBody e (fun r => r < 2 * 3 ∧ r % 3 = 2) (fun _ => False) (fun y => contactCostFunctional
        Real.sqrt (frictionless (slopePotential 10)) hangingContact ⟨6, y⟩) fun _ => 0).Motion
        heatedOps.force 1 u v acc θ η ∧ (∀ p < 3, θ 0 p = 1 / 4) ∧
      ∀ (dt : ℝ) (a : Engine.Arguments ℝ), 0 < dt → a.initialDisplacement = (fun _ _ => 0) →
        a.initialVelocity = (fun _ _ => 0) →
        ∃ (rs : List (State ℝ)) (r : CoupledEngine.Run ℝ V),
          e.solve 11 a (fun _ => 1 / 4) { solver with timeStep := dt } { solver with timeStep := dt } store =
            .ok (rs, r) ∧
          ∀ s ∈ rs, s.time ≤ 1 → ∃ ϑ, s.scalar = .temperature ϑ ∧
            (thermalBody e (fun r => r < 2 * 3 ∧ r % 3 = 2) (fun _ => False) (fun y =>
              contactCostFunctional Real.sqrt (frictionless (slopePotential 10)) hangingContact ⟨6, y⟩)
              fun _ => 0).distance (State.flatten e.first.grid s.displacement)
              (State.flatten e.first.grid s.velocity) ϑ (u s.time) (v s.time) (θ s.time) ≤
                s.time * dt * C := by
  have hall : ∀ p < heatedOps.nodesCount, ∃ t ∈ [[0, 1, 2]], p ∈ t := by
    simp only [heatedOps, hangingOps]; decide
  have hnone : ValidBoundaries 3 ([] : List (CondBoundary ℝ)) ∧
      DirichletData 3 1 ([] : List (CondBoundary ℝ)) (fun _ => False) fun _ => 0 := by
    refine ⟨fun b hb => by simp at hb, ⟨fun x => ⟨fun h => h.elim, ?_⟩, ?_⟩⟩
    · rintro ⟨v, b, hb, -⟩; simp at hb
    · rintro x v ⟨b, hb, -⟩; simp at hb
  have hκ : ∀ z : ℕ → ℝ, 0 ≤ ∑ k ∈ Finset.range 2, ∑ l ∈ Finset.range 2,
      (fun k l => if k = l then (1 : ℝ) / 10 else 0) k l * (z k * z l) := by
    intro z
    simp [Finset.sum_range_succ]
    nlinarith [mul_self_nonneg (z 0), mul_self_nonneg (z 1)]
  obtain ⟨⟨impl, himpl⟩, solve, hsolve⟩ := C116_solver heatedOps hanging_mesh.1 hanging_mesh.2 hall 1 4 5 2 3
    (by norm_num) (by norm_num) (by norm_num) (by norm_num) (by norm_num) rfl rfl rfl _ hκ rfl
    hangingBoundaries [] _ _ hanging_boundaries.1 hanging_boundaries.2 hnone.1 hnone.2 10 (by norm_num)
    (fun _ => hangingContact) (fun _ => rfl)
  let e : CoupledEngine ℝ :=
    { first := { grid := ⟨3, 2, hangingNodes⟩, cls := .dynamicSchur, kind := .dynamicVelocityWithTemperature
                 ops := heatedOps, boundaries := hangingBoundaries
                 solve := fun S guess => solverSolve (impl S) 3 2 hangingBoundaries guess }
      second := { grid := ⟨3, 2, hangingNodes⟩, cls := .dynamicSchur, kind := .temperature
                  ops := heatedOps, boundaries := [], solve := solve }
      stateKind := .temperature, exceeds := fun _ _ _ _ => true }
  have he : Thermoelastic e (fun r => r < 2 * 3 ∧ r % 3 = 2) (fun _ => False) :=
    ⟨rfl, rfl, rfl, rfl, rfl, hanging_boundaries.1, hanging_boundaries.2, hnone.1, hnone.2⟩
  obtain ⟨u, v, acc, θ, η, C, hm, -, hθ, hC⟩ := C116_body (V := V) e _ _ he hanging_mesh.1 hanging_mesh.2 hall
    1 4 5 2 3 (by norm_num) (by norm_num) (by norm_num) (by norm_num) (by norm_num) rfl rfl rfl
    (fun k l => if k = l then 1 / 10 else 0) hκ rfl
    10 (by norm_num)
    hangingContact rfl (by simp [hangingContact, segmentData])
    (by
      intro s hs node hn
      simp only [hangingContact, segmentData, List.mem_singleton] at hs
      subst hs
      change node < 3
      rcases List.mem_pair.1 hn with h | h <;> omega)
    (by
      intro s hs node hn i hi
      simp only [hangingContact, segmentData, List.mem_singleton] at hs
      subst hs
      change ¬ (i * 3 + node < 2 * 3 ∧ (i * 3 + node) % 3 = 2)
      rcases List.mem_pair.1 hn with h | h <;> omega)
    (fun _ => hangingContact) (fun _ => ⟨rfl, rfl, rfl⟩) impl (fun _ _ => rfl) himpl hsolve 11 1 6
    (by norm_num) (by norm_num)
    (by
      intro s _ t _ r hr
      have hr' : (r : ℝ) + 1 ≤ 6 := by
        have : r < 6 := hr
        have : r + 1 ≤ 6 := this
        exact_mod_cast this
      change |s * ((r : ℝ) + 1) - t * (r + 1)| ≤ 6 * |s - t|
      rw [← sub_mul, abs_mul, abs_of_nonneg (by positivity : (0 : ℝ) ≤ r + 1), mul_comm]
      exact mul_le_mul_of_nonneg_right hr' (abs_nonneg _))
    (fun _ _ => 0) (fun _ _ => 0) (fun _ => 1 / 4) (fun _ _ _ => rfl) (fun _ _ h => h.elim)
  refine ⟨e, rfl, he, u, v, acc, θ, η, C, hm, hθ, fun dt a hdt h1 h2 => ?_⟩
  obtain ⟨rs, r, h⟩ := C116_runs e rfl rfl (Or.inr rfl) (Or.inr rfl) 11 le_rfl a (fun _ => 1 / 4)
    { solver with timeStep := dt } { solver with timeStep := dt } store
  exact ⟨rs, r, h, hC a { solver with timeStep := dt } { solver with timeStep := dt } store rs r h1 h2 h0 hdt rfl h⟩

end Conmech
