import Verif.Lemmas.Modes
import Verif.Props.SpaceWaves
import Mathlib.Analysis.SpecialFunctions.Complex.Arg
import Mathlib.Analysis.SpecialFunctions.Complex.Arctan
import Mathlib.Analysis.SpecialFunctions.Trigonometric.Bounds
/-!
C121: every mode of a body oscillates for itself, and loses a known share of its energy in each step.
-/
namespace Conmech
open Spec

section
variable {K : Type} [Field K] [LinearOrder K] [IsStrictOrderedRing K]
variable {n : ℕ} {D : ℕ → Prop} {M A B : ℕ → ℕ → K}

theorem act_superposed (Q : ℕ → ℕ → K) (m : ℕ) (φ : ℕ → ℕ → K) (c : ℕ → K) (r : ℕ) :
    act n Q (superposed m φ c) r = ∑ i ∈ Finset.range m, c i * act n Q (φ i) r := by
  simp only [act, superposed, Finset.mul_sum]
  rw [Finset.sum_comm]
  exact Finset.sum_congr rfl fun i _ => Finset.sum_congr rfl fun s _ => by ring

theorem act_linear (Q : ℕ → ℕ → K) (x y : ℕ → K) (a b : K) (r : ℕ) :
    act n Q (fun i => a * x i + b * y i) r = a * act n Q x r + b * act n Q y r := by
  simp only [act, Finset.mul_sum, ← Finset.sum_add_distrib]
  exact Finset.sum_congr rfl fun s _ => by ring

theorem act_on {Q : ℕ → ℕ → K} {x y : ℕ → K} (h : ∀ r < n, x r = y r) (r : ℕ) : act n Q x r = act n Q y r :=
  Finset.sum_congr rfl fun s hs => by rw [h s (Finset.mem_range.1 hs)]

theorem quad_on {Q : ℕ → ℕ → K} {x y : ℕ → K} (h : ∀ r < n, x r = y r) : quad n Q x = quad n Q y :=
  Finset.sum_congr rfl fun r hr => by
    rw [h r (Finset.mem_range.1 hr)]
    congr 1
    exact Finset.sum_congr rfl fun s hs => by rw [h s (Finset.mem_range.1 hs)]

/-- The velocities after one step are those of the oscillators. -/
theorem modes_step (hM : StoresEnergy n M) (hMd : DefiniteOn n D M) (hA : Dissipates n A) (hB : StoresEnergy n B)
    {m : ℕ} {κ γ : ℕ → K} {φ : ℕ → ℕ → K} (hκ : ∀ i < m, 0 ≤ κ i) (hγ : ∀ i < m, 0 ≤ γ i)
    (hφ : ∀ i < m, ModeOf n D M A B (κ i) (γ i) (φ i)) {dt : K} (hdt : 0 < dt) {f r₀ u v w : ℕ → K}
    (h₀ : ∀ r < n, ¬ D r → act n B r₀ r = f r) (x : ℕ → K × K)
    (hu : ∀ r < n, u r = r₀ r + superposed m φ (fun i => (x i).1) r)
    (hv : ∀ r < n, v r = superposed m φ (fun i => (x i).2) r) (hw : ∀ r < n, D r → w r = 0)
    (h : ∀ r < n, ¬ D r → act n M (fun i => (w i - v i) / dt) r + act n A w r +
      act n B (fun i => u i + dt * w i) r = f r) :
    ∀ r < n, w r = superposed m φ (fun i => (oscillatorStep (κ i) (γ i) dt (x i)).2) r := by
  set p : ℕ → K := fun i => (oscillatorStep (κ i) (γ i) dt (x i)).2 with hp
  set y : ℕ → K := fun r => w r - superposed m φ p r with hy
  have hyD : ∀ r < n, D r → y r = 0 := by
    intro r hr hD
    have : superposed m φ p r = 0 := Finset.sum_eq_zero fun i hi => by
      rw [(hφ i (Finset.mem_range.1 hi)).still r hr hD, mul_zero]
    simp only [hy, hw r hr hD, this, sub_zero]
  have lin : ∀ (Q : ℕ → ℕ → K) r, act n Q y r = act n Q w r - act n Q (superposed m φ p) r := by
    intro Q r
    have := act_linear (n := n) Q w (superposed m φ p) 1 (-1) r
    rw [← act_on (x := y) fun i _ => by simp only [hy]; ring] at this
    rw [this]; ring
  have rows : ∀ r < n, ¬ D r → act n M y r / dt + act n A y r + dt * act n B y r = 0 := by
    intro r hr hD
    have e1 : act n M (fun i => (w i - v i) / dt) r =
        (act n M w r - act n M (superposed m φ fun i => (x i).2) r) / dt := by
      rw [act_on (y := fun i => (1 / dt) * w i + (-1 / dt) * superposed m φ (fun i => (x i).2) i)
        fun i hi => by rw [hv i hi]; ring, act_linear]
      ring
    have e2 : act n B (fun i => u i + dt * w i) r =
        act n B r₀ r + act n B (superposed m φ fun i => (x i).1) r + dt * act n B w r := by
      rw [act_on (y := fun i => 1 * (1 * r₀ i + 1 * superposed m φ (fun i => (x i).1) i) + dt * w i)
        fun i hi => by rw [hu i hi]; ring, act_linear, act_linear]
      ring
    have h1 := h r hr hD
    rw [e1, e2, h₀ r hr hD] at h1
    rw [lin M, lin A, lin B]
    have e3 : (act n M (superposed m φ p) r - act n M (superposed m φ fun i => (x i).2) r) / dt +
        act n A (superposed m φ p) r +
        (act n B (superposed m φ fun i => (x i).1) r + dt * act n B (superposed m φ p) r) = 0 := by
      simp only [act_superposed]
      rw [← Finset.sum_sub_distrib, Finset.sum_div, Finset.mul_sum, ← Finset.sum_add_distrib,
        ← Finset.sum_add_distrib, ← Finset.sum_add_distrib]
      refine Finset.sum_eq_zero fun i hi => ?_
      have hi := Finset.mem_range.1 hi
      rw [(hφ i hi).elastic r hr hD, (hφ i hi).viscous r hr hD]
      have hpos : 1 + γ i * dt + κ i * dt ^ 2 ≠ 0 := by
        have h2 := mul_nonneg (hγ i hi) hdt.le
        have h3 := mul_nonneg (hκ i hi) (sq_nonneg dt)
        exact (by linarith : 0 < 1 + γ i * dt + κ i * dt ^ 2).ne'
      have hp' : p i * (1 + γ i * dt + κ i * dt ^ 2) = (x i).2 - dt * κ i * (x i).1 :=
        div_mul_cancel₀ _ hpos
      have e4 : (p i - (x i).2) / dt + p i * γ i + ((x i).1 * κ i + dt * (p i * κ i)) = 0 := by
        field_simp
        linear_combination hp'
      linear_combination act n M (φ i) r * e4
    linear_combination h1 - e3
  have e5 : quad n M y / dt + quad n A y + dt * quad n B y = 0 := by
    have hq : ∀ Q : ℕ → ℕ → K, quad n Q y = ∑ r ∈ Finset.range n, y r * act n Q y r := fun Q => by
      unfold quad act
      exact Finset.sum_congr rfl fun r _ => by
        rw [Finset.mul_sum]
        try exact Finset.sum_congr rfl fun s _ => by ring
    rw [hq M, hq A, hq B, Finset.sum_div, Finset.mul_sum, ← Finset.sum_add_distrib, ← Finset.sum_add_distrib]
    refine Finset.sum_eq_zero fun r hr => ?_
    have hr := Finset.mem_range.1 hr
    by_cases hD : D r
    · rw [hyD r hr hD]; ring
    · linear_combination y r * rows r hr hD
  have e6 : quad n M y = 0 := by
    have h1 := div_nonneg (hM.nonneg y) hdt.le
    have h2 := hA.nonneg y
    have h3 := mul_nonneg hdt.le (hB.nonneg y)
    have h4 : quad n M y / dt = 0 := by linarith
    rcases div_eq_zero_iff.1 h4 with h5 | h5
    · exact h5
    · exact absurd h5 hdt.ne'
  intro r hr
  exact sub_eq_zero.1 (hMd y hyD e6 r hr)

/-- What becomes of the amplitudes from one state to a later one. -/
def Oscillates (n m : ℕ) (κ γ : ℕ → K) (φ : ℕ → ℕ → K) (r₀ : ℕ → K) (dt : K) (e : Engine K)
    (s s' : Snapshot K) : Prop :=
  ∃ j : ℕ, s'.time = s.time + j * dt ∧ ∀ x : ℕ → K × K,
    (∀ r < n, State.flatten e.grid s.displacement r = r₀ r + superposed m φ (fun i => (x i).1) r) →
    (∀ r < n, State.flatten e.grid s.velocity r = superposed m φ (fun i => (x i).2) r) →
    (∀ r < n, State.flatten e.grid s'.displacement r =
      r₀ r + superposed m φ (fun i => ((oscillatorStep (κ i) (γ i) dt)^[j] (x i)).1) r) ∧
    ∀ r < n, State.flatten e.grid s'.velocity r =
      superposed m φ (fun i => ((oscillatorStep (κ i) (γ i) dt)^[j] (x i)).2) r

theorem oscillates_refl (m : ℕ) (κ γ : ℕ → K) (φ : ℕ → ℕ → K) (r₀ : ℕ → K) (dt : K) (e : Engine K)
    (s : Snapshot K) : Oscillates n m κ γ φ r₀ dt e s s := ⟨0, by simp, fun _ h1 h2 => ⟨h1, h2⟩⟩

theorem oscillates_trans (m : ℕ) (κ γ : ℕ → K) (φ : ℕ → ℕ → K) (r₀ : ℕ → K) (dt : K) (e : Engine K)
    (a b c : Snapshot K) (h : Oscillates n m κ γ φ r₀ dt e a b) (h' : Oscillates n m κ γ φ r₀ dt e b c) :
    Oscillates n m κ γ φ r₀ dt e a c := by
  obtain ⟨j, t1, h1⟩ := h
  obtain ⟨j', t2, h2⟩ := h'
  refine ⟨j' + j, by rw [t2, t1]; push_cast; ring, fun x hu hv => ?_⟩
  obtain ⟨h3, h4⟩ := h1 x hu hv
  have := h2 _ h3 h4
  simpa only [← Function.iterate_add_apply] using this

/-- One step carries the amplitudes on. -/
theorem oscillates_step {V : Type} (hM : StoresEnergy n M) (hMd : DefiniteOn n D M) (hA : Dissipates n A)
    (hB : StoresEnergy n B) {m : ℕ} {κ γ : ℕ → K} {φ : ℕ → ℕ → K} (hκ : ∀ i < m, 0 ≤ κ i)
    (hγ : ∀ i < m, 0 ≤ γ i) (hφ : ∀ i < m, ModeOf n D M A B (κ i) (γ i) (φ i)) {dt : K} (hdt : 0 < dt)
    {f r₀ : ℕ → K} (h₀ : ∀ r < n, ¬ D r → act n B r₀ r = f r) (e : Engine K) (sim sim' : Simulation K V)
    (ht : sim'.state.time = sim.state.time + dt)
    (hd : ∀ i j, sim'.state.displacement i j = sim.state.displacement i j + dt * sim'.state.velocity i j)
    (hw : ∀ r < n, D r → State.flatten e.grid sim'.state.velocity r = 0)
    (h : ∀ r < n, ¬ D r → act n M (fun i => (State.flatten e.grid sim'.state.velocity i -
        State.flatten e.grid sim.state.velocity i) / dt) r +
      act n A (State.flatten e.grid sim'.state.velocity) r +
      act n B (fun i => State.flatten e.grid sim.state.displacement i +
        dt * State.flatten e.grid sim'.state.velocity i) r = f r) :
    Oscillates n m κ γ φ r₀ dt e sim.state.toSnapshot sim'.state.toSnapshot := by
  refine ⟨1, by simpa using ht, fun x hu hv => ?_⟩
  have h1 := modes_step hM hMd hA hB hκ hγ hφ hdt h₀ x hu hv hw h
  refine ⟨fun r hr => ?_, h1⟩
  have h2 : State.flatten e.grid sim'.state.displacement r =
      State.flatten e.grid sim.state.displacement r + dt * State.flatten e.grid sim'.state.velocity r :=
    hd _ _
  change State.flatten e.grid sim'.state.displacement r = _
  change ∀ r < n, State.flatten e.grid sim.state.displacement r = _ at hu
  rw [h2, hu r hr, h1 r hr, add_assoc]
  congr 1
  unfold superposed
  rw [Finset.mul_sum, ← Finset.sum_add_distrib]
  exact Finset.sum_congr rfl fun i _ => by
    simp only [Function.iterate_one, oscillatorStep]
    ring

end

section
variable {K : Type} [Field K] [LinearOrder K] [IsStrictOrderedRing K] {V : Type}

/-- C121, dynamic elasticity: when the displacement is a sum of shapes in which the body oscillates, added to a
displacement that balances the loads, and the velocity is a sum of the same shapes, then so it is in every returned
state. The amplitudes of every shape are those of its own oscillator. -/
theorem C121_dynamic {c : ProblemClass} (e : Engine K) (hk : e.kind = .dynamicVelocity)
    (hr : Registered c e.cls e.kind) (hne : e.cls ≠ .direct) {d : ℕ} (hdim : e.ops.dimension = d)
    (D : ℕ → Prop) [DecidablePred D] (hv : ValidBoundaries e.ops.nodesCount e.boundaries)
    (hd : DirichletData e.ops.nodesCount 2 e.boundaries D fun _ => 0)
    (hM : StoresEnergy (d * e.ops.nodesCount) e.ops.acceleration)
    (hMd : DefiniteOn (d * e.ops.nodesCount) D e.ops.acceleration)
    (hA : Dissipates (d * e.ops.nodesCount) e.ops.viscosity)
    (hB : StoresEnergy (d * e.ops.nodesCount) e.ops.elasticity) (f r₀ : ℕ → K) (hf : ∀ t, e.ops.force t = f)
    (h₀ : ∀ r < d * e.ops.nodesCount, ¬ D r → act (d * e.ops.nodesCount) e.ops.elasticity r₀ r = f r)
    (m : ℕ) (κ γ : ℕ → K) (φ : ℕ → ℕ → K) (hκ : ∀ i < m, 0 ≤ κ i) (hγ : ∀ i < m, 0 ≤ γ i)
    (hφ : ∀ i < m, ModeOf (d * e.ops.nodesCount) D e.ops.acceleration e.ops.viscosity e.ops.elasticity
      (κ i) (γ i) (φ i))
    (a : Engine.Arguments K) (solver : SolverState K) (hdt : 0 < solver.timeStep)
    (hc : solver.currentTime = 0) (hs : ExactSolve e (d * e.ops.nodesCount) solver.timeStep) (x : ℕ → K × K)
    (hu : ∀ r < d * e.ops.nodesCount, State.flatten e.grid a.initialDisplacement r =
      r₀ r + superposed m φ (fun i => (x i).1) r)
    (hv₀ : ∀ r < d * e.ops.nodesCount, State.flatten e.grid a.initialVelocity r =
      superposed m φ (fun i => (x i).2) r)
    (store : ProductStore K V) (rs : List (State K)) (sim : Simulation K V)
    (h : e.timeDependentSolve a solver store = .ok (rs, sim)) (s : State K) (hmem : s ∈ rs) :
    ∃ j : ℕ, s.time = j * solver.timeStep ∧
      (∀ r < d * e.ops.nodesCount, State.flatten e.grid s.displacement r = r₀ r +
        superposed m φ (fun i => ((oscillatorStep (κ i) (γ i) solver.timeStep)^[j] (x i)).1) r) ∧
      ∀ r < d * e.ops.nodesCount, State.flatten e.grid s.velocity r =
        superposed m φ (fun i => ((oscillatorStep (κ i) (γ i) solver.timeStep)^[j] (x i)).2) r := by
  have := timeDependent_relation e a solver store hc
    (Oscillates (d * e.ops.nodesCount) m κ γ φ r₀ solver.timeStep e)
    (oscillates_refl m κ γ φ r₀ _ e) (oscillates_trans m κ γ φ r₀ _ e)
    (fun sim sim' hb hst => by
      obtain ⟨h1, h2, -⟩ := between_step e hr hne (by rw [hk]; simp) _ sim sim' hb hst
      obtain ⟨h3, h4⟩ := dynamic_step_rows e hk hr hne hdim D hv hd _ hs sim sim' hb hst
      rw [hf] at h4
      refine ⟨h1, oscillates_step hM hMd hA hB hκ hγ hφ hdt h₀ e sim sim' ?_ h2 h3 h4⟩
      obtain ⟨s1, s2, -⟩ := velocity_step e _ _ hst
      have := hb.time
      change sim.state.time = _ at this
      rw [s1, this, hb.timeStep]) rs sim h
  obtain ⟨j, ht, h1⟩ := (List.pairwise_cons.1 this).1 s.toSnapshot (List.mem_map_of_mem hmem)
  obtain ⟨h2, h3⟩ := h1 x hu hv₀
  exact ⟨j, by simpa [State.new] using ht, h2, h3⟩

/-- C121, waves, from the beginning or resumed. -/
theorem C121_wave {c : ProblemClass} (e : Engine K) (hk : e.kind = .wave)
    (hr : Registered c e.cls e.kind) (hne : e.cls ≠ .direct)
    (D : ℕ → Prop) [DecidablePred D] (hv : ValidBoundaries e.ops.nodesCount e.boundaries)
    (hd : DirichletData e.ops.nodesCount 1 e.boundaries D fun _ => 0)
    (hM : StoresEnergy e.ops.nodesCount e.ops.acceleration)
    (hMd : DefiniteOn e.ops.nodesCount D e.ops.acceleration)
    (hB : StoresEnergy e.ops.nodesCount e.ops.poisson) (f r₀ : ℕ → K) (hf : ∀ t, e.ops.force t = f)
    (h₀ : ∀ r < e.ops.nodesCount, ¬ D r → act e.ops.nodesCount e.ops.poisson r₀ r = f r)
    (m : ℕ) (κ : ℕ → K) (φ : ℕ → ℕ → K) (hκ : ∀ i < m, 0 ≤ κ i)
    (hφ : ∀ i < m, ModeOf e.ops.nodesCount D e.ops.acceleration (fun _ _ => 0) e.ops.poisson (κ i) 0 (φ i))
    (a : Engine.Arguments K) (resume : Option (State K)) (solver : SolverState K) (hdt : 0 < solver.timeStep)
    (hs : ExactSolve e e.ops.nodesCount solver.timeStep) (x : ℕ → K × K)
    (hu : ∀ r < e.ops.nodesCount, State.flatten e.grid
        (resume.elim a.initialDisplacement fun s => s.displacement) r =
      r₀ r + superposed m φ (fun i => (x i).1) r)
    (hv₀ : ∀ r < e.ops.nodesCount, State.flatten e.grid
        (resume.elim a.initialVelocity fun s => s.velocity) r = superposed m φ (fun i => (x i).2) r)
    (store : ProductStore K V) (rs : List (State K)) (sim : Simulation K V)
    (h : e.waveSolve a resume solver store = .ok (rs, sim)) (s : State K) (hmem : s ∈ rs) :
    ∃ j : ℕ, s.time = (resume.elim 0 fun s => s.time) + j * solver.timeStep ∧
      (∀ r < e.ops.nodesCount, State.flatten e.grid s.displacement r = r₀ r +
        superposed m φ (fun i => ((oscillatorStep (κ i) 0 solver.timeStep)^[j] (x i)).1) r) ∧
      ∀ r < e.ops.nodesCount, State.flatten e.grid s.velocity r =
        superposed m φ (fun i => ((oscillatorStep (κ i) 0 solver.timeStep)^[j] (x i)).2) r := by
  have := wave_relation e a resume solver store
    (Oscillates e.ops.nodesCount m κ (fun _ => 0) φ r₀ solver.timeStep e)
    (oscillates_refl m κ _ φ r₀ _ e) (oscillates_trans m κ _ φ r₀ _ e)
    (fun sim sim' hb hst => by
      obtain ⟨h1, h2, -⟩ := between_step e hr hne (by rw [hk]; simp) _ sim sim' hb hst
      obtain ⟨h3, h4⟩ := wave_step_rows e hk hr hne D hv hd _ hs sim sim' hb hst
      rw [hf] at h4
      refine ⟨h1, oscillates_step hM hMd ⟨fun y => ?_⟩ hB hκ (fun _ _ => le_rfl) hφ hdt h₀ e sim sim' ?_ h2 h3
        fun r hr hD => ?_⟩
      · simp [quad]
      · obtain ⟨s1, s2, -⟩ := velocity_step e _ _ hst
        have := hb.time
        change sim.state.time = _ at this
        rw [s1, this, hb.timeStep]
      · have := h4 r hr hD
        rw [← this]
        simp [act]) rs sim h
  obtain ⟨j, ht, h1⟩ := (List.pairwise_cons.1 this).1 s.toSnapshot (List.mem_map_of_mem hmem)
  obtain ⟨h2, h3⟩ := h1 x (by cases resume <;> exact hu) (by cases resume <;> exact hv₀)
  refine ⟨j, ?_, h2, h3⟩
  change s.time = _ at ht
  rw [ht]
  cases resume <;> simp [waveInitial, State.new]

/-- C121: in each step an oscillator without viscosity keeps exactly the share `1 / (1 + κ dt²)` of its energy. -/
theorem C121_energy (κ dt : K) (hκ : 0 ≤ κ) (j : ℕ) (x : K × K) :
    oscillatorEnergy κ ((oscillatorStep κ 0 dt)^[j] x) * (1 + κ * dt ^ 2) ^ j = oscillatorEnergy κ x := by
  have hpos : 1 + κ * dt ^ 2 ≠ 0 :=
    (by linarith [mul_nonneg hκ (sq_nonneg dt)] : 0 < 1 + κ * dt ^ 2).ne'
  induction j generalizing x with
  | zero => simp
  | succ j ih =>
    rw [Function.iterate_succ_apply, pow_succ, ← mul_assoc, ih]
    simp only [oscillatorEnergy, oscillatorStep, zero_mul, add_zero]
    field_simp
    ring

/-- C121: with viscosity it does not gain energy either. -/
theorem C121_viscous (κ γ dt : K) (hκ : 0 ≤ κ) (hγ : 0 ≤ γ) (hdt : 0 ≤ dt) (j : ℕ) (x : K × K) :
    oscillatorEnergy κ ((oscillatorStep κ γ dt)^[j] x) ≤ oscillatorEnergy κ x := by
  have h0 : 0 ≤ κ * dt ^ 2 := mul_nonneg hκ (sq_nonneg dt)
  have h1 : 0 ≤ γ * dt := mul_nonneg hγ hdt
  have step : ∀ x : K × K, oscillatorEnergy κ (oscillatorStep κ γ dt x) ≤ oscillatorEnergy κ x := by
    rintro ⟨q, p⟩
    simp only [oscillatorEnergy, oscillatorStep]
    set w := (p - dt * κ * q) / (1 + γ * dt + κ * dt ^ 2) with hw
    have hp : w * (1 + γ * dt + κ * dt ^ 2) = p - dt * κ * q :=
      div_mul_cancel₀ _ (by linarith : 0 < 1 + γ * dt + κ * dt ^ 2).ne'
    have e : p = w * (1 + γ * dt + κ * dt ^ 2) + dt * κ * q := by linear_combination -hp
    have e2 : p ^ 2 + κ * q ^ 2 - (w ^ 2 + κ * (q + dt * w) ^ 2) =
        (p - w) ^ 2 + 2 * (γ * dt) * w ^ 2 + κ * dt ^ 2 * w ^ 2 := by
      rw [e]; ring
    have : 0 ≤ (p - w) ^ 2 + 2 * (γ * dt) * w ^ 2 + κ * dt ^ 2 * w ^ 2 := by positivity
    linarith
  induction j generalizing x with
  | zero => exact le_rfl
  | succ j ih =>
    rw [Function.iterate_succ_apply]
    exact (ih _).trans (step x)

end

/-- C121: the velocity and the position times the frequency `ω`, as one complex number. Each step divides it by
`1 - i ω dt`, so that the angle grows by `arctan (ω dt)` in place of `ω dt`. -/
theorem C121_phase (ω dt : ℝ) (j : ℕ) (x : ℝ × ℝ) :
    let y := (oscillatorStep (ω ^ 2) 0 dt)^[j] x
    ((y.2 : ℂ) + ω * y.1 * Complex.I) * (1 - ω * dt * Complex.I) ^ j = x.2 + ω * x.1 * Complex.I := by
  intro y
  have hpos : (1 : ℝ) + ω ^ 2 * dt ^ 2 ≠ 0 := by positivity
  induction j generalizing x with
  | zero => simp [y]
  | succ j ih =>
    have h1 := ih (oscillatorStep (ω ^ 2) 0 dt x)
    have e : y = (oscillatorStep (ω ^ 2) 0 dt)^[j] (oscillatorStep (ω ^ 2) 0 dt x) := rfl
    rw [← e] at h1
    rw [pow_succ, ← mul_assoc, h1]
    obtain ⟨q, p⟩ := x
    simp only [oscillatorStep, zero_mul, add_zero]
    set w := (p - dt * ω ^ 2 * q) / (1 + ω ^ 2 * dt ^ 2) with hw
    have hp : w * (1 + ω ^ 2 * dt ^ 2) = p - dt * ω ^ 2 * q := div_mul_cancel₀ _ hpos
    apply Complex.ext
    · simp
      linear_combination hp
    · simp
      ring

/-- C121: this angle is too small, so that the computed oscillations are slower than those of the body. -/
theorem C121_angle (ω dt : ℝ) (hω : 0 < ω) (hdt : 0 < dt) :
    Complex.arg (1 / (1 - ω * dt * Complex.I)) = Real.arctan (ω * dt) ∧ Real.arctan (ω * dt) < ω * dt := by
  have hx : 0 < ω * dt := mul_pos hω hdt
  refine ⟨?_, ?_⟩
  · have hpos : (0 : ℝ) < 1 + (ω * dt) ^ 2 := by positivity
    have e : (1 : ℂ) / (1 - ω * dt * Complex.I) =
        ((1 / (1 + (ω * dt) ^ 2) : ℝ) : ℂ) * (1 + ω * dt * Complex.I) := by
      have h1 : (1 : ℂ) - ω * dt * Complex.I ≠ 0 := fun h => by
        have := congrArg Complex.re h
        simp at this
      have h2 : ((1 + (ω * dt) ^ 2 : ℝ) : ℂ) ≠ 0 := Complex.ofReal_ne_zero.2 hpos.ne'
      rw [Complex.ofReal_div, div_mul_eq_mul_div, div_eq_div_iff h1 h2]
      push_cast
      linear_combination ((ω : ℂ) ^ 2 * dt ^ 2) * Complex.I_sq
    rw [e, Complex.arg_real_mul _ (by positivity)]
    have h := Complex.arg_of_re_nonneg (x := 1 + ω * dt * Complex.I) (by simp)
    rw [h, Real.arctan_eq_arcsin]
    congr 1
    simp [Complex.norm_def, Complex.normSq_apply]
    ring_nf
  · rw [← Real.tan_arctan (ω * dt)]
    conv_lhs => rw [Real.tan_arctan]
    exact Real.lt_tan (Real.arctan_pos.2 hx) (Real.arctan_lt_pi_div_two _)

section
variable {V : Type}

/-- C121, dynamic elasticity with viscous forces that are a combination of those of inertia and elasticity (for
instance none). The body has shapes that do not depend on the time step, the loads and the initial state, and every
run is a sum of independent oscillations in these shapes. The energy of the motion is the sum of their energies. -/
theorem C121_complete {c : ProblemClass} (e : Engine ℝ) (hk : e.kind = .dynamicVelocity)
    (hr : Registered c e.cls e.kind) (hne : e.cls ≠ .direct) {d : ℕ} (hdim : e.ops.dimension = d)
    (D : ℕ → Prop) [DecidablePred D] (hv : ValidBoundaries e.ops.nodesCount e.boundaries)
    (hd : DirichletData e.ops.nodesCount 2 e.boundaries D fun _ => 0)
    (hM : StoresEnergy (d * e.ops.nodesCount) e.ops.acceleration)
    (hMd : DefiniteOn (d * e.ops.nodesCount) D e.ops.acceleration)
    (hB : StoresEnergy (d * e.ops.nodesCount) e.ops.elasticity) (α β : ℝ) (hα : 0 ≤ α) (hβ : 0 ≤ β)
    (hA : ∀ r < d * e.ops.nodesCount, ∀ s < d * e.ops.nodesCount,
      e.ops.viscosity r s = α * e.ops.acceleration r s + β * e.ops.elasticity r s) :
    ∃ (m : ℕ) (κ : ℕ → ℝ) (φ : ℕ → ℕ → ℝ), (∀ i < m, 0 ≤ κ i) ∧
      (∀ i < m, ModeOf (d * e.ops.nodesCount) D e.ops.acceleration e.ops.viscosity e.ops.elasticity
        (κ i) (α + β * κ i) (φ i)) ∧
      ∀ (f r₀ : ℕ → ℝ), (∀ t, e.ops.force t = f) →
      (∀ r < d * e.ops.nodesCount, ¬ D r → act (d * e.ops.nodesCount) e.ops.elasticity r₀ r = f r) →
      ∀ (a : Engine.Arguments ℝ) (solver : SolverState ℝ), 0 < solver.timeStep →
      solver.currentTime = 0 → ExactSolve e (d * e.ops.nodesCount) solver.timeStep →
      (∀ r < d * e.ops.nodesCount, D r → State.flatten e.grid a.initialDisplacement r = r₀ r) →
      (∀ r < d * e.ops.nodesCount, D r → State.flatten e.grid a.initialVelocity r = 0) →
      ∃ x : ℕ → ℝ × ℝ, ∀ (store : ProductStore ℝ V) (rs : List (State ℝ)) (sim : Simulation ℝ V),
        e.timeDependentSolve a solver store = .ok (rs, sim) → ∀ s ∈ rs,
        ∃ j : ℕ, s.time = j * solver.timeStep ∧
          let y := fun i => (oscillatorStep (κ i) (α + β * κ i) solver.timeStep)^[j] (x i)
          (∀ r < d * e.ops.nodesCount, State.flatten e.grid s.displacement r =
            r₀ r + superposed m φ (fun i => (y i).1) r) ∧
          (∀ r < d * e.ops.nodesCount, State.flatten e.grid s.velocity r =
            superposed m φ (fun i => (y i).2) r) ∧
          quad (d * e.ops.nodesCount) e.ops.acceleration (State.flatten e.grid s.velocity) +
            quad (d * e.ops.nodesCount) e.ops.elasticity
              (fun r => State.flatten e.grid s.displacement r - r₀ r) =
            ∑ i ∈ Finset.range m, oscillatorEnergy (κ i) (y i) := by
  obtain ⟨m, κ, φ, hκ, hφ, ho, hall⟩ := exists_modes hM hMd hB
  have hact : ∀ x r, r < d * e.ops.nodesCount → act (d * e.ops.nodesCount) e.ops.viscosity x r =
      α * act (d * e.ops.nodesCount) e.ops.acceleration x r +
        β * act (d * e.ops.nodesCount) e.ops.elasticity x r := by
    intro x r hr
    unfold act
    rw [Finset.mul_sum, Finset.mul_sum, ← Finset.sum_add_distrib]
    exact Finset.sum_congr rfl fun s hs => by rw [hA r hr s (Finset.mem_range.1 hs)]; ring
  have hφ' : ∀ i < m, ModeOf (d * e.ops.nodesCount) D e.ops.acceleration e.ops.viscosity e.ops.elasticity
      (κ i) (α + β * κ i) (φ i) := fun i hi =>
    ⟨(hφ i hi).still, (hφ i hi).elastic, fun r hr hD => by
      rw [hact _ r hr, (hφ i hi).elastic r hr hD]; ring⟩
  have hdis : Dissipates (d * e.ops.nodesCount) e.ops.viscosity := ⟨fun x => by
    have : quad (d * e.ops.nodesCount) e.ops.viscosity x =
        α * quad (d * e.ops.nodesCount) e.ops.acceleration x +
          β * quad (d * e.ops.nodesCount) e.ops.elasticity x := by
      simp only [quad_eq_bilin, ← bilin_eq_act]
      rw [Finset.mul_sum, Finset.mul_sum, ← Finset.sum_add_distrib]
      exact Finset.sum_congr rfl fun r hr => by rw [hact x r (Finset.mem_range.1 hr)]; ring
    rw [this]
    exact add_nonneg (mul_nonneg hα (hM.nonneg x)) (mul_nonneg hβ (hB.nonneg x))⟩
  refine ⟨m, κ, φ, hκ, hφ', fun f r₀ hf h₀ a solver hdt hc hs hu hv₀ => ?_⟩
  obtain ⟨q, hq⟩ := hall (fun r => State.flatten e.grid a.initialDisplacement r - r₀ r)
    fun r hr hD => sub_eq_zero.2 (hu r hr hD)
  obtain ⟨p, hp⟩ := hall (State.flatten e.grid a.initialVelocity) hv₀
  refine ⟨fun i => (q i, p i), fun store rs sim h s hmem => ?_⟩
  obtain ⟨j, ht, h1, h2⟩ := C121_dynamic e hk hr hne hdim D hv hd hM hMd hdis hB f r₀ hf h₀ m κ
    (fun i => α + β * κ i) φ hκ (fun i hi => add_nonneg hα (mul_nonneg hβ (hκ i hi))) hφ' a solver hdt hc hs
    (fun i => (q i, p i)) (fun r hr => by rw [← hq r hr]; ring) hp store rs sim h s hmem
  refine ⟨j, ht, h1, h2, ?_⟩
  rw [← modes_energy hφ' ho]
  congr 1
  · exact quad_on h2
  · exact quad_on fun r hr => by rw [h1 r hr]; ring

/-- C121, waves: the same, and the energy after `j` steps is known exactly. -/
theorem C121_wave_complete {c : ProblemClass} (e : Engine ℝ) (hk : e.kind = .wave)
    (hr : Registered c e.cls e.kind) (hne : e.cls ≠ .direct)
    (D : ℕ → Prop) [DecidablePred D] (hv : ValidBoundaries e.ops.nodesCount e.boundaries)
    (hd : DirichletData e.ops.nodesCount 1 e.boundaries D fun _ => 0)
    (hM : StoresEnergy e.ops.nodesCount e.ops.acceleration)
    (hMd : DefiniteOn e.ops.nodesCount D e.ops.acceleration)
    (hB : StoresEnergy e.ops.nodesCount e.ops.poisson) :
    ∃ (m : ℕ) (κ : ℕ → ℝ) (φ : ℕ → ℕ → ℝ), (∀ i < m, 0 ≤ κ i) ∧
      (∀ i < m, ModeOf e.ops.nodesCount D e.ops.acceleration (fun _ _ => 0) e.ops.poisson (κ i) 0 (φ i)) ∧
      ∀ (f r₀ : ℕ → ℝ), (∀ t, e.ops.force t = f) →
      (∀ r < e.ops.nodesCount, ¬ D r → act e.ops.nodesCount e.ops.poisson r₀ r = f r) →
      ∀ (a : Engine.Arguments ℝ) (resume : Option (State ℝ)) (solver : SolverState ℝ), 0 < solver.timeStep →
      ExactSolve e e.ops.nodesCount solver.timeStep →
      (∀ r < e.ops.nodesCount, D r →
        State.flatten e.grid (resume.elim a.initialDisplacement fun s => s.displacement) r = r₀ r) →
      (∀ r < e.ops.nodesCount, D r →
        State.flatten e.grid (resume.elim a.initialVelocity fun s => s.velocity) r = 0) →
      ∃ x : ℕ → ℝ × ℝ, ∀ (store : ProductStore ℝ V) (rs : List (State ℝ)) (sim : Simulation ℝ V),
        e.waveSolve a resume solver store = .ok (rs, sim) → ∀ s ∈ rs,
        ∃ j : ℕ, s.time = (resume.elim 0 fun s => s.time) + j * solver.timeStep ∧
          let y := fun i => (oscillatorStep (κ i) 0 solver.timeStep)^[j] (x i)
          (∀ r < e.ops.nodesCount, State.flatten e.grid s.displacement r =
            r₀ r + superposed m φ (fun i => (y i).1) r) ∧
          (∀ r < e.ops.nodesCount, State.flatten e.grid s.velocity r =
            superposed m φ (fun i => (y i).2) r) ∧
          quad e.ops.nodesCount e.ops.acceleration (State.flatten e.grid s.velocity) +
            quad e.ops.nodesCount e.ops.poisson (fun r => State.flatten e.grid s.displacement r - r₀ r) =
            ∑ i ∈ Finset.range m,
              oscillatorEnergy (κ i) (x i) / (1 + κ i * solver.timeStep ^ 2) ^ j := by
  obtain ⟨m, κ, φ, hκ, hφ, ho, hall⟩ := exists_modes hM hMd hB
  refine ⟨m, κ, φ, hκ, hφ, fun f r₀ hf h₀ a resume solver hdt hs hu hv₀ => ?_⟩
  obtain ⟨q, hq⟩ := hall (fun r => State.flatten e.grid
    (resume.elim a.initialDisplacement fun s => s.displacement) r - r₀ r)
    fun r hr hD => sub_eq_zero.2 (hu r hr hD)
  obtain ⟨p, hp⟩ := hall (State.flatten e.grid (resume.elim a.initialVelocity fun s => s.velocity)) hv₀
  refine ⟨fun i => (q i, p i), fun store rs sim h s hmem => ?_⟩
  obtain ⟨j, ht, h1, h2⟩ := C121_wave e hk hr hne D hv hd hM hMd hB f r₀ hf h₀ m κ φ hκ hφ a resume solver
    hdt hs (fun i => (q i, p i)) (fun r hr => by rw [← hq r hr]; ring) hp store rs sim h s hmem
  refine ⟨j, ht, h1, h2, ?_⟩
  have e1 := modes_energy hφ ho fun i => (oscillatorStep (κ i) 0 solver.timeStep)^[j] (q i, p i)
  have e2 : ∑ i ∈ Finset.range m, oscillatorEnergy (κ i) (q i, p i) / (1 + κ i * solver.timeStep ^ 2) ^ j =
      ∑ i ∈ Finset.range m, oscillatorEnergy (κ i)
        ((oscillatorStep (κ i) 0 solver.timeStep)^[j] (q i, p i)) := by
    refine Finset.sum_congr rfl fun i hi => ?_
    have h0 := hκ i (Finset.mem_range.1 hi)
    rw [← C121_energy (κ i) solver.timeStep h0 j, mul_div_assoc, div_self, mul_one]
    positivity
  rw [e2, ← e1]
  congr 1
  · exact quad_on h2
  · exact quad_on fun r hr => by rw [h1 r hr]; ring

/-! ### Meshes -/

theorem plane_scaled (N : ℕ) (W : ℕ → ℕ → ℕ → ℕ → ℝ) (β mu lam : ℝ) (r s : ℕ) :
    Plane.constitutive N W (β * mu) (β * lam) r s = β * Plane.constitutive N W mu lam r s := by
  simp only [Plane.constitutive, block]
  split <;> ring

theorem space_scaled (N : ℕ) (W : ℕ → ℕ → ℕ → ℕ → ℝ) (β mu lam : ℝ) (r s : ℕ) :
    Space.constitutive N W (β * mu) (β * lam) r s = β * Space.constitutive N W mu lam r s := by
  simp only [Space.constitutive, block]
  split <;> ring

/-- C121: the conditions of `C121_complete` and `C121_wave_complete` on the matrices are met on every triangular mesh
in which every node belongs to a triangle, if the coefficients of viscosity are `β` times those of elasticity. -/
theorem C121_operators2 {N : ℕ} {elements : List (List ℕ)} {nodes : ℕ → ℕ → ℝ} (hv : ValidElements 2 N elements)
    (hn : Nondegenerate2 elements nodes) (hall : ∀ p < N, ∃ e ∈ elements, p ∈ e)
    (density mu lam β propagation : ℝ) (hdensity : 0 < density) (hmu : 0 ≤ mu) (hlam : 0 ≤ lam) (D : ℕ → Prop) :
    let m := basicMatrices2 elements nodes
    (StoresEnergy (2 * N) (Plane.acceleration N m.U density) ∧
      DefiniteOn (2 * N) D (Plane.acceleration N m.U density) ∧
      StoresEnergy (2 * N) (Plane.constitutive N m.W mu lam) ∧
      ∀ r < 2 * N, ∀ s < 2 * N, Plane.constitutive N m.W (β * mu) (β * lam) r s =
        0 * Plane.acceleration N m.U density r s + β * Plane.constitutive N m.W mu lam r s) ∧
    StoresEnergy N (Plane.acceleration N m.U density) ∧ DefiniteOn N D (Plane.acceleration N m.U density) ∧
    StoresEnergy N (poissonMatrix 2 m.W propagation) := by
  intro m
  obtain ⟨o1, o2, -, o4, o5⟩ := C71_operators2 hv hn density mu lam 0 0 propagation hdensity.le hmu hlam le_rfl le_rfl
  obtain ⟨d1, d2⟩ := C74_mass2 hv hn density hdensity hall D
  exact ⟨⟨o1, d1, o2, fun r _ s _ => by rw [zero_mul, zero_add, plane_scaled]⟩, o4, d2, o5⟩

/-- C121: and on every tetrahedral mesh for `λ ≤ μ`. -/
theorem C121_operators3 {N : ℕ} {elements : List (List ℕ)} {nodes : ℕ → ℕ → ℝ} (hv : ValidElements 3 N elements)
    (hn : Nondegenerate3 elements nodes) (hall : ∀ p < N, ∃ e ∈ elements, p ∈ e)
    (density mu lam β propagation : ℝ) (hdensity : 0 < density) (hlam : 0 ≤ lam) (hle : lam ≤ mu) (D : ℕ → Prop) :
    let m := basicMatrices3 elements nodes
    (StoresEnergy (3 * N) (Space.acceleration N m.U density) ∧
      DefiniteOn (3 * N) D (Space.acceleration N m.U density) ∧
      StoresEnergy (3 * N) (Space.constitutive N m.W mu lam) ∧
      ∀ r < 3 * N, ∀ s < 3 * N, Space.constitutive N m.W (β * mu) (β * lam) r s =
        0 * Space.acceleration N m.U density r s + β * Space.constitutive N m.W mu lam r s) ∧
    StoresEnergy N (Space.acceleration N m.U density) ∧ DefiniteOn N D (Space.acceleration N m.U density) ∧
    StoresEnergy N (poissonMatrix 3 m.W propagation) := by
  intro m
  obtain ⟨o1, -, o3, -⟩ := C71_operators3 hv hn density 0 propagation hdensity.le le_rfl
  obtain ⟨d1, d2⟩ := scalar_mass3 hv hn density hdensity hall D
  exact ⟨⟨o1, C73_mass3 hv hn density hdensity hall D, C120_nonneg_partial hv hn mu lam hlam hle,
    fun r _ s _ => by rw [zero_mul, zero_add, space_scaled]⟩, d1, d2, o3⟩

end

/-! ### Examples -/

section

/-- The column of `SpaceMotions.lean` under a constant load, with viscosity twice the elasticity. -/
noncomputable def columnRinging : Engine ℝ :=
  { columnMoving with
    ops := { columnMoving.ops with
      viscosity := Space.constitutive 9 (basicMatrices3 columnMesh (columnNodes (2 : ℝ))).W (2 * 3) (2 * 1)
      force := fun _ _ => 0 } }

/-- The hypotheses of `C121_dynamic` and `C121_complete` are met by the column: its oscillations are sums of those of
independent oscillators. -/
example : ∃ (m : ℕ) (κ : ℕ → ℝ) (φ : ℕ → ℕ → ℝ), (∀ i < m, 0 ≤ κ i) ∧
    ∀ (a : Engine.Arguments ℝ) (solver : SolverState ℝ), 0 < solver.timeStep → solver.currentTime = 0 →
      (∀ r < 27, r < 2 * 9 ∧ r % 9 < 3 → State.flatten columnRinging.grid a.initialDisplacement r = 0) →
      (∀ r < 27, r < 2 * 9 ∧ r % 9 < 3 → State.flatten columnRinging.grid a.initialVelocity r = 0) →
      ∃ x : ℕ → ℝ × ℝ, ∀ (store : ProductStore ℝ Unit) (rs : List (State ℝ)) (sim : Simulation ℝ Unit),
        columnRinging.timeDependentSolve a solver store = .ok (rs, sim) → ∀ s ∈ rs, ∃ j : ℕ,
          s.time = j * solver.timeStep ∧
          ∀ r < 27, State.flatten columnRinging.grid s.displacement r = superposed m φ
            (fun i => ((oscillatorStep (κ i) (2 * κ i) solver.timeStep)^[j] (x i)).1) r := by
  have hn := column_nondegenerate (2 : ℝ) (by norm_num)
  have hall : ∀ p < 9, ∃ t ∈ columnMesh, p ∈ t := by unfold columnMesh; decide
  obtain ⟨⟨o1, o2, o3, o4⟩, -⟩ := C121_operators3 column_valid hn hall 5 3 1 2 0 (by norm_num) (by norm_num)
    (by norm_num) fun r => r < 2 * 9 ∧ r % 9 < 3
  have hsolve : ∀ dt : ℝ, 0 < dt → ExactSolve columnRinging 27 dt := by
    intro dt hdt S guess var hvar h
    obtain ⟨x, hx, -⟩ := C74_space column_valid hn hall 5 3 1 (2 * 3) (2 * 1) (by norm_num) (by norm_num)
      (by norm_num) (by norm_num) (by norm_num) columnRinging.ops rfl rfl rfl rfl rfl _ _ _
      (columnSupport_data 2).1 (columnSupport_data 2).2 var dt hdt hvar S.system h
    have hex : ∃ x, Solves 27 S.system x := ⟨x, hx⟩
    have : columnRinging.solve S guess = hex.choose := dif_pos hex
    rw [this]
    exact hex.choose_spec
  obtain ⟨m, κ, φ, h1, -, h3⟩ := C121_complete (V := Unit) (c := .DynamicDisplacementProblem) columnRinging rfl
    ⟨⟨.dynamic, by decide +kernel, by decide +kernel⟩, Or.inl (by decide +kernel)⟩ SolverClass.noConfusion
    (d := 3) rfl (fun r => r < 2 * 9 ∧ r % 9 < 3) (columnSupport_data 2).1 (columnSupport_data 2).2 o1 o2 o3
    0 2 le_rfl (by norm_num) o4
  refine ⟨m, κ, φ, h1, fun a solver hdt hc hu hv => ?_⟩
  obtain ⟨x, hx⟩ := h3 (fun _ => 0) (fun _ => 0) (fun _ => rfl) (fun r _ _ => by simp [act]) a solver hdt hc
    (hsolve _ hdt) hu hv
  refine ⟨x, fun store rs sim h s hs => ?_⟩
  obtain ⟨j, ht, hj, -⟩ := hx store rs sim h s hs
  refine ⟨j, ht, fun r hr => ?_⟩
  simpa using hj r hr

/-- The hypotheses of `C121_wave` and `C121_wave_complete` are met by waves in the column. -/
example : StoresEnergy 9 columnWave.ops.acceleration ∧
    DefiniteOn 9 (fun r => r < 1 * 9 ∧ r % 9 < 3) columnWave.ops.acceleration ∧
    StoresEnergy 9 columnWave.ops.poisson ∧ Registered .WaveProblem columnWave.cls columnWave.kind ∧
    ∃ (m : ℕ) (κ : ℕ → ℝ) (φ : ℕ → ℕ → ℝ), (∀ i < m, 0 ≤ κ i) ∧ ∀ i < m, ModeOf 9 (fun r => r < 1 * 9 ∧ r % 9 < 3) columnWave.ops.acceleration
      (fun _ _ => 0) columnWave.ops.poisson (κ i) 0 (φ i) := by
  have hn := column_nondegenerate (2 : ℝ) (by norm_num)
  have hall : ∀ p < 9, ∃ t ∈ columnMesh, p ∈ t := by unfold columnMesh; decide
  obtain ⟨-, o1, o2, o3⟩ := C121_operators3 column_valid hn hall 5 0 0 0 2 (by norm_num) le_rfl
    le_rfl fun r => r < 1 * 9 ∧ r % 9 < 3
  obtain ⟨m, κ, φ, h1, h2, -⟩ := exists_modes o1 o2 o3
  exact ⟨o1, o2, o3, ⟨⟨.dynamic, by decide +kernel, by decide +kernel⟩, Or.inl (by decide +kernel)⟩, m, κ, φ, h1, h2⟩

/-- A mesh that meets the hypotheses of `C121_operators2`. -/
example : ValidElements 2 3 [[0, 1, 2]] ∧ Nondegenerate2 [[0, 1, 2]] hangingNodes ∧
    ∀ p < 3, ∃ e ∈ [[0, 1, 2]], p ∈ e :=
  ⟨hanging_mesh.1, hanging_mesh.2, by decide⟩

/-- A number of steps of an oscillator: energy 5 becomes 5 / 4 in two steps with `κ dt² = 1`. -/
example : oscillatorEnergy (4 : ℚ) ((oscillatorStep 4 0 (1 / 2))^[2] (1, 1)) = 5 / 4 ∧
    oscillatorEnergy (4 : ℚ) (1, 1) = 5 := by
  norm_num [oscillatorEnergy, oscillatorStep]

end
end Conmech
