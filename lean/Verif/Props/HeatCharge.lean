import Verif.Spec.HeatCharge
import Verif.Lemmas.CoupledRun
import Verif.Props.Balance
import Verif.Props.Thermal
import Verif.Props.Piezo
import Verif.Props.Tensors
/-!
C94: heat and energy of thermoelastic runs. C95: charge in piezoelectric runs.
-/
namespace Conmech
open Spec

section
variable {K : Type} [Field K] [LinearOrder K] [IsStrictOrderedRing K] {V : Type}

/-! ### C94 -/

omit [LinearOrder K] [IsStrictOrderedRing K] in
/-- Heat equation of one step, for bodies of any dimension: `M (θ - θ_old) / dt + C θ = -E v` off the prescribed
temperatures. -/
theorem C34_heat_any (ops : Operators K) (bs : List (CondBoundary K)) (D : ℕ → Prop) [DecidablePred D] (g : ℕ → K)
    {d : ℕ} (hdim : ops.dimension = d) (hv : ValidBoundaries ops.nodesCount bs)
    (hd : DirichletData ops.nodesCount 1 bs D g) (v θOld : ℕ → K) (dt : K) (_hne : dt ≠ 0)
    (var : Variables K) (hvel : var.velocity = some v) (hθ : var.temperature = some θOld)
    (hdt : var.timeStep = some dt) :
    ∃ S, StatementKind.temperature.update ops bs var = .ok S ∧
      ∀ θ, Solves ops.nodesCount S θ ↔
        (∀ r < ops.nodesCount, D r → θ r = g r) ∧
        ∀ r < ops.nodesCount, ¬ D r →
          act ops.nodesCount ops.acceleration (fun i => (θ i - θOld i) / dt) r +
          act ops.nodesCount ops.thermalConductivity θ r =
            - act (d * ops.nodesCount) ops.thermalExpansion v r := by
  cases var
  simp only at hvel hdt hθ
  subst hvel hdt hθ
  refine ⟨_, rfl, fun θ => ?_⟩
  change Solves _ (applyDirichlet ops.nodesCount 1 bs _) θ ↔ _
  have := C12_elimination_equivalent ops.nodesCount 1 bs ⟨fun r s =>
    1 / dt * ops.acceleration r s + ops.thermalConductivity r s, fun r =>
      matVec (ops.dimension * ops.nodesCount) (fun r s => -1 * ops.thermalExpansion r s) v r +
      matVec ops.nodesCount (fun r s => 1 / dt * ops.acceleration r s) θOld r⟩ D g hv hd θ
  rw [Nat.one_mul] at this
  rw [this]
  refine and_congr_right fun _ => forall_congr' fun r => forall_congr' fun _ =>
    forall_congr' fun _ => ?_
  simp only [hdim, Row, act, matVec]
  have k1 : ∑ s ∈ Finset.range ops.nodesCount,
      (1 / dt * ops.acceleration r s + ops.thermalConductivity r s) * θ s -
      ∑ s ∈ Finset.range ops.nodesCount, 1 / dt * ops.acceleration r s * θOld s =
      ∑ s ∈ Finset.range ops.nodesCount, ops.acceleration r s * ((θ s - θOld s) / dt) +
      ∑ s ∈ Finset.range ops.nodesCount, ops.thermalConductivity r s * θ s := by
    rw [← Finset.sum_add_distrib, ← Finset.sum_sub_distrib]
    exact Finset.sum_congr rfl fun s _ => by ring
  have k2 : ∑ s ∈ Finset.range (d * ops.nodesCount), -1 * ops.thermalExpansion r s * v s =
      - ∑ s ∈ Finset.range (d * ops.nodesCount), ops.thermalExpansion r s * v s := by
    rw [← Finset.sum_neg_distrib]
    exact Finset.sum_congr rfl fun s _ => by ring
  constructor <;> intro h
  · linear_combination h - k1 + k2
  · linear_combination h + k1 - k2

omit [IsStrictOrderedRing K] in
/-- The heat equation of one step: the new temperature `θ'` is the one of the new velocity, whatever the
solver of the mechanical part returned. -/
theorem heat_step_rows (e : CoupledEngine K) (hk : e.second.kind = .temperature)
    (hst : e.stateKind = .temperature) {d : ℕ} (hdim : e.second.ops.dimension = d)
    (D : ℕ → Prop) [DecidablePred D] (g : ℕ → K)
    (hv : ValidBoundaries e.second.ops.nodesCount e.second.boundaries)
    (hd : DirichletData e.second.ops.nodesCount 1 e.second.boundaries D g)
    (fuel : ℕ) (dt : K) (hdt : dt ≠ 0) (hs : ExactSolve e.second e.second.ops.nodesCount dt)
    (r r' : CoupledEngine.Run K V) (hb : CoupledBetween e dt r) (h : e.step fuel r = .ok r') :
    ∃ θ θ', r.state.scalar = .temperature θ ∧ r'.state.scalar = .temperature θ' ∧
      (∀ p < e.second.ops.nodesCount, D p → θ' p = g p) ∧
      ∀ p < e.second.ops.nodesCount, ¬ D p →
        act e.second.ops.nodesCount e.second.ops.acceleration (fun i => (θ' i - θ i) / dt) p +
        act e.second.ops.nodesCount e.second.ops.thermalConductivity θ' p =
          - act (d * e.second.ops.nodesCount) e.second.ops.thermalExpansion
            (State.flatten e.first.grid r'.state.velocity) p := by
  obtain ⟨hb', _, _, _, _, _, S', guess', _, _, hu, hT, _⟩ := coupled_between_step e fuel dt r r' hb h
  refine ⟨r.coupled.first.tVector, r'.coupled.first.tVector, ?_, ?_, ?_⟩
  · rw [hb.scalar, hst]; rfl
  · rw [hb'.scalar, hst]; rfl
  · have hsol := hs S' guess' _ rfl hu
    rw [hk] at hu
    obtain ⟨S, hS, hiff⟩ := C34_heat_any e.second.ops e.second.boundaries D g hdim hv hd
      (State.flatten e.first.grid r'.state.velocity) r.coupled.first.tVector dt hdt
      { displacement := some (State.flatten e.first.grid r'.state.displacement)
        velocity := some (State.flatten e.first.grid r'.state.velocity)
        temperature := some r.coupled.first.tVector
        electricPotential := some r.coupled.first.pVector, timeStep := some dt } rfl rfl rfl
    rw [hu] at hS
    cases hS
    rw [← hT] at hsol
    exact (hiff _).1 hsol

theorem heat_balance (N d : ℕ) (D : ℕ → Prop) [DecidablePred D] (M C E : ℕ → ℕ → K)
    (θ θ' u w z : ℕ → K) (dt : K) (hdt : dt ≠ 0) (hz : ∀ r < N, D r → z r = 0)
    (hC : Unresisted N C z)
    (h : ∀ p < N, ¬ D p → act N M (fun i => (θ' i - θ i) / dt) p + act N C θ' p =
      - act (d * N) E w p) :
    heat N d M E z θ' (fun i => u i + dt * w i) = heat N d M E z θ u := by
  have key : ∑ p ∈ Finset.range N, z p * (act N M (fun i => (θ' i - θ i) / dt) p + act N C θ' p) =
      ∑ p ∈ Finset.range N, z p * - act (d * N) E w p := by
    refine Finset.sum_congr rfl fun p hp => ?_
    by_cases hD : D p
    · rw [hz p (Finset.mem_range.1 hp) hD]; ring
    · rw [h p (Finset.mem_range.1 hp) hD]
  simp only [mul_add, Finset.sum_add_distrib] at key
  rw [unresisted_sum hC, momentum_sub] at key
  have e1 : ∀ x y : ℕ → K, heat N d M E z x y = momentum N M z x +
      ∑ p ∈ Finset.range N, z p * act (d * N) E y p := by
    intro x y
    unfold heat momentum act
    rw [← Finset.sum_add_distrib]
    exact Finset.sum_congr rfl fun p _ => by ring
  have e2 : ∑ p ∈ Finset.range N, z p * act (d * N) E (fun i => u i + dt * w i) p =
      ∑ p ∈ Finset.range N, z p * act (d * N) E u p +
      dt * ∑ p ∈ Finset.range N, z p * act (d * N) E w p := by
    rw [Finset.mul_sum, ← Finset.sum_add_distrib]
    refine Finset.sum_congr rfl fun p _ => ?_
    have : act (d * N) E (fun i => u i + dt * w i) p = act (d * N) E u p + dt * act (d * N) E w p := by
      simp only [act, Finset.mul_sum, ← Finset.sum_add_distrib]
      exact Finset.sum_congr rfl fun s _ => by ring
    rw [this]; ring
  have e3 : ∑ p ∈ Finset.range N, z p * - act (d * N) E w p =
      - ∑ p ∈ Finset.range N, z p * act (d * N) E w p := by
    rw [← Finset.sum_neg_distrib]
    exact Finset.sum_congr rfl fun p _ => by ring
  rw [e3, add_zero, div_eq_iff hdt] at key
  rw [e1, e1, e2]
  linear_combination key

/-- C94: heat is conserved. For all states returned by the solver of thermoelastic problems, the heat
weighted with a field `z` that meets no resistance from conduction and vanishes where the temperature
is prescribed is the one of the initial state; with `z = 1` this is the heat of an insulated body. The
mechanical part may be anything: contact, prescribed motion, an inexact solver. -/
theorem C94_heat (e : CoupledEngine K) (hk : e.second.kind = .temperature)
    (hst : e.stateKind = .temperature) {d : ℕ} (hdim : e.second.ops.dimension = d)
    (D : ℕ → Prop) [DecidablePred D] (g : ℕ → K)
    (hv : ValidBoundaries e.second.ops.nodesCount e.second.boundaries)
    (hd : DirichletData e.second.ops.nodesCount 1 e.second.boundaries D g) (z : ℕ → K)
    (hz : ∀ p < e.second.ops.nodesCount, D p → z p = 0)
    (hC : Unresisted e.second.ops.nodesCount e.second.ops.thermalConductivity z)
    (fuel : ℕ) (a : Engine.Arguments K) (θ₀ : ℕ → K) (first second : SolverState K)
    (hc : first.currentTime = 0) (hts : second.timeStep = first.timeStep) (hdt : first.timeStep ≠ 0)
    (hs : ExactSolve e.second e.second.ops.nodesCount first.timeStep) (store : ProductStore K V)
    (rs : List (State K)) (r : CoupledEngine.Run K V)
    (h : e.solve fuel a θ₀ first second store = .ok (rs, r)) (s : State K) (hmem : s ∈ rs) :
    ∃ θ, s.scalar = .temperature θ ∧
      heat e.second.ops.nodesCount d e.second.ops.acceleration e.second.ops.thermalExpansion z θ
        (State.flatten e.first.grid s.displacement) =
      heat e.second.ops.nodesCount d e.second.ops.acceleration e.second.ops.thermalExpansion z θ₀
        (State.flatten e.first.grid a.initialDisplacement) := by
  obtain ⟨q, _, ⟨θ, h1, h2⟩, rfl⟩ := coupled_invariant e fuel a θ₀ first second store hc hts
    (fun q => ∃ θ, q.state.scalar = .temperature θ ∧
      heat e.second.ops.nodesCount d e.second.ops.acceleration e.second.ops.thermalExpansion z θ
        (State.flatten e.first.grid q.state.displacement) =
      heat e.second.ops.nodesCount d e.second.ops.acceleration e.second.ops.thermalExpansion z θ₀
        (State.flatten e.first.grid a.initialDisplacement))
    (fun c s h0 hb => by
      obtain ⟨_, _, _, h3, _, h4, _⟩ := coupled_between_start e a θ₀ first second store hc hts c s h0
      refine ⟨c.first.tVector, ?_, ?_⟩
      · rw [hb.scalar, hst]; rfl
      · rw [h4 hst]
        change heat _ _ _ _ _ _ (State.flatten e.first.grid s.displacement) = _
        rw [h3])
    (fun q q' hb hq hstep => by
      obtain ⟨θ, hθ, hbal⟩ := hq
      obtain ⟨x, x', h1, h2, _, hrows⟩ := heat_step_rows e hk hst hdim D g hv hd fuel _ hdt hs q q' hb
        hstep
      obtain ⟨_, hdis, _⟩ := coupled_between_step e fuel _ q q' hb hstep
      rw [hθ] at h1
      cases h1
      refine ⟨x', h2, ?_⟩
      rw [hdis, heat_balance _ _ D _ _ _ θ x' _ _ z _ hdt hz hC hrows]
      exact hbal) rs r h s hmem
  exact ⟨θ, h1, h2⟩

/-- The energy of one step: it falls by at least what viscosity and conduction dissipate, up to the power
exchanged with the change of the temperature between the last two passes. -/
theorem thermal_energy_step (N : ℕ) (M A B C E : ℕ → ℕ → K) (hM : StoresEnergy (2 * N) M)
    (hMN : StoresEnergy N M) (hB : StoresEnergy (2 * N) B)
    (f u v w θ θm θ' : ℕ → K) (dt : K) (hdt : 0 < dt)
    (h1 : ∑ r ∈ Finset.range (2 * N), w r * (act (2 * N) M (fun i => (w i - v i) / dt) r +
      act (2 * N) A w r + act (2 * N) B (fun i => u i + dt * w i) r -
        (f r + act N (fun r s => E s r) θm r)) ≤ 0)
    (h2 : ∑ p ∈ Finset.range N, θ' p * (act N M (fun i => (θ' i - θ i) / dt) p + act N C θ' p +
      act (2 * N) E w p) = 0) :
    totalEnergy N 2 M B f (fun i => u i + dt * w i) w θ' + dt * quad (2 * N) A w + dt * quad N C θ' ≤
      totalEnergy N 2 M B f u v θ + dt * exchange N 2 E (fun p => θm p - θ' p) w := by
  have e1 := energy_balance (2 * N) M A B hM.symm hB.symm f u v w dt hdt.ne' two_ne_zero
  have p1 := hM.nonneg fun i => w i - v i
  have p2 := hB.nonneg w
  have p3 := hMN.nonneg fun i => θ' i - θ i
  -- the work of the thermal stress
  have x1 : ∑ r ∈ Finset.range (2 * N), w r * (act (2 * N) M (fun i => (w i - v i) / dt) r +
      act (2 * N) A w r + act (2 * N) B (fun i => u i + dt * w i) r -
        (f r + act N (fun r s => E s r) θm r)) =
      ∑ r ∈ Finset.range (2 * N), w r * (act (2 * N) M (fun i => (w i - v i) / dt) r +
      act (2 * N) A w r + act (2 * N) B (fun i => u i + dt * w i) r - f r) -
      exchange N 2 E θm w := by
    have : exchange N 2 E θm w =
        ∑ r ∈ Finset.range (2 * N), w r * act N (fun r s => E s r) θm r := by
      unfold exchange act
      simp only [Finset.mul_sum]
      rw [Finset.sum_comm]
      exact Finset.sum_congr rfl fun r _ => Finset.sum_congr rfl fun p _ => by ring
    rw [this, ← Finset.sum_sub_distrib]
    exact Finset.sum_congr rfl fun r _ => by ring
  rw [x1] at h1
  -- the temperature
  have x2 : ∑ p ∈ Finset.range N, θ' p * (act N M (fun i => (θ' i - θ i) / dt) p + act N C θ' p +
      act (2 * N) E w p) = 1 / dt * bilin N M (fun i => θ' i - θ i) θ' + quad N C θ' +
      exchange N 2 E θ' w := by
    have e2 : (fun i => (θ' i - θ i) / dt) = fun i => (1 / dt) * (θ' i - θ i) := by funext i; ring
    rw [e2, bilin_symm N M hMN.symm (fun i => θ' i - θ i) θ', ← bilin_smul_right, quad_eq_bilin,
      ← bilin_eq_act, ← bilin_eq_act]
    unfold exchange
    rw [← Finset.sum_add_distrib, ← Finset.sum_add_distrib]
    exact Finset.sum_congr rfl fun p _ => by simp only [act]; ring
  rw [x2, bilin_implicit N M hMN.symm θ' θ two_ne_zero] at h2
  have x3 : exchange N 2 E (fun p => θm p - θ' p) w = exchange N 2 E θm w - exchange N 2 E θ' w := by
    unfold exchange
    rw [← Finset.sum_sub_distrib]
    exact Finset.sum_congr rfl fun p _ => by ring
  have h3 : 1 / 2 * (quad N M θ' - quad N M θ + quad N M fun i => θ' i - θ i) + dt * quad N C θ' +
      dt * exchange N 2 E θ' w = 0 := by
    have := congrArg (dt * ·) h2
    simp only [mul_zero, mul_add, ← mul_assoc, mul_one_div_cancel hdt.ne', one_mul] at this
    linarith
  have h4 := mul_le_mul_of_nonneg_left (sub_nonpos.1 h1) hdt.le
  have h5 : 0 ≤ dt ^ 2 / 2 * quad (2 * N) B w := by positivity
  rw [x3]
  unfold totalEnergy
  rw [e1]
  have h6 : dt * ∑ r ∈ Finset.range (2 * N), w r * (act (2 * N) M (fun i => (w i - v i) / dt) r +
      act (2 * N) A w r + act (2 * N) B (fun i => u i + dt * w i) r - f r) ≤
      dt * exchange N 2 E θm w := h4
  nlinarith [h6, h3, h5, p1, p3]

/-- If the last pass of a step leaves the temperature as it is, the total energy does not grow. -/
theorem energy_converged (N : ℕ) (M A B C E : ℕ → ℕ → K) (hA : Dissipates (2 * N) A)
    (hC : Dissipates N C) (f u v u' v' θ θ' θm : ℕ → K) (dt : K) (hdt : 0 < dt)
    (hconv : ∀ p < N, θm p = θ' p)
    (h : totalEnergy N 2 M B f u' v' θ' + dt * quad (2 * N) A v' + dt * quad N C θ' ≤
      totalEnergy N 2 M B f u v θ + dt * exchange N 2 E (fun p => θm p - θ' p) v') :
    totalEnergy N 2 M B f u' v' θ' ≤ totalEnergy N 2 M B f u v θ := by
  have h0 : exchange N 2 E (fun p => θm p - θ' p) v' = 0 := by
    unfold exchange
    refine Finset.sum_eq_zero fun p hp => ?_
    beta_reduce
    rw [hconv p (Finset.mem_range.1 hp)]; ring
  rw [h0, mul_zero, add_zero] at h
  have h1 := mul_nonneg hdt.le (hA.nonneg v')
  have h2 := mul_nonneg hdt.le (hC.nonneg θ')
  linarith

/-- C94: the energy of one step of a thermoelastic run. The total energy falls by at least what viscosity
and conduction dissipate, up to the power that the change of temperature in the last pass exchanges with
the motion: where the iteration between the two fields has converged the coupling creates no energy. -/
theorem C94_energy_partial (e : CoupledEngine K) (hk : e.first.kind = .dynamicVelocityWithTemperature)
    (hk' : e.second.kind = .temperature) (hst : e.stateKind = .temperature)
    (hops : e.second.ops = e.first.ops) (hdim : e.first.ops.dimension = 2)
    (D D' : ℕ → Prop) [DecidablePred D] [DecidablePred D']
    (hv : ValidBoundaries e.first.ops.nodesCount e.first.boundaries)
    (hd : DirichletData e.first.ops.nodesCount 2 e.first.boundaries D fun _ => 0)
    (hv' : ValidBoundaries e.first.ops.nodesCount e.second.boundaries)
    (hd' : DirichletData e.first.ops.nodesCount 1 e.second.boundaries D' fun _ => 0)
    (f : ℕ → K) (hf : ∀ t, e.first.ops.force t = f)
    (hM : StoresEnergy (2 * e.first.ops.nodesCount) e.first.ops.acceleration)
    (hMN : StoresEnergy e.first.ops.nodesCount e.first.ops.acceleration)
    (hB : StoresEnergy (2 * e.first.ops.nodesCount) e.first.ops.elasticity)
    (fuel : ℕ) (dt : K) (hdt : 0 < dt) (hs : PassiveSolve e.first (2 * e.first.ops.nodesCount) D dt)
    (hs' : ExactSolve e.second e.first.ops.nodesCount dt)
    (r r' : CoupledEngine.Run K V) (hb : CoupledBetween e dt r) (h : e.step fuel r = .ok r') :
    let N := e.first.ops.nodesCount
    let u := State.flatten e.first.grid r.state.displacement
    let v := State.flatten e.first.grid r.state.velocity
    let u' := State.flatten e.first.grid r'.state.displacement
    let v' := State.flatten e.first.grid r'.state.velocity
    ∃ θ θ' m it, r.state.scalar = .temperature θ ∧ r'.state.scalar = .temperature θ' ∧
      5 ≤ m ∧ m ≤ 10 ∧ Passes e u v θ r.coupled.first.pVector dt dt (r.state.time + dt) m it ∧
      v' = (it m).solution ∧ θ' = (it m).solutionT ∧
      totalEnergy N 2 e.first.ops.acceleration e.first.ops.elasticity f u' v' θ' +
        dt * quad (2 * N) e.first.ops.viscosity v' + dt * quad N e.first.ops.thermalConductivity θ' ≤
      totalEnergy N 2 e.first.ops.acceleration e.first.ops.elasticity f u v θ +
        dt * exchange N 2 e.first.ops.thermalExpansion
          (fun p => (it (m - 1)).solutionT p - (it m).solutionT p) v' ∧
      ((∀ p < N, (it (m - 1)).solutionT p = (it m).solutionT p) →
        Dissipates (2 * N) e.first.ops.viscosity → Dissipates N e.first.ops.thermalConductivity →
        totalEnergy N 2 e.first.ops.acceleration e.first.ops.elasticity f u' v' θ' ≤
        totalEnergy N 2 e.first.ops.acceleration e.first.ops.elasticity f u v θ) := by
  intro N u v u' v'
  obtain ⟨hb', hdis, htime, m, it, m5, m10, hp, _, hvel, hT, _⟩ :=
    coupled_step_passes e fuel dt r r' hb h
  have hθ : r.state.scalar = .temperature r.coupled.first.tVector := by rw [hb.scalar, hst]; rfl
  have hθ' : r'.state.scalar = .temperature r'.coupled.first.tVector := by rw [hb'.scalar, hst]; rfl
  obtain ⟨x, x', g1, g2, g3, g4⟩ := heat_step_rows e hk' hst (by rw [hops, hdim]) D' (fun _ => 0)
    (by rw [hops]; exact hv') (by rw [hops]; exact hd') fuel dt hdt.ne' (by rw [hops]; exact hs') r r'
    hb h
  rw [hθ] at g1
  rw [hθ'] at g2
  cases g1
  cases g2
  refine ⟨_, _, m, it, hθ, hθ', m5, m10, hp, hvel, hT, and_iff_left_of_imp (fun hineq hconv hA hC =>
    energy_converged N _ _ _ _ e.first.ops.thermalExpansion hA hC f u v u' v' _ _
      (it (m - 1)).solutionT dt hdt (fun p hp => by rw [hT]; exact hconv p hp)
      (by rw [hT] at hineq ⊢; exact hineq)) |>.2 ?_⟩
  obtain ⟨j, rfl⟩ : ∃ j, m = j + 1 := ⟨m - 1, by omega⟩
  rw [Nat.add_sub_cancel, ← hT]
  have h1 := hp.first j (by omega)
  have h2 := hp.solution j (by omega)
  obtain ⟨hD, hP⟩ := hs (it (j + 1)).first (it j).solution _ rfl h1
  rw [← h2, ← hvel] at hD hP
  rw [hk] at h1
  have h4 : applyDirichlet e.first.ops.nodesCount 2 e.first.boundaries
      ⟨fun r s => e.first.ops.viscosity r s + 1 / dt * e.first.ops.acceleration r s +
          e.first.ops.elasticity r s * dt,
        fun i => e.first.ops.force (r.state.time + dt) i +
          (matVec (e.first.ops.dimension * e.first.ops.nodesCount)
            (fun r s => -1 * e.first.ops.elasticity r s) u i +
          matVec (e.first.ops.dimension * e.first.ops.nodesCount)
            (fun r s => 1 / dt * e.first.ops.acceleration r s) v i) +
          matVec e.first.ops.nodesCount (transposed e.first.ops.thermalExpansion) (it j).solutionT i⟩ =
        (it (j + 1)).first.system := Except.ok.inj h1
  rw [hdim] at h4
  rw [← h4, passive_elimination _ _ _ _ D hv hd _ hD] at hP
  change totalEnergy N 2 _ _ f u' v' _ + _ + _ ≤ _
  rw [show u' = fun i => u i + dt * v' i from hdis]
  refine thermal_energy_step N _ _ _ _ _ hM hMN hB f u v v' r.coupled.first.tVector _ _ dt hdt ?_ ?_
  · refine le_trans (le_of_eq (Finset.sum_congr rfl fun i _ => ?_)) hP
    congr 1
    rw [← dynamic_residual (F := fun i => f i +
      act e.first.ops.nodesCount (fun r s => e.first.ops.thermalExpansion s r) (it j).solutionT i)]
    simp only [hf, act, matVec, transposed]
    ring
  · refine Finset.sum_eq_zero fun p hp' => ?_
    rw [hops] at g3 g4
    by_cases hDp : D' p
    · rw [g3 p (Finset.mem_range.1 hp') hDp]; ring
    · rw [g4 p (Finset.mem_range.1 hp') hDp]
      change _ * (- act (2 * N) _ v' p + act (2 * N) _ v' p) = 0
      ring

omit [IsStrictOrderedRing K] in
/-- Uniform fields meet no resistance from conduction. -/
theorem unresisted_of_conduction {d N : ℕ} {elements : List (List ℕ)} {nodes : ℕ → ℕ → K}
    {feat : (ℕ → ℕ → K) → ℕ → ℕ → List K} {size : (ℕ → ℕ → K) → K}
    {g : (ℕ → ℕ → K) → ℕ → ℕ → K} (h : AllLocal d feat elements nodes size g) {M c : ℕ → ℕ → K}
    (hM : ∀ x y X Y, FieldGradient d elements nodes x X → FieldGradient d elements nodes y Y →
      form N N M x y = conduction d size elements nodes c X Y) (b : K) :
    Unresisted N M fun _ => b := by
  intro s hs
  obtain ⟨Y, hY⟩ := exists_fieldGradient h (single s)
  have := hM (fun _ => b) (single s) _ Y (fieldGradient_const _ _ _ b) hY
  rw [form_single_right M hs] at this
  rw [this]
  exact sumElements_zero fun t _ => by simp

/-- C94: on a triangular mesh uniform fields meet no resistance from conduction, with any conductivity
tensor, and rigid motions bind no heat if the expansion tensor is symmetric. -/
theorem C94_mesh2 {N : ℕ} {elements : List (List ℕ)} {nodes : ℕ → ℕ → K}
    (hv : ValidElements 2 N elements) (hn : Nondegenerate2 elements nodes) (c c' : ℕ → ℕ → K) :
    (∀ b : K, Unresisted N (Plane.conductivity (basicMatrices2 elements nodes).W c) fun _ => b) ∧
    ((∀ a < 2, ∀ k < 2, c' a k = c' k a) → ∀ (M : ℕ → ℕ → K) (z θ u w : ℕ → K), RigidMotion 2 N nodes w →
      heat N 2 M (Plane.thermalExpansion N (basicMatrices2 elements nodes).V c') z θ
        (fun i => u i + w i) =
      heat N 2 M (Plane.thermalExpansion N (basicMatrices2 elements nodes).V c') z θ u) := by
  refine ⟨unresisted_of_conduction (Plane.allLocal hn) fun x y X Y => form_conductivity2 hv hn c x y X Y,
    fun hc M z θ u w hw => ?_⟩
  unfold heat
  refine Finset.sum_congr rfl fun p hp => ?_
  have := (C28_no_net_force2 hv hn c').2.2 hc w hw p (Finset.mem_range.1 hp)
  unfold act at this
  simp only [mul_add, Finset.sum_add_distrib] at this ⊢
  rw [this]; ring

/-- C94: the same on a tetrahedral mesh. -/
theorem C94_mesh3 {N : ℕ} {elements : List (List ℕ)} {nodes : ℕ → ℕ → K}
    (hv : ValidElements 3 N elements) (hn : Nondegenerate3 elements nodes) (c c' : ℕ → ℕ → K) :
    (∀ b : K, Unresisted N (Space.conductivity (basicMatrices3 elements nodes).W c) fun _ => b) ∧
    ((∀ a < 3, ∀ k < 3, c' a k = c' k a) → ∀ (M : ℕ → ℕ → K) (z θ u w : ℕ → K), RigidMotion 3 N nodes w →
      heat N 3 M (Space.thermalExpansion N (basicMatrices3 elements nodes).V c') z θ
        (fun i => u i + w i) =
      heat N 3 M (Space.thermalExpansion N (basicMatrices3 elements nodes).V c') z θ u) := by
  refine ⟨unresisted_of_conduction (Space.allLocal hn) fun x y X Y => form_conductivity3 hv hn c x y X Y,
    fun hc M z θ u w hw => ?_⟩
  unfold heat
  refine Finset.sum_congr rfl fun p hp => ?_
  have := (C28_no_net_force3 hv hn c').2.2 hc w hw p (Finset.mem_range.1 hp)
  unfold act at this
  simp only [mul_add, Finset.sum_add_distrib] at this ⊢
  rw [this]; ring

/-! ### C95 -/

omit [IsStrictOrderedRing K] in
/-- C95: in all states returned by the solver of piezoelectric problems after at least one step the
potential belongs to the displacement of the state: nodes where it is not prescribed carry no charge, and
where it is prescribed it has the prescribed value. -/
theorem C95_charge_free (e : CoupledEngine K) (hk : e.second.kind = .piezoelectric)
    (hst : e.stateKind = .piezoelectric) (hdim : e.second.ops.dimension = 2)
    (D : ℕ → Prop) [DecidablePred D] (g : ℕ → K)
    (hv : ValidBoundaries e.second.ops.nodesCount e.second.boundaries)
    (hd : DirichletData e.second.ops.nodesCount 1 e.second.boundaries D g)
    (fuel : ℕ) (a : Engine.Arguments K) (φ₀ : ℕ → K) (first second : SolverState K)
    (hc : first.currentTime = 0) (hts : second.timeStep = first.timeStep)
    (hs : ExactSolve e.second e.second.ops.nodesCount first.timeStep) (store : ProductStore K V)
    (rs : List (State K)) (r : CoupledEngine.Run K V)
    (h : e.solve fuel a φ₀ first second store = .ok (rs, r)) (s : State K) (hmem : s ∈ rs)
    (hlater : 0 < s.time) :
    ∃ φ, s.scalar = .potential φ ∧
      (∀ p < e.second.ops.nodesCount, D p → φ p = g p) ∧
      ∀ p < e.second.ops.nodesCount, ¬ D p →
        charge e.second.ops.nodesCount 2 e.second.ops.permittivity e.second.ops.piezoelectricity φ
          (State.flatten e.first.grid s.displacement) p = 0 := by
  obtain ⟨q, _, h1, rfl⟩ := coupled_invariant e fuel a φ₀ first second store hc hts
    (fun q => 0 < q.state.time → ∃ φ, q.state.scalar = .potential φ ∧
      (∀ p < e.second.ops.nodesCount, D p → φ p = g p) ∧
      ∀ p < e.second.ops.nodesCount, ¬ D p →
        charge e.second.ops.nodesCount 2 e.second.ops.permittivity e.second.ops.piezoelectricity φ
          (State.flatten e.first.grid q.state.displacement) p = 0)
    (fun c s h0 hb => by
      obtain ⟨_, _, h3, _⟩ := coupled_between_start e a φ₀ first second store hc hts c s h0
      intro hlt
      change 0 < s.time at hlt
      rw [h3] at hlt
      exact absurd hlt (lt_irrefl _))
    (fun q q' hb hq hstep _ => by
      obtain ⟨hb', _, _, _, _, _, S', guess', _, _, hu, _, hP⟩ :=
        coupled_between_step e fuel _ q q' hb hstep
      refine ⟨q'.coupled.first.pVector, by rw [hb'.scalar, hst]; rfl, ?_⟩
      have hsol := hs S' guess' _ rfl hu
      rw [hk] at hu
      obtain ⟨S, hS, hiff⟩ := C35_potential e.second.ops e.second.boundaries D g hdim hv hd
        (State.flatten e.first.grid q'.state.displacement)
        { displacement := some (State.flatten e.first.grid q'.state.displacement)
          velocity := some (State.flatten e.first.grid q'.state.velocity)
          temperature := some q.coupled.first.tVector
          electricPotential := some q.coupled.first.pVector, timeStep := some first.timeStep } rfl
      rw [hu] at hS
      cases hS
      rw [← hP] at hsol
      obtain ⟨h1, h2⟩ := (hiff _).1 hsol
      exact ⟨h1, fun p hp hD => sub_eq_zero.2 (h2 p hp hD)⟩) rs r h s hmem
  exact h1 hlater

/-- C95: whatever the potential and the displacement are, the charges of all nodes add up to zero if
neither a uniform potential nor its gradient acts. -/
theorem charge_sum (N : ℕ) (β P : ℕ → ℕ → K) (φ u : ℕ → K)
    (hβ : Unresisted N β fun _ => 1) (hP : ∀ s < 2 * N, ∑ p ∈ Finset.range N, P p s = 0) :
    ∑ p ∈ Finset.range N, charge N 2 β P φ u p = 0 := by
  have h1 := unresisted_sum hβ φ
  have h2 : ∑ p ∈ Finset.range N, ∑ s ∈ Finset.range (2 * N), P p s * u s = 0 := by
    rw [Finset.sum_comm]
    refine Finset.sum_eq_zero fun s hs => ?_
    rw [← Finset.sum_mul, hP s (Finset.mem_range.1 hs), zero_mul]
  unfold charge
  rw [Finset.sum_sub_distrib, h2, sub_zero]
  simpa [act] using h1

/-- C95: on every triangular mesh, with any material, the charges add up to zero. -/
theorem C95_neutral {N : ℕ} {elements : List (List ℕ)} {nodes : ℕ → ℕ → K}
    (hv : ValidElements 2 N elements) (hn : Nondegenerate2 elements nodes) (c : ℕ → ℕ → K)
    (c' : ℕ → ℕ → ℕ → K) (φ u : ℕ → K) :
    ∑ p ∈ Finset.range N, charge N 2 (Plane.conductivity (basicMatrices2 elements nodes).W c)
      (Plane.piezoelectricTensor N (basicMatrices2 elements nodes).W c') φ u p = 0 := by
  refine charge_sum N _ _ φ u ((C94_mesh2 hv hn c fun _ _ => 0).1 1) fun s hs => ?_
  have := (C63_rigid hv hn c').2.2.1 1 s hs
  simpa [act, transposed] using this

/-- C95: in all states returned after at least one step by the solver of piezoelectric problems with the
operators of a triangular mesh, the charges of the electrodes, the nodes where the potential is
prescribed, add up to zero. -/
theorem C95_electrodes {N : ℕ} {elements : List (List ℕ)} {nodes : ℕ → ℕ → K}
    (hve : ValidElements 2 N elements) (hn : Nondegenerate2 elements nodes) (c : ℕ → ℕ → K)
    (c' : ℕ → ℕ → ℕ → K) (e : CoupledEngine K) (hN : e.second.ops.nodesCount = N)
    (hβ : e.second.ops.permittivity = Plane.conductivity (basicMatrices2 elements nodes).W c)
    (hP : e.second.ops.piezoelectricity =
      Plane.piezoelectricTensor N (basicMatrices2 elements nodes).W c')
    (hk : e.second.kind = .piezoelectric)
    (hst : e.stateKind = .piezoelectric) (hdim : e.second.ops.dimension = 2)
    (D : ℕ → Prop) [DecidablePred D] (g : ℕ → K)
    (hv : ValidBoundaries e.second.ops.nodesCount e.second.boundaries)
    (hd : DirichletData e.second.ops.nodesCount 1 e.second.boundaries D g)
    (fuel : ℕ) (a : Engine.Arguments K) (φ₀ : ℕ → K) (first second : SolverState K)
    (hc : first.currentTime = 0) (hts : second.timeStep = first.timeStep)
    (hs : ExactSolve e.second e.second.ops.nodesCount first.timeStep) (store : ProductStore K V)
    (rs : List (State K)) (r : CoupledEngine.Run K V)
    (h : e.solve fuel a φ₀ first second store = .ok (rs, r)) (s : State K) (hmem : s ∈ rs)
    (hlater : 0 < s.time) :
    ∃ φ, s.scalar = .potential φ ∧
      ∑ p ∈ (Finset.range N).filter D, charge N 2 e.second.ops.permittivity
        e.second.ops.piezoelectricity φ (State.flatten e.first.grid s.displacement) p = 0 := by
  obtain ⟨φ, h1, _, h3⟩ := C95_charge_free e hk hst hdim D g hv hd fuel a φ₀ first second hc hts hs
    store rs r h s hmem hlater
  refine ⟨φ, h1, ?_⟩
  have h4 := C95_neutral hve hn c c' φ (State.flatten e.first.grid s.displacement)
  rw [← hβ, ← hP] at h4
  rw [Finset.sum_filter]
  refine Eq.trans (Finset.sum_congr rfl fun p hp => ?_) h4
  rw [hN] at h3
  by_cases hD : D p
  · rw [if_pos hD]
  · rw [if_neg hD]; exact (h3 p (Finset.mem_range.1 hp) hD).symm

end

/-! ### Instances -/

/-- One node without stiffness, of unit mass and heat capacity, whose first coordinate exchanges heat
with coefficient `c`; both solvers return the solution of their system. -/
def hotOps (c : ℚ) : Operators ℚ :=
  { nodesCount := 1, dimension := 2, elasticity := fun _ _ => 0, viscosity := fun _ _ => 0
    acceleration := fun r s => if r = s then 1 else 0, poisson := fun _ _ => 0
    thermalExpansion := fun _ s => if s = 0 then c else 0, thermalConductivity := fun _ _ => 0
    permittivity := fun _ _ => 0, piezoelectricity := fun _ _ => 0
    relaxation := fun _ => .ok fun _ _ => 0, force := fun _ _ => 0, bodyTemperature := fun _ _ => 0 }

def hotEngine (c : ℚ) : CoupledEngine ℚ where
  first :=
    { grid := { nodesCount := 1, dimension := 2, nodes := fun _ _ => 0 }, cls := .dynamicGlobal
      kind := .dynamicVelocityWithTemperature, ops := hotOps c, boundaries := []
      solve := fun s _ => s.system.rhs }
  second :=
    { grid := { nodesCount := 1, dimension := 2, nodes := fun _ _ => 0 }, cls := .dynamicGlobal
      kind := .temperature, ops := hotOps c, boundaries := [], solve := fun s _ => s.system.rhs }
  stateKind := .temperature
  exceeds := fun x x' t t' =>
    decide ((x 0 - x' 0) ^ 2 + (x 1 - x' 1) ^ 2 + (t 0 - t' 0) ^ 2 > 1 / 1000000)

def hotSolver : SolverState ℚ :=
  { timeStep := 1, currentTime := 0, bVector := fun _ => 0, uVector := fun _ => 0
    vVector := fun _ => 0, tVector := fun _ => 0, pVector := fun _ => 0
    system := ⟨fun r s => if r = s then 1 else 0, fun _ => 0⟩, schur := none }

def hotArguments (os : List ℤ) : Engine.Arguments ℚ :=
  { nSteps := 3, outputStep := os, initialAbsement := fun _ _ => 0
    initialDisplacement := fun _ _ => 0, initialVelocity := fun _ _ => 0, products := [] }

theorem hot_exact (c : ℚ) : ExactSolve (hotEngine c).first 2 1 ∧ ExactSolve (hotEngine c).second 1 1 := by
  constructor
  · intro S guess var hdt h
    have hl : ∃ rhs, S.system = ⟨fun r s => 0 + 1 / 1 * (if r = s then 1 else 0) + 0 * 1, rhs⟩ := by
      simp only [hotEngine, StatementKind.update, updateLhs, dynamicLhs, hdt, required, bind, Except.bind]
        at h
      split at h
      · cases h
      · rename_i lhs hlhs
        cases hlhs
        split at h
        · cases h
        · rename_i rhs _
          exact ⟨rhs, (Except.ok.inj h).symm⟩
    obtain ⟨rhs, hl⟩ := hl
    intro r hr
    show ∑ s ∈ Finset.range 2, S.system.lhs r s * S.system.rhs s = S.system.rhs r
    rw [hl]
    simp [hr]
  · intro S guess var hdt h
    have hl : ∃ rhs, S.system = ⟨fun r s => 1 / 1 * (if r = s then 1 else 0) + 0, rhs⟩ := by
      simp only [hotEngine, StatementKind.update, updateLhs, hdt, required, bind, Except.bind] at h
      split at h
      · cases h
      · rename_i lhs hlhs
        cases hlhs
        split at h
        · cases h
        · rename_i rhs _
          exact ⟨rhs, (Except.ok.inj h).symm⟩
    obtain ⟨rhs, hl⟩ := hl
    intro r hr
    show ∑ s ∈ Finset.range 1, S.system.lhs r s * S.system.rhs s = S.system.rhs r
    obtain rfl : r = 0 := by omega
    rw [hl]
    simp

/-- What can be compared of a run: temperature, displacement, velocity. -/
def hotSummary (r : Except (RunError StatementError) (List (State ℚ) × CoupledEngine.Run ℚ ℚ)) :
    List (ℚ × ℚ × ℚ) :=
  match r with
  | .ok (rs, _) => rs.map fun s =>
    (match s.scalar with | .temperature θ => θ 0 | _ => 0, s.displacement 0 0, s.velocity 0 0)
  | .error _ => []

/-- The hypotheses of `C94_heat` are met by an engine whose temperature moves the body: after every step
temperature plus one quarter of the displacement is the initial temperature. -/
example : ExactSolve (hotEngine (1 / 4)).second 1 hotSolver.timeStep ∧
    DirichletData 1 1 (hotEngine (1 / 4)).second.boundaries (fun _ => False) (fun _ => (0 : ℚ)) ∧
    Unresisted 1 (hotOps (1 / 4)).thermalConductivity (fun _ => 1) ∧
    ((hotSummary ((hotEngine (1 / 4)).solve 11 (hotArguments [1, 3]) (fun _ => 1) hotSolver hotSolver
      lineStore)).map fun x => x.1 + x.2.1 / 4) = [1, 1] := by
  refine ⟨(hot_exact _).2, ⟨fun x => ?_, fun x v h => ?_⟩, fun s _ => by simp [hotOps],
    by decide +kernel⟩
  · simp only [false_iff, not_exists]
    rintro v ⟨b, hb, _⟩
    cases hb
  · obtain ⟨b, hb, _⟩ := h
    cases hb

/-- The total energies of the returned states. -/
def hotEnergies (c : ℚ) (r : Except (RunError StatementError) (List (State ℚ) × CoupledEngine.Run ℚ ℚ)) :
    List ℚ :=
  match r with
  | .ok (rs, _) => rs.map fun s =>
    totalEnergy 1 2 (hotOps c).acceleration (hotOps c).elasticity (fun _ => 0)
      (State.flatten (hotEngine c).first.grid s.displacement)
      (State.flatten (hotEngine c).first.grid s.velocity)
      (match s.scalar with | .temperature θ => θ | _ => fun _ => 0)
  | .error _ => []

/-- C94: the energy is not bounded by its initial value, although both systems are solved exactly in
every pass, there are no loads and nothing is prescribed: for a strong coupling the passes diverge and
the tenth is returned. Here the temperature starts with one, and one step multiplies the energy `1 / 2`
by more than a hundred thousand millions; with a weak coupling it falls. -/
theorem C94_energy_wrong :
    ExactSolve (hotEngine 2).first 2 1 ∧ ExactSolve (hotEngine 2).second 1 1 ∧
    StoresEnergy 2 (hotOps 2).acceleration ∧ StoresEnergy 1 (hotOps 2).acceleration ∧
    (∃ x y, hotEnergies 2 ((hotEngine 2).solve 11 (hotArguments [0, 1]) (fun _ => 1) hotSolver hotSolver
      lineStore) = [x, y] ∧ x = 1 / 2 ∧ y > 100000000000 * x) ∧
    ∃ x y, hotEnergies (1 / 4) ((hotEngine (1 / 4)).solve 11 (hotArguments [0, 1]) (fun _ => 1) hotSolver
      hotSolver lineStore) = [x, y] ∧ x = 1 / 2 ∧ y < x := by
  refine ⟨(hot_exact 2).1, (hot_exact 2).2, ⟨fun r _ s _ => ?_, fun x => ?_⟩,
    ⟨fun r _ s _ => ?_, fun x => ?_⟩, ?_, ?_⟩
  · simp only [hotOps, eq_comm]
  · simp only [hotOps, quad, Finset.sum_range_succ, Finset.sum_range_zero]
    norm_num
    nlinarith [mul_self_nonneg (x 0), mul_self_nonneg (x 1)]
  · simp only [hotOps, eq_comm]
  · simp [hotOps, quad]
    nlinarith [mul_self_nonneg (x 0)]
  · refine ⟨(hotEnergies 2 ((hotEngine 2).solve 11 (hotArguments [0, 1]) (fun _ => 1) hotSolver hotSolver
      lineStore)).getD 0 0, (hotEnergies 2 ((hotEngine 2).solve 11 (hotArguments [0, 1]) (fun _ => 1)
      hotSolver hotSolver lineStore)).getD 1 0, ?_⟩
    decide +kernel
  · refine ⟨(hotEnergies (1 / 4) ((hotEngine (1 / 4)).solve 11 (hotArguments [0, 1]) (fun _ => 1) hotSolver
      hotSolver lineStore)).getD 0 0, (hotEnergies (1 / 4) ((hotEngine (1 / 4)).solve 11
      (hotArguments [0, 1]) (fun _ => 1) hotSolver hotSolver lineStore)).getD 1 0, ?_⟩
    decide +kernel

/-- The hypotheses of `C94_energy_partial` on the solvers and on the beginning of a step are met by this
engine. -/
example : PassiveSolve (hotEngine (1 / 4)).first 2 (fun _ => False) 1 ∧
    ExactSolve (hotEngine (1 / 4)).second 1 1 ∧
    ∃ r r' : CoupledEngine.Run ℚ ℚ, CoupledBetween (hotEngine (1 / 4)) 1 r ∧
      (hotEngine (1 / 4)).step 11 r = .ok r' := by
  refine ⟨fun S guess var hdt h => ⟨fun _ _ h => absurd h id, passive_of_solves _ _ _
    ((hot_exact _).1 S guess var hdt h)⟩, (hot_exact _).2, ?_⟩
  have key : (match (hotEngine (1 / 4)).start (hotArguments []) (fun _ => 1) hotSolver hotSolver with
    | .ok (c, s) => (match (hotEngine (1 / 4)).step 11 ⟨c, s, lineStore⟩ with
      | .ok _ => true
      | .error _ => false)
    | .error _ => false) = true := by decide +kernel
  split at key
  · rename_i c s h
    split at key
    · rename_i r' h'
      exact ⟨_, r', (coupled_between_start (hotEngine (1 / 4)) _ _ hotSolver hotSolver lineStore rfl rfl c s
        h).1, h'⟩
    · cases key
  · cases key

/-- A triangle with two electrodes at different potentials and one free node. -/
def electrodeNodes : ℕ → ℕ → ℚ := fun p k => if p = k then 1 else 0

def electrodeBoundaries : List (CondBoundary ℚ) :=
  [{ indices := .slice 0 2, condition := fun j => (j : ℚ) * 3 + 1 }]

def electrodeOps : Operators ℚ :=
  { hotOps 0 with
    nodesCount := 3
    permittivity := Plane.conductivity (basicMatrices2 [[2, 0, 1]] electrodeNodes).W
      fun k l => if k = l then 1 else 0
    piezoelectricity := Plane.piezoelectricTensor 3 (basicMatrices2 [[2, 0, 1]] electrodeNodes).W
      fun a k l => a + 2 * k + 3 * l }

/-- The displacement is that of the first system, whose matrix is the identity. -/
def electrodeEngine : CoupledEngine ℚ where
  first :=
    { grid := { nodesCount := 3, dimension := 2, nodes := electrodeNodes }, cls := .quasistaticGlobal
      kind := .quasistaticVelocityWithPiezoelectric, ops := electrodeOps, boundaries := []
      solve := fun _ _ i => (i : ℚ) ^ 2 }
  second :=
    { grid := { nodesCount := 3, dimension := 2, nodes := electrodeNodes }, cls := .quasistaticGlobal
      kind := .piezoelectric, ops := electrodeOps, boundaries := electrodeBoundaries
      solve := fun s _ => s.system.rhs }
  stateKind := .piezoelectric
  exceeds := fun _ _ _ _ => true

theorem electrode_data : ValidBoundaries 3 electrodeBoundaries ∧
    DirichletData 3 1 electrodeBoundaries (fun x => x < 2) fun x => (x : ℚ) * 3 + 1 := by
  refine ⟨fun b hb => ?_, ⟨fun x => ?_, fun x v h => ?_⟩⟩
  · simp only [electrodeBoundaries, List.mem_singleton] at hb
    subst hb
    exact ⟨by decide, fun i h => by cases h⟩
  · constructor
    · intro h
      refine ⟨(x : ℚ) * 3 + 1, _, List.mem_singleton.2 rfl, 0, by omega, x, x, ?_, by omega, rfl⟩
      interval_cases x <;> rfl
    · rintro ⟨v, b, hb, d, hd, j, node, h1, rfl, _⟩
      simp only [electrodeBoundaries, List.mem_singleton] at hb
      subst hb
      have := List.mem_of_getElem? h1
      simp [nodesOf] at this
      omega
  · obtain ⟨b, hb, d, hd, j, node, h1, rfl, rfl⟩ := h
    simp only [electrodeBoundaries, List.mem_singleton] at hb
    subst hb
    simp only [nodesOf] at h1
    rw [List.getElem?_eq_some_iff] at h1
    obtain ⟨hj, rfl⟩ := h1
    obtain rfl : d = 0 := by omega
    simp

theorem electrode_exact : ExactSolve electrodeEngine.second 3 1 := by
  intro S guess var hdt h
  have hl : ∃ rhs, applyDirichlet 3 1 electrodeBoundaries ⟨electrodeOps.permittivity, rhs⟩ = S.system := by
    simp only [electrodeEngine, StatementKind.update, updateLhs, bind, Except.bind] at h
    split at h
    · cases h
    · rename_i rhs _
      exact ⟨rhs, Except.ok.inj h⟩
  obtain ⟨rhs, hl⟩ := hl
  intro r hr
  show ∑ s ∈ Finset.range 3, S.system.lhs r s * S.system.rhs s = S.system.rhs r
  have h1 := fun s => (C14_all_at_once_partial 3 1 electrodeBoundaries ⟨electrodeOps.permittivity, rhs⟩ _ _
    electrode_data.1 electrode_data.2 r).1 s
  rw [hl] at h1
  have h2 : electrodeOps.permittivity 2 2 = 1 := by decide +kernel
  rw [Finset.sum_eq_single r]
  · rw [h1]
    interval_cases r <;> simp [h2]
  · intro s hs hne
    have hs := Finset.mem_range.1 hs
    rw [h1]
    interval_cases r <;> interval_cases s <;> simp_all
  · intro h; exact absurd (Finset.mem_range.2 hr) h

/-- The charges of the returned states, for the two electrodes and the free node. -/
def electrodeCharges (r : Except (RunError StatementError) (List (State ℚ) × CoupledEngine.Run ℚ ℚ)) :
    List (List ℚ) :=
  match r with
  | .ok (rs, _) => rs.map fun s => (List.range 3).map fun p =>
    charge 3 2 electrodeOps.permittivity electrodeOps.piezoelectricity
      (match s.scalar with | .potential φ => φ | _ => fun _ => 0)
      (State.flatten electrodeEngine.first.grid s.displacement) p
  | .error _ => []

/-- The hypotheses of `C95_electrodes` are met; the charges of the electrodes are opposite and change. The
first state returned here is the initial one, where the free node carries a charge, for the initial
potential need not belong to the initial displacement. -/
example : ExactSolve electrodeEngine.second 3 hotSolver.timeStep ∧
    ValidElements 2 3 [[2, 0, 1]] ∧ Nondegenerate2 [[2, 0, 1]] electrodeNodes ∧
    electrodeCharges (electrodeEngine.solve 11 (hotArguments [0, 1, 3]) (fun i => (i : ℚ) ^ 2) hotSolver
      hotSolver lineStore) = [[-2, -3 / 2, 7 / 2], [-67 / 4, 67 / 4, 0],
        [-195 / 4, 195 / 4, 0]] := by
  refine ⟨electrode_exact, by unfold ValidElements; decide, ?_, by decide +kernel⟩
  unfold Nondegenerate2
  decide +kernel

end Conmech
