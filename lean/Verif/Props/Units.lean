import Verif.Spec.Units
import Verif.Props.CarriedRuns
/-!
C125: simulations do not depend on the units of measurement.
-/
namespace Conmech
open Spec

section
variable {K : Type} [Field K] [LinearOrder K] [IsStrictOrderedRing K] {n : ℕ}

omit [LinearOrder K] [IsStrictOrderedRing K] in
theorem scaled_act {A A' : ℕ → ℕ → K} {a b : K} (hA : ∀ r < n, ∀ s < n, A' r s = a * A r s) {x x' : ℕ → K}
    (hx : ∀ i < n, x' i = b * x i) {r : ℕ} (hr : r < n) : act n A' x' r = a * b * act n A x r := by
  unfold act
  rw [Finset.mul_sum]
  exact Finset.sum_congr rfl fun s hs => by
    rw [hA r hr s (Finset.mem_range.1 hs), hx s (Finset.mem_range.1 hs)]; ring

/-- The velocities after a step in the new units. -/
theorem units_step (c : UnitChange K) (hl : c.length ≠ 0) (hτ : c.time ≠ 0) (hm : c.mass ≠ 0) {D : ℕ → Prop}
    {M A B M' A' B' : ℕ → ℕ → K} (sM : ∀ r < n, ∀ s < n, M' r s = c.mass * M r s)
    (sA : ∀ r < n, ∀ s < n, A' r s = c.mass / c.time * A r s)
    (sB : ∀ r < n, ∀ s < n, B' r s = c.mass / c.time ^ 2 * B r s) {f f' : ℕ → K}
    (sf : ∀ r < n, ¬ D r → f' r = c.force * f r)
    (hM : Dissipates n M) (hA : Dissipates n A) (hB : Dissipates n B)
    (hdef : DefiniteOn n D M ∨ DefiniteOn n D A) {dt : K} (hdt : 0 < dt)
    {u v w u' v' w' : ℕ → K} (hu : ∀ r < n, u' r = c.length * u r) (hv : ∀ r < n, v' r = c.speed * v r)
    (hw : ∀ r < n, D r → w r = 0) (hw' : ∀ r < n, D r → w' r = 0)
    (h : ∀ r < n, ¬ D r → act n M (fun i => (w i - v i) / dt) r + act n A w r +
      act n B (fun i => u i + dt * w i) r = f r)
    (h' : ∀ r < n, ¬ D r → act n M' (fun i => (w' i - v' i) / (c.time * dt)) r + act n A' w' r +
      act n B' (fun i => u' i + c.time * dt * w' i) r = f' r) :
    ∀ r < n, w' r = c.speed * w r := by
  have hd := hdt.ne'
  have key := carried_step (same_carries n D) (fun _ _ => rfl) (fun _ _ => rfl) (fun _ _ => rfl)
    (fun _ => rfl) hM hA hB hdef hdt (u := u) (v := v) (u' := u) (v' := v) (w := w)
    (w' := fun i => c.time / c.length * w' i) (f := f) (f' := f) (fun _ _ => rfl) (fun _ _ => rfl) hw
    (fun r hr hD => by beta_reduce; rw [hw' r hr hD, mul_zero]) h fun r hr hD => by
      have e := h' r hr hD
      rw [scaled_act sM (x := fun i => (c.time / c.length * w' i - v i) / dt) (b := c.length / c.time ^ 2)
          (fun i hi => by rw [hv i hi, UnitChange.speed]; field_simp) hr,
        scaled_act sA (x := fun i => c.time / c.length * w' i) (b := c.length / c.time)
          (fun i hi => by field_simp) hr,
        scaled_act sB (x := fun i => u i + dt * (c.time / c.length * w' i)) (b := c.length)
          (fun i hi => by rw [hu i hi]; field_simp) hr, sf r hr hD, UnitChange.force] at e
      have hF : c.mass * c.length / c.time ^ 2 ≠ 0 := div_ne_zero (mul_ne_zero hm hl) (pow_ne_zero _ hτ)
      refine mul_left_cancel₀ hF (Eq.trans ?_ e)
      ring
  intro r hr
  have := key r hr
  beta_reduce at this
  rw [← this, UnitChange.speed]
  field_simp

/-- The same state in the new units. -/
def InUnits (n : ℕ) (c : UnitChange K) (grid grid' : Grid K) (s s' : Snapshot K) : Prop :=
  s'.time = c.time * s.time ∧
  (∀ r < n, State.flatten grid' s'.displacement r = c.length * State.flatten grid s.displacement r) ∧
  ∀ r < n, State.flatten grid' s'.velocity r = c.speed * State.flatten grid s.velocity r

variable {V : Type}

theorem units_run (c : UnitChange K) (hτ : c.time ≠ 0) (e e' : Engine K) (a a' : Engine.Arguments K)
    (hsteps : a'.nSteps = a.nSteps) (hout : a'.outputStep = a.outputStep)
    (hu : ∀ r < n, State.flatten e'.grid a'.initialDisplacement r =
      c.length * State.flatten e.grid a.initialDisplacement r)
    (hv : ∀ r < n, State.flatten e'.grid a'.initialVelocity r = c.speed * State.flatten e.grid a.initialVelocity r)
    (solver solver' : SolverState K) (hc : solver.currentTime = 0) (hc' : solver'.currentTime = 0)
    (hdt : solver'.timeStep = c.time * solver.timeStep)
    (hstep : ∀ s t : Simulation K V, Between e solver.timeStep s.solver s.state.toSnapshot →
      e.step .velocity s = .ok t → Between e solver.timeStep t.solver t.state.toSnapshot ∧
        ∀ i j, t.state.displacement i j = s.state.displacement i j + solver.timeStep * t.state.velocity i j)
    (hstep' : ∀ s t : Simulation K V, Between e' (c.time * solver.timeStep) s.solver s.state.toSnapshot →
      e'.step .velocity s = .ok t → Between e' (c.time * solver.timeStep) t.solver t.state.toSnapshot ∧
        ∀ i j, t.state.displacement i j =
          s.state.displacement i j + c.time * solver.timeStep * t.state.velocity i j)
    (hvel : ∀ s s' t t' : Simulation K V, Between e solver.timeStep s.solver s.state.toSnapshot →
      Between e' (c.time * solver.timeStep) s'.solver s'.state.toSnapshot →
      InUnits n c e.grid e'.grid s.state.toSnapshot s'.state.toSnapshot →
      e.step .velocity s = .ok t → e'.step .velocity s' = .ok t' →
      ∀ r < n, State.flatten e'.grid t'.state.velocity r = c.speed * State.flatten e.grid t.state.velocity r)
    (store store' : ProductStore K V) (rs rs' : List (State K)) (sim sim' : Simulation K V)
    (h : e.timeDependentSolve a solver store = .ok (rs, sim))
    (h' : e'.timeDependentSolve a' solver' store' = .ok (rs', sim')) :
    List.Forall₂ (fun s s' => InUnits n c e.grid e'.grid s.toSnapshot s'.toSnapshot) rs rs' := by
  rw [Engine.timeDependentSolve_eq] at h h'
  obtain ⟨s0, hs, h⟩ := bind_inv _ _ _ h
  obtain ⟨s0', hs', h'⟩ := bind_inv _ _ _ h'
  rw [hsteps, hout] at h'
  obtain ⟨s, h1, rfl⟩ := ok_of_bind _ _ _ hs
  obtain ⟨s', h1', rfl⟩ := ok_of_bind _ _ _ hs'
  have hit := e.iterate_ok _ _ h1
  have hit' := e'.iterate_ok _ _ h1'
  refine outputs_pair e e' .velocity a.products a'.products
    (fun x p y q => Between e solver.timeStep x p ∧ Between e' (c.time * solver.timeStep) y q ∧
      InUnits n c e.grid e'.grid p q) (InUnits n c e.grid e'.grid) (fun _ _ _ _ hr => hr.2.2) ?_ _ _ _ _ _ _ _
    ⟨⟨⟨_, h1⟩, by rw [hit], by rw [hit], by rw [hit]; exact hc.symm, by rw [hit]⟩,
      ⟨⟨_, h1'⟩, by rw [hit'], by rw [hit'], by rw [hit']; exact hc'.symm, by rw [hit']; exact hdt⟩,
      ⟨(mul_zero c.time).symm, hu, hv⟩⟩ h h'
  rintro p p' q q' ⟨b1, b2, b3⟩ k1 k2
  obtain ⟨c1, d1⟩ := hstep p q b1 k1
  obtain ⟨c2, d2⟩ := hstep' p' q' b2 k2
  have hw := hvel p p' q q' b1 b2 b3 k1 k2
  refine ⟨c1, c2, ?_, fun r hr => ?_, hw⟩
  · have t1 := between_time e _ p q b1 k1
    have t2 := between_time e' _ p' q' b2 k2
    have t3 : p'.state.time = c.time * p.state.time := b3.1
    change q'.state.time = c.time * q.state.time
    rw [t1, t2, t3]
    ring
  · have g1 : State.flatten e.grid q.state.displacement r = State.flatten e.grid p.state.displacement r +
        solver.timeStep * State.flatten e.grid q.state.velocity r := d1 _ _
    have g2 : State.flatten e'.grid q'.state.displacement r = State.flatten e'.grid p'.state.displacement r +
        c.time * solver.timeStep * State.flatten e'.grid q'.state.velocity r := d2 _ _
    change State.flatten e'.grid q'.state.displacement r = c.length * State.flatten e.grid q.state.displacement r
    have g3 : State.flatten e'.grid p'.state.displacement r =
        c.length * State.flatten e.grid p.state.displacement r := b3.2.1 r hr
    rw [g2, g3, hw r hr, g1, UnitChange.speed]
    field_simp

omit [LinearOrder K] [IsStrictOrderedRing K] in
theorem identity_orthogonal (d : ℕ) : Orthogonal d (fun k l => if k = l then (1 : K) else 0) := by
  intro i hi j hj
  constructor <;> simp [hi, hj, eq_comm]

omit [LinearOrder K] [IsStrictOrderedRing K] in
/-- Every coordinate is multiplied. -/
theorem units_nodes (c : UnitChange K) (d : ℕ) (x : ℕ → ℕ → K) (p k : ℕ) (hk : k < d) :
    c.nodes d x p k = c.length * x p k := by
  simp [UnitChange.nodes, similar, hk]

/-- C125: the operators of a plane body in other units. -/
theorem C125_operators2 {N : ℕ} {elements : List (List ℕ)} {nodes : ℕ → ℕ → K} (hn : Nondegenerate2 elements nodes)
    (c : UnitChange K) (hl : c.length ≠ 0) (hτ : c.time ≠ 0) (density mu lam : K) (r s : ℕ) :
    let m := basicMatrices2 elements nodes
    let m' := basicMatrices2 elements (c.nodes 2 nodes)
    Plane.acceleration N m'.U (c.density 2 * density) r s = c.mass * Plane.acceleration N m.U density r s ∧
    Plane.constitutive N m'.W (c.modulus 2 * mu) (c.modulus 2 * lam) r s =
      c.mass / c.time ^ 2 * Plane.constitutive N m.W mu lam r s ∧
    Plane.constitutive N m'.W (c.viscosity 2 * mu) (c.viscosity 2 * lam) r s =
      c.mass / c.time * Plane.constitutive N m.W mu lam r s := by
  intro m m'
  have key := fun p q => (C90_similar2 hn (identity_orthogonal 2) hl fun _ => 0).2 p q
  have hU : ∀ p q, m'.U p q = c.length ^ 2 * m.U p q := fun p q => (key p q).2.1
  have hW : ∀ k < 2, ∀ l < 2, ∀ p q, m'.W k l p q = m.W k l p q := fun k hk l hl p q => by
    refine ((key p q).2.2.2 k hk l hl).trans ?_
    interval_cases k <;> interval_cases l <;> simp [Finset.sum_range_succ, m]
  have h00 := hW 0 (by norm_num) 0 (by norm_num)
  have h01 := hW 0 (by norm_num) 1 (by norm_num)
  have h10 := hW 1 (by norm_num) 0 (by norm_num)
  have h11 := hW 1 (by norm_num) 1 (by norm_num)
  have hmod : c.modulus 2 = c.mass / c.time ^ 2 := by
    rw [UnitChange.modulus, UnitChange.force, show 2 - 1 = 1 from rfl]
    field_simp
  have hvis : c.viscosity 2 = c.mass / c.time := by
    rw [UnitChange.viscosity, hmod]
    field_simp
  refine ⟨?_, ?_, ?_⟩
  · simp only [Plane.acceleration, block, UnitChange.density]
    split <;> simp only [hU, mul_zero] <;> field_simp
  · simp only [Plane.constitutive, block, hmod]
    split <;> simp only [h00, h01, h10, h11, mul_zero] <;> ring
  · simp only [Plane.constitutive, block, hvis]
    split <;> simp only [h00, h01, h10, h11, mul_zero] <;> ring

/-- C125: the operators of a body in space in other units. -/
theorem C125_operators3 {N : ℕ} {elements : List (List ℕ)} {nodes : ℕ → ℕ → K} (hn : Nondegenerate3 elements nodes)
    (c : UnitChange K) (hl : 0 < c.length) (hτ : c.time ≠ 0) (density mu lam : K) (r s : ℕ) :
    let m := basicMatrices3 elements nodes
    let m' := basicMatrices3 elements (c.nodes 3 nodes)
    Space.acceleration N m'.U (c.density 3 * density) r s = c.mass * Space.acceleration N m.U density r s ∧
    Space.constitutive N m'.W (c.modulus 3 * mu) (c.modulus 3 * lam) r s =
      c.mass / c.time ^ 2 * Space.constitutive N m.W mu lam r s ∧
    Space.constitutive N m'.W (c.viscosity 3 * mu) (c.viscosity 3 * lam) r s =
      c.mass / c.time * Space.constitutive N m.W mu lam r s := by
  intro m m'
  have hl' := hl.ne'
  have key := fun p q => (C90_similar3 hn (identity_orthogonal 3) hl fun _ => 0).2 p q
  have hU : ∀ p q, m'.U p q = c.length ^ 3 * m.U p q := fun p q => (key p q).2.1
  have hW : ∀ k < 3, ∀ l < 3, ∀ p q, m'.W k l p q = c.length * m.W k l p q := fun k hk l hl p q => by
    refine ((key p q).2.2.2 k hk l hl).trans ?_
    interval_cases k <;> interval_cases l <;> simp [Finset.sum_range_succ, m]
  have h00 := hW 0 (by norm_num) 0 (by norm_num)
  have h01 := hW 0 (by norm_num) 1 (by norm_num)
  have h02 := hW 0 (by norm_num) 2 (by norm_num)
  have h10 := hW 1 (by norm_num) 0 (by norm_num)
  have h11 := hW 1 (by norm_num) 1 (by norm_num)
  have h12 := hW 1 (by norm_num) 2 (by norm_num)
  have h20 := hW 2 (by norm_num) 0 (by norm_num)
  have h21 := hW 2 (by norm_num) 1 (by norm_num)
  have h22 := hW 2 (by norm_num) 2 (by norm_num)
  have hmod : c.modulus 3 = c.mass / (c.time ^ 2 * c.length) := by
    rw [UnitChange.modulus, UnitChange.force, show 3 - 1 = 2 from rfl]
    field_simp
  have hvis : c.viscosity 3 = c.mass / (c.time * c.length) := by
    rw [UnitChange.viscosity, hmod]
    field_simp
  refine ⟨?_, ?_, ?_⟩
  · simp only [Space.acceleration, block, UnitChange.density]
    split <;> simp only [hU, mul_zero] <;> field_simp
  · simp only [Space.constitutive, block, hmod]
    split <;> simp only [h00, h01, h02, h10, h11, h12, h20, h21, h22, mul_zero] <;> field_simp
  · simp only [Space.constitutive, block, hvis]
    split <;> simp only [h00, h01, h02, h10, h11, h12, h20, h21, h22, mul_zero] <;> field_simp

/-- C125: two dynamic or quasistatic simulations of the same problem in different units return the same states in
different units. -/
theorem C125_units {c₁ c₂ : ProblemClass} (c : UnitChange K) (hl : c.length ≠ 0) (hτ : 0 < c.time) (hm : c.mass ≠ 0)
    (e e' : Engine K) (hkind : e'.kind = e.kind) (hr : Registered c₁ e.cls e.kind)
    (hr' : Registered c₂ e'.cls e'.kind) (hne : e.cls ≠ .direct) (hne' : e'.cls ≠ .direct) {d : ℕ}
    (hdim : e.ops.dimension = d) (hdim' : e'.ops.dimension = d) (hN : e'.ops.nodesCount = e.ops.nodesCount)
    (D : ℕ → Prop) [DecidablePred D] (hv : ValidBoundaries e.ops.nodesCount e.boundaries)
    (hv' : ValidBoundaries e'.ops.nodesCount e'.boundaries)
    (hd : DirichletData e.ops.nodesCount 2 e.boundaries D fun _ => 0)
    (hd' : DirichletData e'.ops.nodesCount 2 e'.boundaries D fun _ => 0)
    (sM : ∀ r s, e'.ops.acceleration r s = c.mass * e.ops.acceleration r s)
    (sA : ∀ r s, e'.ops.viscosity r s = c.mass / c.time * e.ops.viscosity r s)
    (sB : ∀ r s, e'.ops.elasticity r s = c.mass / c.time ^ 2 * e.ops.elasticity r s)
    (sf : ∀ t, ∀ r < d * e.ops.nodesCount, e'.ops.force (c.time * t) r = c.force * e.ops.force t r)
    (hM : Dissipates (d * e.ops.nodesCount) e.ops.acceleration)
    (hA : Dissipates (d * e.ops.nodesCount) e.ops.viscosity)
    (hB : Dissipates (d * e.ops.nodesCount) e.ops.elasticity)
    (hk : e.kind = .dynamicVelocity ∧ DefiniteOn (d * e.ops.nodesCount) D e.ops.acceleration ∨
      e.kind = .quasistaticVelocity ∧ DefiniteOn (d * e.ops.nodesCount) D e.ops.viscosity)
    (a a' : Engine.Arguments K) (hsteps : a'.nSteps = a.nSteps) (hout : a'.outputStep = a.outputStep)
    (hu : ∀ r < d * e.ops.nodesCount, State.flatten e'.grid a'.initialDisplacement r =
      c.length * State.flatten e.grid a.initialDisplacement r)
    (hv₀ : ∀ r < d * e.ops.nodesCount, State.flatten e'.grid a'.initialVelocity r =
      c.speed * State.flatten e.grid a.initialVelocity r)
    (solver solver' : SolverState K) (hdt : 0 < solver.timeStep)
    (hstep : solver'.timeStep = c.time * solver.timeStep)
    (hc : solver.currentTime = 0) (hc' : solver'.currentTime = 0)
    (hs : ExactSolve e (d * e.ops.nodesCount) solver.timeStep)
    (hs' : ExactSolve e' (d * e'.ops.nodesCount) (c.time * solver.timeStep))
    (store store' : ProductStore K V) (rs rs' : List (State K)) (sim sim' : Simulation K V)
    (h : e.timeDependentSolve a solver store = .ok (rs, sim))
    (h' : e'.timeDependentSolve a' solver' store' = .ok (rs', sim')) :
    List.Forall₂ (fun s s' => s'.time = c.time * s.time ∧
      (∀ r < d * e.ops.nodesCount, State.flatten e'.grid s'.displacement r =
        c.length * State.flatten e.grid s.displacement r) ∧
      ∀ r < d * e.ops.nodesCount, State.flatten e'.grid s'.velocity r =
        c.speed * State.flatten e.grid s.velocity r) rs rs' := by
  have hst : e.kind ≠ .staticDisplacement ∧ e.kind ≠ .staticPoisson := by
    rcases hk with ⟨hk, -⟩ | ⟨hk, -⟩ <;> rw [hk] <;> simp
  refine units_run c hτ.ne' e e' a a' hsteps hout hu hv₀ solver solver' hc hc' hstep
    (fun s t hb hst' => ?_) (fun s t hb hst' => ?_) (fun s s' t t' hb hb' k hst₁ hst₂ => ?_)
    store store' rs rs' sim sim' h h'
  · obtain ⟨h1, h2, -⟩ := between_step e hr hne hst _ s t hb hst'
    exact ⟨h1, h2⟩
  · obtain ⟨h1, h2, -⟩ := between_step e' hr' hne' (by rw [hkind]; exact hst) _ s t hb hst'
    exact ⟨h1, h2⟩
  · have ht : s'.solver.currentTime = c.time * s.solver.currentTime := by
      rw [← hb'.time, ← hb.time]; exact k.1
    rcases hk with ⟨hk, hdef⟩ | ⟨hk, hdef⟩
    · obtain ⟨h1, h2⟩ := dynamic_step_rows e hk hr hne hdim D hv hd _ hs s t hb hst₁
      obtain ⟨h1', h2'⟩ := dynamic_step_rows e' (hkind.trans hk) hr' hne' hdim' D hv' hd' _ hs' s' t' hb' hst₂
      rw [hN] at h1' h2'
      rw [ht] at h2'
      exact units_step c hl hτ.ne' hm (fun r _ s _ => sM r s) (fun r _ s _ => sA r s) (fun r _ s _ => sB r s)
        (fun r hr _ => sf _ r hr) hM hA hB (Or.inl hdef) hdt k.2.1 k.2.2 h1 h1' h2 h2'
    · obtain ⟨h1, h2⟩ := quasistatic_step_rows e hk hr hne hdim D hv hd _ hs s t hb hst₁
      obtain ⟨h1', h2'⟩ := quasistatic_step_rows e' (hkind.trans hk) hr' hne' hdim' D hv' hd' _ hs' s' t' hb' hst₂
      rw [hN] at h1' h2'
      rw [ht] at h2'
      refine units_step (M := fun _ _ => 0) (M' := fun _ _ => 0) c hl hτ.ne' hm (fun r _ s _ => by simp)
        (fun r _ s _ => sA r s) (fun r _ s _ => sB r s) (fun r hr _ => sf s.solver.currentTime r hr)
        ⟨fun x => by simp [quad]⟩ hA hB (Or.inr hdef) hdt k.2.1 k.2.2 h1 h1' (fun r hr hD => ?_) fun r hr hD => ?_
      · have := h2 r hr hD
        simpa [act] using this
      · have := h2' r hr hD
        simpa [act] using this

omit [LinearOrder K] [IsStrictOrderedRing K] in
theorem flatten_scaled {d N : ℕ} {grid grid' : Grid K} (hg : grid.nodesCount = N) (hg' : grid'.nodesCount = N)
    (α : K) (x x' : ℕ → ℕ → K) :
    (∀ r < d * N, State.flatten grid' x' r = α * State.flatten grid x r) ↔ ∀ p < N, ∀ k < d, x' p k = α * x p k := by
  unfold State.flatten
  rw [hg, hg']
  refine ⟨fun h p hp k hk => ?_, fun h r hr => ?_⟩
  · have := h _ (block_lt hk hp)
    rwa [block_div _ hp, block_mod _ hp] at this
  · obtain ⟨-, h1, h2⟩ := position_lt hr
    exact h _ h1 _ h2

/-- C125: when everything about a plane body, the nodes, coefficients, loads, time step and initial states, is given in
other units of length, time and mass, then the states returned are the same in the other units. For quasistatic
simulations the body is held by its supports. -/
theorem C125_plane {c₁ c₂ : ProblemClass} {N : ℕ} {elements : List (List ℕ)} {nodes : ℕ → ℕ → K}
    (hv : ValidElements 2 N elements) (hn : Nondegenerate2 elements nodes) (c : UnitChange K) (hl : c.length ≠ 0)
    (hτ : 0 < c.time) (hm : c.mass ≠ 0) (density mu lam theta zeta : K) (hdensity : 0 ≤ density) (hmu : 0 ≤ mu)
    (hlam : 0 ≤ lam) (htheta : 0 ≤ theta) (hzeta : 0 ≤ zeta) (e e' : Engine K)
    (he : PlaneBody e N elements nodes density mu lam theta zeta)
    (he' : PlaneBody e' N elements (c.nodes 2 nodes) (c.density 2 * density) (c.modulus 2 * mu) (c.modulus 2 * lam)
      (c.viscosity 2 * theta) (c.viscosity 2 * zeta))
    (hbs : e'.boundaries = e.boundaries) (D : ℕ → Prop) [DecidablePred D] (hb : ValidBoundaries N e.boundaries)
    (hd : DirichletData N 2 e.boundaries D fun _ => 0) (hkind : e'.kind = e.kind)
    (hk : e.kind = .dynamicVelocity ∧ 0 < density ∧ (∀ p < N, ∃ t ∈ elements, p ∈ t) ∨
      e.kind = .quasistaticVelocity ∧ 0 < theta ∧ ∀ p < N, Held elements (fun q => q < N ∧ D q ∧ D (N + q)) p)
    (hr : Registered c₁ e.cls e.kind) (hr' : Registered c₂ e'.cls e'.kind)
    (hne : e.cls ≠ .direct) (hne' : e'.cls ≠ .direct)
    (hf : ∀ t, ∀ r < 2 * N, e'.ops.force (c.time * t) r = c.force * e.ops.force t r)
    (a a' : Engine.Arguments K) (hsteps : a'.nSteps = a.nSteps) (hout : a'.outputStep = a.outputStep)
    (hu : ∀ p < N, ∀ k < 2, a'.initialDisplacement p k = c.length * a.initialDisplacement p k)
    (hv₀ : ∀ p < N, ∀ k < 2, a'.initialVelocity p k = c.speed * a.initialVelocity p k)
    (solver solver' : SolverState K) (hdt : 0 < solver.timeStep) (hstep : solver'.timeStep = c.time * solver.timeStep)
    (hc : solver.currentTime = 0) (hc' : solver'.currentTime = 0)
    (hs : ExactSolve e (2 * N) solver.timeStep) (hs' : ExactSolve e' (2 * N) (c.time * solver.timeStep))
    (store store' : ProductStore K V) (rs rs' : List (State K)) (sim sim' : Simulation K V)
    (hrun : e.timeDependentSolve a solver store = .ok (rs, sim))
    (hrun' : e'.timeDependentSolve a' solver' store' = .ok (rs', sim')) :
    List.Forall₂ (fun s s' => s'.time = c.time * s.time ∧
      (∀ p < N, ∀ k < 2, s'.displacement p k = c.length * s.displacement p k) ∧
      ∀ p < N, ∀ k < 2, s'.velocity p k = c.speed * s.velocity p k) rs rs' := by
  obtain ⟨g1, g2, g3, g4, g5, g6⟩ := he
  obtain ⟨g1', g2', g3', g4', g5', g6'⟩ := he'
  subst g2
  obtain ⟨o1, o2, o3, -⟩ := C71_operators2 hv hn density mu lam theta zeta 0 hdensity hmu hlam htheta hzeta
  rw [← g4] at o1
  rw [← g5] at o2
  rw [← g6] at o3
  have hs' : ExactSolve e' (2 * e'.ops.nodesCount) (c.time * solver.timeStep) := by rw [g2']; exact hs'
  have key := C125_units c hl hτ hm e e' hkind hr hr' hne hne' g3 g3' g2' D hb (by rw [g2', hbs]; exact hb) hd
    (by rw [g2', hbs]; exact hd)
    (fun r s => by rw [g4, g4']; exact (C125_operators2 hn c hl hτ.ne' density mu lam r s).1)
    (fun r s => by rw [g6, g6']; exact (C125_operators2 hn c hl hτ.ne' density theta zeta r s).2.2)
    (fun r s => by rw [g5, g5']; exact (C125_operators2 hn c hl hτ.ne' density mu lam r s).2.1) hf
    ⟨o1.nonneg⟩ o3 ⟨o2.nonneg⟩
    (hk.imp (fun k => ⟨k.1, by rw [g4]; exact (C74_mass2 hv hn density k.2.1 k.2.2 D).1⟩)
      fun k => ⟨k.1, by rw [g6]; exact C74_elastic2 hv hn theta zeta k.2.1 hzeta D k.2.2⟩)
    a a' hsteps hout ((flatten_scaled g1 g1' _ _ _).2 hu) ((flatten_scaled g1 g1' _ _ _).2 hv₀) solver solver' hdt
    hstep hc hc' hs hs' store store' rs rs' sim sim' hrun hrun'
  exact key.imp fun s s' hss => ⟨hss.1, (flatten_scaled g1 g1' _ _ _).1 hss.2.1,
    (flatten_scaled g1 g1' _ _ _).1 hss.2.2⟩

/-- C125: loads assembled from densities of forces in other units. -/
theorem C125_loads2 {N : ℕ} {elements : List (List ℕ)} {nodes : ℕ → ℕ → K} (hn : Nondegenerate2 elements nodes)
    (c : UnitChange K) (hl : 0 < c.length) (sqrt : K → K)
    (hsqrt : ∀ x, 0 ≤ x → sqrt (c.length ^ 2 * x) = c.length * sqrt x) (neumann : List (List ℕ))
    (inner outer inner' outer' : ℕ → ℕ → K)
    (hi : ∀ p < N, ∀ k < 2, inner' p k = c.force / c.length ^ 2 * inner p k)
    (ho : ∀ p < N, ∀ k < 2, outer' p k = c.force / c.length * outer p k) :
    ∃ f f', integrateForces sqrt 2 N (basicMatrices2 elements nodes).volumeAtNodes neumann nodes inner outer =
        some f ∧
      integrateForces sqrt 2 N (basicMatrices2 elements (c.nodes 2 nodes)).volumeAtNodes neumann (c.nodes 2 nodes)
        inner' outer' = some f' ∧
      ∀ r < 2 * N, f' r = c.force * f r := by
  have hl' := hl.ne'
  have hs : ∀ (l : List (List ℕ)) (s₀ s₀' : ℕ → K), (∀ p, s₀' p = c.length * s₀ p) → ∃ s s' : ℕ → K,
      l.foldlM (fun (s : ℕ → K) surface => do
        let part ← elementVolumePart sqrt 2 surface.length (elementNodes nodes surface)
        return fun p => if p ∈ surface then s p + part else s p) s₀ = some s ∧
      l.foldlM (fun (s : ℕ → K) surface => do
        let part ← elementVolumePart sqrt 2 surface.length (elementNodes (c.nodes 2 nodes) surface)
        return fun p => if p ∈ surface then s p + part else s p) s₀' = some s' ∧ ∀ p, s' p = c.length * s p := by
    intro l
    induction l with
    | nil => exact fun s₀ s₀' h₀ => ⟨s₀, s₀', rfl, rfl, h₀⟩
    | cons x l ih =>
      intro s₀ s₀' h₀
      simp only [List.foldlM_cons, elementVolumePart, if_true, Option.pure_def, Option.bind_eq_bind,
        Option.bind_some] at ih ⊢
      refine ih _ _ fun p => ?_
      have : euclideanNorm sqrt 2 (fun k => elementNodes (c.nodes 2 nodes) x 0 k - elementNodes (c.nodes 2 nodes) x 1 k) =
          c.length * euclideanNorm sqrt 2 fun k => elementNodes nodes x 0 k - elementNodes nodes x 1 k := by
        unfold euclideanNorm elementNodes
        rw [← hsqrt _ (Finset.sum_nonneg fun _ _ => sq_nonneg _), Finset.mul_sum]
        congr 1
        refine Finset.sum_congr rfl fun k hk => ?_
        beta_reduce
        rw [units_nodes c 2 nodes _ k (Finset.mem_range.1 hk), units_nodes c 2 nodes _ k (Finset.mem_range.1 hk)]
        ring
      rw [this, h₀ p]
      split_ifs <;> ring
  obtain ⟨s, s', hs, hs', he⟩ : ∃ s s', surfacePerBoundaryNode sqrt 2 neumann nodes = some s ∧
    surfacePerBoundaryNode sqrt 2 neumann (c.nodes 2 nodes) = some s' ∧ ∀ p, s' p = c.length * s p :=
      hs neumann _ _ fun _ => (mul_zero _).symm
  have hvol : ∀ p q, (basicMatrices2 elements (c.nodes 2 nodes)).volumeAtNodes p q =
      c.length ^ 2 * (basicMatrices2 elements nodes).volumeAtNodes p q := fun p q =>
    ((C90_similar2 hn (identity_orthogonal 2) hl' fun _ => 0).2 p q).1
  refine ⟨_, _, by simp only [integrateForces, integratedOuter, hs, Option.pure_def, Option.bind_eq_bind,
    Option.bind_some]; rfl, by simp only [integrateForces, integratedOuter, hs', Option.pure_def,
    Option.bind_eq_bind, Option.bind_some]; rfl, fun r hr => ?_⟩
  obtain ⟨-, h1, h2⟩ := position_lt hr
  simp only [integratedInner]
  rw [ho _ h1 _ h2, he, mul_add, Finset.mul_sum]
  congr 1
  · refine Finset.sum_congr rfl fun q hq => ?_
    rw [hi q (Finset.mem_range.1 hq) _ h2, hvol]
    field_simp
  · field_simp

end

/-! ### Examples -/

section

/-- Centimetres, milliseconds and grams instead of metres, seconds and kilograms. -/
def smallUnits : UnitChange ℝ := ⟨100, 1000, 1000⟩

open Classical in
/-- The square of `CreepBody.lean` with inertia, with these nodes, coefficients and loads, solved exactly. -/
noncomputable def squareOf (nodes : ℕ → ℕ → ℝ) (density mu lam theta zeta : ℝ) (force : ℝ → ℕ → ℝ) : Engine ℝ where
  grid := ⟨4, 2, nodes⟩
  cls := .dynamicSchur
  kind := .dynamicVelocity
  ops := { heldSquareOps with
    acceleration := Plane.acceleration 4 (basicMatrices2 heldSquareElements nodes).U density
    elasticity := Plane.constitutive 4 (basicMatrices2 heldSquareElements nodes).W mu lam
    viscosity := Plane.constitutive 4 (basicMatrices2 heldSquareElements nodes).W theta zeta
    force := force }
  boundaries := heldSquareBoundaries
  solve := fun s _ => if h : ∃ x, Solves 8 s.system x then h.choose else fun _ => 0

theorem squareOf_body (nodes : ℕ → ℕ → ℝ) (density mu lam theta zeta : ℝ) (force : ℝ → ℕ → ℝ) :
    PlaneBody (squareOf nodes density mu lam theta zeta force) 4 heldSquareElements nodes density mu lam theta zeta :=
  ⟨rfl, rfl, rfl, rfl, rfl, rfl⟩

theorem squareOf_exact {nodes : ℕ → ℕ → ℝ} (hn : Nondegenerate2 heldSquareElements nodes) (density mu lam theta zeta : ℝ)
    (h1 : 0 < density) (h2 : 0 < mu) (h3 : 0 ≤ lam) (h4 : 0 ≤ theta) (h5 : 0 ≤ zeta) (force : ℝ → ℕ → ℝ) (dt : ℝ)
    (hdt : 0 < dt) : ExactSolve (squareOf nodes density mu lam theta zeta force) (2 * 4) dt := by
  have hall : ∀ p < 4, ∃ t ∈ heldSquareElements, p ∈ t := by unfold heldSquareElements; decide
  intro S guess var hvar h
  obtain ⟨x, hx, -⟩ := (C74_elasticity2 heldSquare_mesh.1 hn hall density mu lam theta zeta h1 h2 h3 h4 h5
    (squareOf nodes density mu lam theta zeta force).ops rfl rfl rfl rfl rfl _ _ _ heldSquare_boundaries.1
    heldSquare_boundaries.2 var dt hdt hvar S.system).1 h
  have hex : ∃ x, Solves 8 S.system x := ⟨x, hx⟩
  have : (squareOf nodes density mu lam theta zeta force).solve S guess = hex.choose := dif_pos hex
  rw [this]
  exact hex.choose_spec

/-- The hypotheses of `C125_plane` are met by the square, in metres, seconds and kilograms and in centimetres,
milliseconds and grams. -/
example (force : ℝ → ℕ → ℝ) (a a' : Engine.Arguments ℝ) (ha : a' = { a with
      initialDisplacement := fun p k => 100 * a.initialDisplacement p k
      initialVelocity := fun p k => 1 / 10 * a.initialVelocity p k })
    (solver solver' : SolverState ℝ) (hdt : 0 < solver.timeStep) (hstep : solver'.timeStep = 1000 * solver.timeStep)
    (hc : solver.currentTime = 0) (hc' : solver'.currentTime = 0) (store : ProductStore ℝ Unit)
    (rs rs' : List (State ℝ)) (sim sim' : Simulation ℝ Unit)
    (h : (squareOf heldSquareNodes 1 4 5 2 3 force).timeDependentSolve a solver store = .ok (rs, sim))
    (h' : (squareOf (smallUnits.nodes 2 heldSquareNodes) (smallUnits.density 2 * 1) (smallUnits.modulus 2 * 4)
      (smallUnits.modulus 2 * 5) (smallUnits.viscosity 2 * 2) (smallUnits.viscosity 2 * 3)
      fun t r => smallUnits.force * force (t / 1000) r).timeDependentSolve a' solver' store = .ok (rs', sim')) :
    List.Forall₂ (fun s s' => s'.time = 1000 * s.time ∧
      (∀ p < 4, ∀ k < 2, s'.displacement p k = 100 * s.displacement p k) ∧
      ∀ p < 4, ∀ k < 2, s'.velocity p k = smallUnits.speed * s.velocity p k) rs rs' := by
  have hall : ∀ p < 4, ∃ t ∈ heldSquareElements, p ∈ t := by unfold heldSquareElements; decide
  have hn' : Nondegenerate2 heldSquareElements (smallUnits.nodes 2 heldSquareNodes) :=
    nondegenerate2_similar heldSquare_mesh.2 (identity_orthogonal 2) (by norm_num [smallUnits]) fun _ => 0
  have hreg : Registered .DynamicDisplacementProblem .dynamicSchur .dynamicVelocity :=
    ⟨⟨.dynamic, by decide +kernel, by decide +kernel⟩, Or.inl (by decide +kernel)⟩
  have hsp : smallUnits.speed = 1 / 10 := by norm_num [UnitChange.speed, smallUnits]
  have p1 : 0 < smallUnits.density 2 := by norm_num [UnitChange.density, smallUnits]
  have p2 : 0 < smallUnits.modulus 2 := by norm_num [UnitChange.modulus, UnitChange.force, smallUnits]
  have p3 : 0 < smallUnits.viscosity 2 := mul_pos p2 (by norm_num [smallUnits])
  refine C125_plane heldSquare_mesh.1 heldSquare_mesh.2 smallUnits (by norm_num [smallUnits])
    (by norm_num [smallUnits]) (by norm_num [smallUnits]) 1 4 5 2 3 (by norm_num)
    (by norm_num) (by norm_num) (by norm_num) (by norm_num) _ _ (squareOf_body _ 1 4 5 2 3 force)
    (squareOf_body _ _ _ _ _ _ _) rfl _ heldSquare_boundaries.1 heldSquare_boundaries.2 rfl
    (Or.inl ⟨rfl, by norm_num, hall⟩) hreg hreg SolverClass.noConfusion SolverClass.noConfusion (fun t r hr => ?_) a a'
    (by rw [ha]) (by rw [ha]) (fun _ _ _ _ => by rw [ha]; rfl) (fun _ _ _ _ => by rw [ha, hsp]) solver solver' hdt hstep hc hc'
    (squareOf_exact heldSquare_mesh.2 1 4 5 2 3 (by norm_num) (by norm_num) (by norm_num) (by norm_num) (by norm_num) force
      _ hdt)
    (squareOf_exact hn' _ _ _ _ _ (by positivity) (by positivity) (by positivity) (by positivity) (by positivity) _ _
      (mul_pos (by norm_num [smallUnits]) hdt))
    store store rs rs' sim sim' h h'
  change smallUnits.force * force (1000 * t / 1000) r = smallUnits.force * force t r
  rw [mul_div_cancel_left₀ _ (by norm_num)]

/-- The hypotheses of `C125_loads2` are met by the square with weight and a load on its lower side. -/
example : ∃ f f' : ℕ → ℝ,
    integrateForces Real.sqrt 2 4 (basicMatrices2 heldSquareElements heldSquareNodes).volumeAtNodes [[0, 1]]
      heldSquareNodes (fun _ k => if k = 1 then -1 else 0) (fun _ k => if k = 1 then -2 else 0) = some f ∧
    integrateForces Real.sqrt 2 4
      (basicMatrices2 heldSquareElements (smallUnits.nodes 2 heldSquareNodes)).volumeAtNodes [[0, 1]]
      (smallUnits.nodes 2 heldSquareNodes)
      (fun _ k => smallUnits.force / smallUnits.length ^ 2 * if k = 1 then -1 else 0)
      (fun _ k => smallUnits.force / smallUnits.length * if k = 1 then -2 else 0) = some f' ∧
    ∀ r < 2 * 4, f' r = smallUnits.force * f r :=
  C125_loads2 heldSquare_mesh.2 smallUnits (by norm_num [smallUnits]) Real.sqrt
    (fun x _ => by rw [Real.sqrt_mul (sq_nonneg _), Real.sqrt_sq (by norm_num [smallUnits])]) _ _ _ _ _
    (fun _ _ _ _ => rfl) fun _ _ _ _ => rfl

end
end Conmech
