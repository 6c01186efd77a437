import Verif.Spec.Carried
import Verif.Model.BodyForces
import Verif.Props.CreepModes
import Verif.Props.SolverIndependence
import Verif.Props.Invariance
/-!
C124: a simulation of a moved, turned, reflected or renumbered body returns the moved, turned, reflected or
renumbered states.
-/
namespace Conmech
open Spec

section
variable {K : Type} [Field K] [LinearOrder K] [IsStrictOrderedRing K] {n : ℕ} {D D' : ℕ → Prop}
  {T : (ℕ → K) → ℕ → K}

omit [LinearOrder K] [IsStrictOrderedRing K] in
theorem form_weak (A : ℕ → ℕ → K) (x y : ℕ → K) :
    form n n A x y = ∑ r ∈ Finset.range n, x r * act n A y r := by
  unfold form act
  exact Finset.sum_congr rfl fun r _ => by
    rw [Finset.mul_sum]; exact Finset.sum_congr rfl fun s _ => by ring

omit [LinearOrder K] [IsStrictOrderedRing K] in
theorem act_lin (A : ℕ → ℕ → K) (a b : K) (x y : ℕ → K) (r : ℕ) :
    act n A (fun i => a * x i + b * y i) r = a * act n A x r + b * act n A y r := by
  unfold act
  rw [Finset.mul_sum, Finset.mul_sum, ← Finset.sum_add_distrib]
  exact Finset.sum_congr rfl fun s _ => by ring

omit [LinearOrder K] [IsStrictOrderedRing K] in
/-- The equations of a step in weak form. -/
theorem weak_step {M A B : ℕ → ℕ → K} {f u v w z : ℕ → K} {dt : K} (hdt : dt ≠ 0)
    (h : ∀ r < n, ¬ D r → act n M (fun i => (w i - v i) / dt) r + act n A w r +
      act n B (fun i => u i + dt * w i) r = f r) (hz : ∀ r < n, D r → z r = 0) :
    (form n n M z w - form n n M z v) / dt + form n n A z w + (form n n B z u + dt * form n n B z w) =
      ∑ r ∈ Finset.range n, z r * f r := by
  simp only [form_weak]
  rw [← Finset.sum_sub_distrib, Finset.sum_div, Finset.mul_sum, ← Finset.sum_add_distrib,
    ← Finset.sum_add_distrib, ← Finset.sum_add_distrib]
  refine Finset.sum_congr rfl fun r hr => ?_
  have hr := Finset.mem_range.1 hr
  by_cases hD : D r
  · rw [hz r hr hD]; ring
  · rw [← h r hr hD]
    have e1 : act n M (fun i => (w i - v i) / dt) r = 1 / dt * act n M w r + (-1 / dt) * act n M v r := by
      rw [← act_lin]
      congr 1
      funext i
      field_simp
      ring
    have e2 : act n B (fun i => u i + dt * w i) r = 1 * act n B u r + dt * act n B w r := by
      rw [← act_lin]
      congr 1
      funext i
      ring
    rw [e1, e2]
    field_simp
    ring

/-- The velocities after a step correspond when displacements and velocities before it do. -/
theorem carried_step (hT : CarriesFields n D D' T) {M A B M' A' B' : ℕ → ℕ → K} (sM : SameForm n T M M')
    (sA : SameForm n T A A') (sB : SameForm n T B B') {f f' : ℕ → K} (sf : SameWork n T f f')
    (hM : Dissipates n M') (hA : Dissipates n A') (hB : Dissipates n B')
    (hdef : DefiniteOn n D' M' ∨ DefiniteOn n D' A') {dt : K} (hdt : 0 < dt)
    {u v w u' v' w' : ℕ → K} (hu : ∀ r < n, u' r = T u r) (hv : ∀ r < n, v' r = T v r)
    (hw : ∀ r < n, D r → w r = 0) (hw' : ∀ r < n, D' r → w' r = 0)
    (h : ∀ r < n, ¬ D r → act n M (fun i => (w i - v i) / dt) r + act n A w r +
      act n B (fun i => u i + dt * w i) r = f r)
    (h' : ∀ r < n, ¬ D' r → act n M' (fun i => (w' i - v' i) / dt) r + act n A' w' r +
      act n B' (fun i => u' i + dt * w' i) r = f' r) :
    ∀ r < n, w' r = T w r := by
  set y : ℕ → K := fun r => w' r - T w r with hy
  have hyD : ∀ r < n, D' r → y r = 0 := fun r hr hD => by
    rw [hy]; beta_reduce; rw [hw' r hr hD, hT.held w hw r hr hD, sub_zero]
  obtain ⟨z, hz, hzy⟩ := hT.onto y hyD
  have e1 := weak_step hdt.ne' h hz
  have e2 := weak_step hdt.ne' h' hyD
  have fo : ∀ (Q : ℕ → ℕ → K) (x x' : ℕ → K), (∀ r < n, x r = x' r) →
      form n n Q y x = form n n Q (T z) x' := fun Q x x' hx => by
    unfold form
    exact Finset.sum_congr rfl fun r hr => Finset.sum_congr rfl fun s hs => by
      rw [hzy r (Finset.mem_range.1 hr), hx s (Finset.mem_range.1 hs)]
  have fy : ∀ Q : ℕ → ℕ → K, form n n Q y w' = quad n Q y + form n n Q (T z) (T w) := fun Q => by
    rw [quad_eq_form, ← fo Q (T w) (T w) fun _ _ => rfl]
    unfold form
    simp only [← Finset.sum_add_distrib]
    exact Finset.sum_congr rfl fun r hr => Finset.sum_congr rfl fun s hs => by rw [hy]; ring
  have ef : ∑ r ∈ Finset.range n, y r * f' r = ∑ r ∈ Finset.range n, z r * f r := by
    rw [← sf z]
    exact Finset.sum_congr rfl fun r hr => by rw [hzy r (Finset.mem_range.1 hr)]
  rw [fy M', fy A', fy B', fo M' v' (T v) hv, fo B' u' (T u) hu, ef, sM z w, sM z v, sA z w, sB z u, sB z w,
    ← e1] at e2
  have e3 : quad n M' y / dt + quad n A' y + dt * quad n B' y = 0 := by
    have : (quad n M' y + form n n M z w - form n n M z v) / dt =
      quad n M' y / dt + (form n n M z w - form n n M z v) / dt := by ring
    rw [this] at e2
    linear_combination e2
  have p1 := div_nonneg (hM.nonneg y) hdt.le
  have p2 := hA.nonneg y
  have p3 := mul_nonneg hdt.le (hB.nonneg y)
  intro r hr
  rcases hdef with hd | hd
  · have h4 : quad n M' y / dt = 0 := by linarith
    rcases div_eq_zero_iff.1 h4 with h5 | h5
    · exact sub_eq_zero.1 (hd y hyD h5 r hr)
    · exact absurd h5 hdt.ne'
  · exact sub_eq_zero.1 (hd y hyD (by linarith) r hr)

/-- Corresponding states of two simulations. -/
def Corresponding (n : ℕ) (T : (ℕ → K) → ℕ → K) (grid grid' : Grid K) (s s' : Snapshot K) : Prop :=
  s'.time = s.time ∧
  (∀ r < n, State.flatten grid' s'.displacement r = T (State.flatten grid s.displacement) r) ∧
  ∀ r < n, State.flatten grid' s'.velocity r = T (State.flatten grid s.velocity) r

variable {V : Type}

/-- Two runs side by side, from corresponding states. -/
theorem carried_outputs (hT : CarriesFields n D D' T) (e e' : Engine K) (dt : K) (products products' : List ℕ)
    (hstep : ∀ s t : Simulation K V, Between e dt s.solver s.state.toSnapshot →
      e.step .velocity s = .ok t → Between e dt t.solver t.state.toSnapshot ∧
        ∀ i j, t.state.displacement i j = s.state.displacement i j + dt * t.state.velocity i j)
    (hstep' : ∀ s t : Simulation K V, Between e' dt s.solver s.state.toSnapshot →
      e'.step .velocity s = .ok t → Between e' dt t.solver t.state.toSnapshot ∧
        ∀ i j, t.state.displacement i j = s.state.displacement i j + dt * t.state.velocity i j)
    (hvel : ∀ s s' t t' : Simulation K V, Between e dt s.solver s.state.toSnapshot →
      Between e' dt s'.solver s'.state.toSnapshot →
      Corresponding n T e.grid e'.grid s.state.toSnapshot s'.state.toSnapshot →
      e.step .velocity s = .ok t → e'.step .velocity s' = .ok t' →
      ∀ r < n, State.flatten e'.grid t'.state.velocity r = T (State.flatten e.grid t.state.velocity) r)
    (l : List ℤ) (s s' : Simulation K V) (hb : Between e dt s.solver s.state.toSnapshot)
    (hb' : Between e' dt s'.solver s'.state.toSnapshot)
    (hcor : Corresponding n T e.grid e'.grid s.state.toSnapshot s'.state.toSnapshot)
    (rs rs' : List (State K)) (sim sim' : Simulation K V)
    (h : e.outputs .velocity products l s = .ok (rs, sim))
    (h' : e'.outputs .velocity products' l s' = .ok (rs', sim')) :
    List.Forall₂ (fun s s' => Corresponding n T e.grid e'.grid s.toSnapshot s'.toSnapshot) rs rs' := by
  refine outputs_pair e e' .velocity products products'
    (fun x p y q => Between e dt x p ∧ Between e' dt y q ∧ Corresponding n T e.grid e'.grid p q)
    (Corresponding n T e.grid e'.grid) (fun _ _ _ _ hr => hr.2.2) ?_ _ _ _ _ _ _ _ ⟨hb, hb', hcor⟩ h h'
  rintro p p' q q' ⟨b1, b2, b3⟩ k1 k2
  obtain ⟨c1, d1⟩ := hstep p q b1 k1
  obtain ⟨c2, d2⟩ := hstep' p' q' b2 k2
  have hw := hvel p p' q q' b1 b2 b3 k1 k2
  refine ⟨c1, c2, ?_, fun r hr => ?_, hw⟩
  · have t1 := between_time e _ p q b1 k1
    have t2 := between_time e' _ p' q' b2 k2
    have t3 : p'.state.time = p.state.time := b3.1
    change q'.state.time = q.state.time
    rw [t1, t2, t3]
  · have g1 : ∀ i, State.flatten e.grid q.state.displacement i = 1 * State.flatten e.grid p.state.displacement i +
        dt * State.flatten e.grid q.state.velocity i := fun i => by
      rw [one_mul]; exact d1 _ _
    have g2 : State.flatten e'.grid q'.state.displacement r = State.flatten e'.grid p'.state.displacement r +
        dt * State.flatten e'.grid q'.state.velocity r := d2 _ _
    change State.flatten e'.grid q'.state.displacement r = T (State.flatten e.grid q.state.displacement) r
    have g3 : State.flatten e'.grid p'.state.displacement r = T (State.flatten e.grid p.state.displacement) r :=
      b3.2.1 r hr
    rw [g2, g3, hw r hr, hT.on _ _ (fun i _ => g1 i) r hr, hT.linear _ _ _ _ r hr, one_mul]

/-- Two runs from corresponding initial states. -/
theorem carried_run (hT : CarriesFields n D D' T) (e e' : Engine K) (a a' : Engine.Arguments K)
    (hsteps : a'.nSteps = a.nSteps) (hout : a'.outputStep = a.outputStep)
    (hu : ∀ r < n, State.flatten e'.grid a'.initialDisplacement r =
      T (State.flatten e.grid a.initialDisplacement) r)
    (hv : ∀ r < n, State.flatten e'.grid a'.initialVelocity r = T (State.flatten e.grid a.initialVelocity) r)
    (solver solver' : SolverState K) (hc : solver.currentTime = 0) (hc' : solver'.currentTime = 0)
    (hdt : solver'.timeStep = solver.timeStep)
    (hstep : ∀ s t : Simulation K V, Between e solver.timeStep s.solver s.state.toSnapshot →
      e.step .velocity s = .ok t → Between e solver.timeStep t.solver t.state.toSnapshot ∧
        ∀ i j, t.state.displacement i j = s.state.displacement i j + solver.timeStep * t.state.velocity i j)
    (hstep' : ∀ s t : Simulation K V, Between e' solver.timeStep s.solver s.state.toSnapshot →
      e'.step .velocity s = .ok t → Between e' solver.timeStep t.solver t.state.toSnapshot ∧
        ∀ i j, t.state.displacement i j = s.state.displacement i j + solver.timeStep * t.state.velocity i j)
    (hvel : ∀ s s' t t' : Simulation K V, Between e solver.timeStep s.solver s.state.toSnapshot →
      Between e' solver.timeStep s'.solver s'.state.toSnapshot →
      Corresponding n T e.grid e'.grid s.state.toSnapshot s'.state.toSnapshot →
      e.step .velocity s = .ok t → e'.step .velocity s' = .ok t' →
      ∀ r < n, State.flatten e'.grid t'.state.velocity r = T (State.flatten e.grid t.state.velocity) r)
    (store store' : ProductStore K V) (rs rs' : List (State K)) (sim sim' : Simulation K V)
    (h : e.timeDependentSolve a solver store = .ok (rs, sim))
    (h' : e'.timeDependentSolve a' solver' store' = .ok (rs', sim')) :
    List.Forall₂ (fun s s' => Corresponding n T e.grid e'.grid s.toSnapshot s'.toSnapshot) rs rs' := by
  rw [Engine.timeDependentSolve_eq] at h h'
  obtain ⟨s0, hs, h⟩ := bind_inv _ _ _ h
  obtain ⟨s0', hs', h'⟩ := bind_inv _ _ _ h'
  rw [hsteps, hout] at h'
  obtain ⟨s, h1, rfl⟩ := ok_of_bind _ _ _ hs
  obtain ⟨s', h1', rfl⟩ := ok_of_bind _ _ _ hs'
  have hit := e.iterate_ok _ _ h1
  have hit' := e'.iterate_ok _ _ h1'
  refine carried_outputs hT e e' solver.timeStep a.products a'.products hstep hstep' hvel _ _ _ ?_ ?_ ?_ _ _ _ _ h h'
  · exact ⟨⟨_, h1⟩, by rw [hit], by rw [hit], by rw [hit]; exact hc.symm, by rw [hit]⟩
  · exact ⟨⟨_, h1'⟩, by rw [hit'], by rw [hit'], by rw [hit']; exact hc'.symm, by rw [hit']; exact hdt⟩
  · exact ⟨rfl, hu, hv⟩

/-- `WaveSolver.solve` starts from the given or the resumed state. -/
theorem wave_started (e : Engine K) (a : Engine.Arguments K) (resume : Option (State K)) (solver : SolverState K)
    (store : ProductStore K V) (s : Simulation K V) (h : e.waveStart a resume solver store = .ok s) :
    Between e solver.timeStep s.solver s.state.toSnapshot ∧ s.state.toSnapshot = waveInitial e a resume := by
  cases resume with
  | none =>
    obtain ⟨s, h1, rfl⟩ := ok_of_bind _ _ _ h
    have hit := e.iterate_ok _ _ h1
    exact ⟨⟨⟨_, h1⟩, by rw [hit], by rw [hit], by rw [hit], by rw [hit]⟩, rfl⟩
  | some r =>
    obtain ⟨s, h1, rfl⟩ := ok_of_bind _ _ _ h
    have hit := e.iterate_ok _ _ h1
    exact ⟨⟨⟨_, h1⟩, by rw [hit], by rw [hit], by rw [hit], by rw [hit]⟩, rfl⟩

/-- C124, dynamic elasticity: two simulations whose operators, supports, loads and initial states correspond return
corresponding states. -/
theorem C124_dynamic {c c' : ProblemClass} (e e' : Engine K) (hk : e.kind = .dynamicVelocity)
    (hk' : e'.kind = .dynamicVelocity) (hr : Registered c e.cls e.kind) (hr' : Registered c' e'.cls e'.kind)
    (hne : e.cls ≠ .direct) (hne' : e'.cls ≠ .direct) {d : ℕ} (hdim : e.ops.dimension = d)
    (hdim' : e'.ops.dimension = d) (hN : e'.ops.nodesCount = e.ops.nodesCount)
    (D D' : ℕ → Prop) [DecidablePred D] [DecidablePred D'] (hv : ValidBoundaries e.ops.nodesCount e.boundaries)
    (hv' : ValidBoundaries e'.ops.nodesCount e'.boundaries)
    (hd : DirichletData e.ops.nodesCount 2 e.boundaries D fun _ => 0)
    (hd' : DirichletData e'.ops.nodesCount 2 e'.boundaries D' fun _ => 0)
    (hT : CarriesFields (d * e.ops.nodesCount) D D' T)
    (sM : SameForm (d * e.ops.nodesCount) T e.ops.acceleration e'.ops.acceleration)
    (sA : SameForm (d * e.ops.nodesCount) T e.ops.viscosity e'.ops.viscosity)
    (sB : SameForm (d * e.ops.nodesCount) T e.ops.elasticity e'.ops.elasticity)
    (sf : ∀ t, SameWork (d * e.ops.nodesCount) T (e.ops.force t) (e'.ops.force t))
    (hM : Dissipates (d * e.ops.nodesCount) e'.ops.acceleration)
    (hA : Dissipates (d * e.ops.nodesCount) e'.ops.viscosity)
    (hB : Dissipates (d * e.ops.nodesCount) e'.ops.elasticity)
    (hdef : DefiniteOn (d * e.ops.nodesCount) D' e'.ops.acceleration)
    (a a' : Engine.Arguments K) (hsteps : a'.nSteps = a.nSteps) (hout : a'.outputStep = a.outputStep)
    (hu : ∀ r < d * e.ops.nodesCount, State.flatten e'.grid a'.initialDisplacement r =
      T (State.flatten e.grid a.initialDisplacement) r)
    (hv₀ : ∀ r < d * e.ops.nodesCount, State.flatten e'.grid a'.initialVelocity r =
      T (State.flatten e.grid a.initialVelocity) r)
    (solver solver' : SolverState K) (hdt : 0 < solver.timeStep) (hstep : solver'.timeStep = solver.timeStep)
    (hc : solver.currentTime = 0) (hc' : solver'.currentTime = 0)
    (hs : ExactSolve e (d * e.ops.nodesCount) solver.timeStep)
    (hs' : ExactSolve e' (d * e'.ops.nodesCount) solver.timeStep)
    (store store' : ProductStore K V) (rs rs' : List (State K)) (sim sim' : Simulation K V)
    (h : e.timeDependentSolve a solver store = .ok (rs, sim))
    (h' : e'.timeDependentSolve a' solver' store' = .ok (rs', sim')) :
    List.Forall₂ (fun s s' => s'.time = s.time ∧
      (∀ r < d * e.ops.nodesCount, State.flatten e'.grid s'.displacement r =
        T (State.flatten e.grid s.displacement) r) ∧
      ∀ r < d * e.ops.nodesCount, State.flatten e'.grid s'.velocity r = T (State.flatten e.grid s.velocity) r)
      rs rs' :=
  carried_run hT e e' a a' hsteps hout hu hv₀ solver solver' hc hc' hstep
    (fun s t hb hst => by
      obtain ⟨h1, h2, -⟩ := between_step e hr hne (by rw [hk]; simp) _ s t hb hst
      exact ⟨h1, h2⟩)
    (fun s t hb hst => by
      obtain ⟨h1, h2, -⟩ := between_step e' hr' hne' (by rw [hk']; simp) _ s t hb hst
      exact ⟨h1, h2⟩)
    (fun s s' t t' hb hb' k hst hst' => by
      obtain ⟨h1, h2⟩ := dynamic_step_rows e hk hr hne hdim D hv hd _ hs s t hb hst
      obtain ⟨h1', h2'⟩ := dynamic_step_rows e' hk' hr' hne' hdim' D' hv' hd' _ hs' s' t' hb' hst'
      have ht : s'.solver.currentTime = s.solver.currentTime := hb'.time.symm.trans (k.1.trans hb.time)
      rw [hN] at h1' h2'
      rw [ht] at h2'
      exact carried_step hT sM sA sB (sf _) hM hA hB (Or.inl hdef) hdt k.2.1 k.2.2 h1 h1' h2 h2')
    store store' rs rs' sim sim' h h'

/-- C124, quasistatic elasticity. -/
theorem C124_quasistatic {c c' : ProblemClass} (e e' : Engine K) (hk : e.kind = .quasistaticVelocity)
    (hk' : e'.kind = .quasistaticVelocity) (hr : Registered c e.cls e.kind) (hr' : Registered c' e'.cls e'.kind)
    (hne : e.cls ≠ .direct) (hne' : e'.cls ≠ .direct) {d : ℕ} (hdim : e.ops.dimension = d)
    (hdim' : e'.ops.dimension = d) (hN : e'.ops.nodesCount = e.ops.nodesCount)
    (D D' : ℕ → Prop) [DecidablePred D] [DecidablePred D'] (hv : ValidBoundaries e.ops.nodesCount e.boundaries)
    (hv' : ValidBoundaries e'.ops.nodesCount e'.boundaries)
    (hd : DirichletData e.ops.nodesCount 2 e.boundaries D fun _ => 0)
    (hd' : DirichletData e'.ops.nodesCount 2 e'.boundaries D' fun _ => 0)
    (hT : CarriesFields (d * e.ops.nodesCount) D D' T)
    (sA : SameForm (d * e.ops.nodesCount) T e.ops.viscosity e'.ops.viscosity)
    (sB : SameForm (d * e.ops.nodesCount) T e.ops.elasticity e'.ops.elasticity)
    (sf : ∀ t, SameWork (d * e.ops.nodesCount) T (e.ops.force t) (e'.ops.force t))
    (hA : Dissipates (d * e.ops.nodesCount) e'.ops.viscosity)
    (hB : Dissipates (d * e.ops.nodesCount) e'.ops.elasticity)
    (hdef : DefiniteOn (d * e.ops.nodesCount) D' e'.ops.viscosity)
    (a a' : Engine.Arguments K) (hsteps : a'.nSteps = a.nSteps) (hout : a'.outputStep = a.outputStep)
    (hu : ∀ r < d * e.ops.nodesCount, State.flatten e'.grid a'.initialDisplacement r =
      T (State.flatten e.grid a.initialDisplacement) r)
    (hv₀ : ∀ r < d * e.ops.nodesCount, State.flatten e'.grid a'.initialVelocity r =
      T (State.flatten e.grid a.initialVelocity) r)
    (solver solver' : SolverState K) (hdt : 0 < solver.timeStep) (hstep : solver'.timeStep = solver.timeStep)
    (hc : solver.currentTime = 0) (hc' : solver'.currentTime = 0)
    (hs : ExactSolve e (d * e.ops.nodesCount) solver.timeStep)
    (hs' : ExactSolve e' (d * e'.ops.nodesCount) solver.timeStep)
    (store store' : ProductStore K V) (rs rs' : List (State K)) (sim sim' : Simulation K V)
    (h : e.timeDependentSolve a solver store = .ok (rs, sim))
    (h' : e'.timeDependentSolve a' solver' store' = .ok (rs', sim')) :
    List.Forall₂ (fun s s' => s'.time = s.time ∧
      (∀ r < d * e.ops.nodesCount, State.flatten e'.grid s'.displacement r =
        T (State.flatten e.grid s.displacement) r) ∧
      ∀ r < d * e.ops.nodesCount, State.flatten e'.grid s'.velocity r = T (State.flatten e.grid s.velocity) r)
      rs rs' :=
  carried_run hT e e' a a' hsteps hout hu hv₀ solver solver' hc hc' hstep
    (fun s t hb hst => by
      obtain ⟨h1, h2, -⟩ := between_step e hr hne (by rw [hk]; simp) _ s t hb hst
      exact ⟨h1, h2⟩)
    (fun s t hb hst => by
      obtain ⟨h1, h2, -⟩ := between_step e' hr' hne' (by rw [hk']; simp) _ s t hb hst
      exact ⟨h1, h2⟩)
    (fun s s' t t' hb hb' k hst hst' => by
      obtain ⟨h1, h2⟩ := quasistatic_step_rows e hk hr hne hdim D hv hd _ hs s t hb hst
      obtain ⟨h1', h2'⟩ := quasistatic_step_rows e' hk' hr' hne' hdim' D' hv' hd' _ hs' s' t' hb' hst'
      have ht : s'.solver.currentTime = s.solver.currentTime := hb'.time.symm.trans (k.1.trans hb.time)
      rw [hN] at h1' h2'
      rw [ht] at h2'
      refine carried_step (M := fun _ _ => 0) (M' := fun _ _ => 0) hT (fun x y => by rw [form_zero, form_zero]) sA sB
        (sf s.solver.currentTime) ⟨fun x => by simp [quad]⟩ hA hB (Or.inr hdef) hdt k.2.1 k.2.2 h1 h1' (fun r hr hD => ?_) fun r hr hD => ?_
      · have := h2 r hr hD
        simpa [act] using this
      · have := h2' r hr hD
        simpa [act] using this)
    store store' rs rs' sim sim' h h'

/-- C124, waves, from the beginning or resumed. -/
theorem C124_wave {c c' : ProblemClass} (e e' : Engine K) (hk : e.kind = .wave) (hk' : e'.kind = .wave)
    (hr : Registered c e.cls e.kind) (hr' : Registered c' e'.cls e'.kind)
    (hne : e.cls ≠ .direct) (hne' : e'.cls ≠ .direct) (hN : e'.ops.nodesCount = e.ops.nodesCount)
    (D D' : ℕ → Prop) [DecidablePred D] [DecidablePred D'] (hv : ValidBoundaries e.ops.nodesCount e.boundaries)
    (hv' : ValidBoundaries e'.ops.nodesCount e'.boundaries)
    (hd : DirichletData e.ops.nodesCount 1 e.boundaries D fun _ => 0)
    (hd' : DirichletData e'.ops.nodesCount 1 e'.boundaries D' fun _ => 0)
    (hT : CarriesFields e.ops.nodesCount D D' T)
    (sM : SameForm e.ops.nodesCount T e.ops.acceleration e'.ops.acceleration)
    (sB : SameForm e.ops.nodesCount T e.ops.poisson e'.ops.poisson)
    (sf : ∀ t, SameWork e.ops.nodesCount T (e.ops.force t) (e'.ops.force t))
    (hM : Dissipates e.ops.nodesCount e'.ops.acceleration) (hB : Dissipates e.ops.nodesCount e'.ops.poisson)
    (hdef : DefiniteOn e.ops.nodesCount D' e'.ops.acceleration)
    (a a' : Engine.Arguments K) (hsteps : a'.nSteps = a.nSteps) (hout : a'.outputStep = a.outputStep)
    (resume resume' : Option (State K))
    (ht : (resume'.elim 0 fun s => s.time) = resume.elim 0 fun s => s.time)
    (hu : ∀ r < e.ops.nodesCount,
      State.flatten e'.grid (resume'.elim a'.initialDisplacement fun s => s.displacement) r =
      T (State.flatten e.grid (resume.elim a.initialDisplacement fun s => s.displacement)) r)
    (hv₀ : ∀ r < e.ops.nodesCount, State.flatten e'.grid (resume'.elim a'.initialVelocity fun s => s.velocity) r =
      T (State.flatten e.grid (resume.elim a.initialVelocity fun s => s.velocity)) r)
    (solver solver' : SolverState K) (hdt : 0 < solver.timeStep) (hstep : solver'.timeStep = solver.timeStep)
    (hs : ExactSolve e e.ops.nodesCount solver.timeStep)
    (hs' : ExactSolve e' e'.ops.nodesCount solver.timeStep)
    (store store' : ProductStore K V) (rs rs' : List (State K)) (sim sim' : Simulation K V)
    (h : e.waveSolve a resume solver store = .ok (rs, sim))
    (h' : e'.waveSolve a' resume' solver' store' = .ok (rs', sim')) :
    List.Forall₂ (fun s s' => s'.time = s.time ∧
      (∀ r < e.ops.nodesCount, State.flatten e'.grid s'.displacement r =
        T (State.flatten e.grid s.displacement) r) ∧
      ∀ r < e.ops.nodesCount, State.flatten e'.grid s'.velocity r = T (State.flatten e.grid s.velocity) r)
      rs rs' := by
  rw [Engine.waveSolve_eq] at h h'
  obtain ⟨s0, h0, h⟩ := bind_inv _ _ _ h
  obtain ⟨s0', h0', h'⟩ := bind_inv _ _ _ h'
  rw [hsteps, hout] at h'
  obtain ⟨b1, i1⟩ := wave_started e a resume solver store s0 h0
  obtain ⟨b2, i2⟩ := wave_started e' a' resume' solver' store' s0' h0'
  rw [hstep] at b2
  refine carried_outputs hT e e' solver.timeStep a.products a'.products
    (fun s t hb hst => by
      obtain ⟨h1, h2, -⟩ := between_step e hr hne (by rw [hk]; simp) _ s t hb hst
      exact ⟨h1, h2⟩)
    (fun s t hb hst => by
      obtain ⟨h1, h2, -⟩ := between_step e' hr' hne' (by rw [hk']; simp) _ s t hb hst
      exact ⟨h1, h2⟩)
    (fun s s' t t' hb hb' k hst hst' => by
      obtain ⟨h1, h2⟩ := wave_step_rows e hk hr hne D hv hd _ hs s t hb hst
      obtain ⟨h1', h2'⟩ := wave_step_rows e' hk' hr' hne' D' hv' hd' _ hs' s' t' hb' hst'
      have ht : s'.solver.currentTime = s.solver.currentTime := hb'.time.symm.trans (k.1.trans hb.time)
      rw [hN] at h1' h2'
      rw [ht] at h2'
      refine carried_step (A := fun _ _ => 0) (A' := fun _ _ => 0) hT sM (fun x y => by rw [form_zero, form_zero]) sB
        (sf s.solver.currentTime) hM ⟨fun x => by simp [quad]⟩ hB (Or.inl hdef) hdt k.2.1 k.2.2 h1 h1'
        (fun r hr hD => ?_) fun r hr hD => ?_
      · have := h2 r hr hD
        rw [← this]
        simp [act]
      · have := h2' r hr hD
        rw [← this]
        simp [act])
    _ s0 s0' b1 b2 ?_ rs rs' sim sim' h h'
  rw [i1, i2]
  cases resume <;> cases resume' <;> exact ⟨ht, hu, hv₀⟩

end

/-! ### Rotations, reflections and translations -/

section
variable {K : Type} [Field K]

/-- The supports hold all coordinates of a node or none. -/
def HoldsNodes (d N : ℕ) (D : ℕ → Prop) : Prop :=
  ∀ p < N, ∀ a < d, ∀ b < d, D (a * N + p) → D (b * N + p)

theorem sameWork_on {n : ℕ} {T : (ℕ → K) → ℕ → K} {f f' g : ℕ → K} (h : ∀ r < n, g r = f' r)
    (hf : SameWork n T f f') : SameWork n T f g := fun x => by
  rw [← hf x]
  exact Finset.sum_congr rfl fun r hr => by rw [h r (Finset.mem_range.1 hr)]

theorem position_lt {d N r : ℕ} (hr : r < d * N) : 0 < N ∧ r % N < N ∧ r / N < d := by
  have hN : 0 < N := by
    rcases Nat.eq_zero_or_pos N with h | h
    · simp [h] at hr
    · exact h
  exact ⟨hN, Nat.mod_lt _ hN, (Nat.div_lt_iff_lt_mul hN).2 hr⟩

/-- Turned fields. -/
theorem turned_carries {d N : ℕ} {R : ℕ → ℕ → K} (h : Orthogonal d R) {D : ℕ → Prop} (hD : HoldsNodes d N D) :
    CarriesFields (d * N) D D (turned d N R) where
  on x y hxy r hr := by
    obtain ⟨-, h1, -⟩ := position_lt hr
    exact Finset.sum_congr rfl fun b hb => by rw [hxy _ (block_lt (Finset.mem_range.1 hb) h1)]
  linear a b x y r hr := by
    unfold turned
    rw [Finset.mul_sum, Finset.mul_sum, ← Finset.sum_add_distrib]
    exact Finset.sum_congr rfl fun c _ => by ring
  held x hx r hr hDr := by
    obtain ⟨-, h1, h2⟩ := position_lt hr
    refine Finset.sum_eq_zero fun b hb => ?_
    have hb := Finset.mem_range.1 hb
    rw [hx _ (block_lt hb h1) (hD _ h1 _ h2 b hb (by rw [Nat.div_add_mod']; exact hDr)), mul_zero]
  onto y hy := by
    refine ⟨turned d N (fun i j => R j i) y, fun r hr hDr => ?_, fun r hr => ?_⟩
    · obtain ⟨-, h1, h2⟩ := position_lt hr
      refine Finset.sum_eq_zero fun b hb => ?_
      have hb := Finset.mem_range.1 hb
      rw [hy _ (block_lt hb h1) (hD _ h1 _ h2 b hb (by rw [Nat.div_add_mod']; exact hDr)), mul_zero]
    · obtain ⟨-, h1, h2⟩ := position_lt hr
      have e1 : turned d N R (turned d N (fun i j => R j i) y) r =
          ∑ b ∈ Finset.range d, ∑ c ∈ Finset.range d, R (r / N) b * R c b * y (c * N + r % N) := by
        unfold turned
        refine Finset.sum_congr rfl fun b _ => ?_
        rw [Finset.mul_sum]
        exact Finset.sum_congr rfl fun c _ => by rw [block_div _ h1, block_mod _ h1]; ring
      rw [e1, Finset.sum_comm]
      have e2 : ∀ c ∈ Finset.range d, ∑ b ∈ Finset.range d, R (r / N) b * R c b * y (c * N + r % N) =
          if r / N = c then y (c * N + r % N) else 0 := fun c hc => by
        rw [← Finset.sum_mul, (h (r / N) h2 c (Finset.mem_range.1 hc)).2]
        split <;> simp
      rw [Finset.sum_congr rfl e2, Finset.sum_ite_eq, if_pos (Finset.mem_range.2 h2), Nat.div_add_mod']

/-- Turned vectors have the same products. -/
theorem turned_dot {d N : ℕ} {R : ℕ → ℕ → K} (h : Orthogonal d R) (x y : ℕ → K) {p q : ℕ} (hp : p < N)
    (hq : q < N) :
    ∑ a ∈ Finset.range d, component N (turned d N R x) a p * component N (turned d N R y) a q =
      ∑ a ∈ Finset.range d, component N x a p * component N y a q := by
  rw [← diagonal_rot h fun a b => component N x a p * component N y b q]
  refine Finset.sum_congr rfl fun a _ => ?_
  simp only [component, turned, block_div _ hp, block_mod _ hp, block_div _ hq, block_mod _ hq]
  rw [Finset.sum_mul_sum]
  exact Finset.sum_congr rfl fun b _ => Finset.sum_congr rfl fun c _ => by ring

/-- Turned loads do the same work. -/
theorem turned_work {d N : ℕ} {R : ℕ → ℕ → K} (h : Orthogonal d R) (f : ℕ → K) :
    SameWork (d * N) (turned d N R) f (turned d N R f) := by
  intro x
  rw [sum_range_mul, sum_range_mul, Finset.sum_comm, Finset.sum_comm (s := Finset.range d)]
  exact Finset.sum_congr rfl fun p hp => turned_dot h x f (Finset.mem_range.1 hp) (Finset.mem_range.1 hp)

theorem mass_turned {N : ℕ} {R : ℕ → ℕ → K} (h : Orthogonal 2 R) (U : ℕ → ℕ → K) (density : K) :
    SameForm (2 * N) (turned 2 N R) (Plane.acceleration N U density) (Plane.acceleration N U density) := by
  have key : ∀ x y : ℕ → K, form (2 * N) (2 * N) (Plane.acceleration N U density) x y =
      density * ∑ p ∈ Finset.range N, ∑ q ∈ Finset.range N,
        U p q * ∑ a ∈ Finset.range 2, component N x a p * component N y a q := by
    intro x y
    have : Plane.acceleration N U density = fun r s => density * block N (fun a b p q => match a, b with
      | 0, 0 => U p q
      | 1, 1 => U p q
      | _, _ => 0) r s := rfl
    rw [this, form_mul, form_block]
    simp only [Finset.sum_range_succ, Finset.sum_range_zero, zero_add, form_zero, add_zero]
    unfold form
    rw [← Finset.sum_add_distrib]
    congr 1
    refine Finset.sum_congr rfl fun p _ => ?_
    rw [← Finset.sum_add_distrib]
    exact Finset.sum_congr rfl fun q _ => by ring
  intro x y
  rw [key, key]
  congr 1
  exact Finset.sum_congr rfl fun p hp => Finset.sum_congr rfl fun q hq => by
    rw [turned_dot h x y (Finset.mem_range.1 hp) (Finset.mem_range.1 hq)]

end

section
variable {K : Type} [Field K] [LinearOrder K] [IsStrictOrderedRing K]

/-- C124: moving, turning and reflecting a plane body leaves the forms of mass, elasticity and viscosity as they
are. -/
theorem C124_turned2 {N : ℕ} {elements : List (List ℕ)} {nodes : ℕ → ℕ → K} (hv : ValidElements 2 N elements)
    (hn : Nondegenerate2 elements nodes) {R : ℕ → ℕ → K} (h : Orthogonal 2 R) (a : ℕ → K)
    (density mu lam : K) :
    let m := basicMatrices2 elements nodes
    let m' := basicMatrices2 elements (similar 2 1 R a nodes)
    SameForm (2 * N) (turned 2 N R) (Plane.acceleration N m.U density) (Plane.acceleration N m'.U density) ∧
    SameForm (2 * N) (turned 2 N R) (Plane.constitutive N m.W mu lam) (Plane.constitutive N m'.W mu lam) := by
  intro m m'
  refine ⟨?_, fun x y => C90_elasticity2 hv hn h one_ne_zero a mu lam x y⟩
  have : m'.U = m.U := by
    funext p q
    have := ((C90_similar2 hn h one_ne_zero a).2 p q).2.1
    simpa using this
  rw [this]
  exact mass_turned h m.U density

end

section
variable {K : Type} [Field K]

/-- The distance of two nodes does not change. -/
theorem edge_similar {R : ℕ → ℕ → K} (h : Orthogonal 2 R) (b : ℕ → K) (nodes : ℕ → ℕ → K) (p q : ℕ) :
    ∑ k ∈ Finset.range 2, (similar 2 1 R b nodes p k - similar 2 1 R b nodes q k) ^ 2 =
      ∑ k ∈ Finset.range 2, (nodes p k - nodes q k) ^ 2 := by
  have h0 := (h 0 (by norm_num) 0 (by norm_num)).1
  have h1 := (h 1 (by norm_num) 1 (by norm_num)).1
  have h2 := (h 0 (by norm_num) 1 (by norm_num)).1
  simp only [Finset.sum_range_succ, Finset.sum_range_zero, zero_add, if_true, if_neg (show ¬ (0 = 1) by omega),
    similar] at h0 h1 h2 ⊢
  linear_combination (nodes p 0 - nodes q 0) ^ 2 * h0 + (nodes p 1 - nodes q 1) ^ 2 * h1 +
    2 * (nodes p 0 - nodes q 0) * (nodes p 1 - nodes q 1) * h2

/-- The nodes of the moved surfaces have the same share of the surface. -/
theorem surface_similar {R : ℕ → ℕ → K} (h : Orthogonal 2 R) (b : ℕ → K) (nodes : ℕ → ℕ → K) (sqrt : K → K)
    (surfaces : List (List ℕ)) :
    surfacePerBoundaryNode sqrt 2 surfaces (similar 2 1 R b nodes) = surfacePerBoundaryNode sqrt 2 surfaces nodes := by
  unfold surfacePerBoundaryNode
  congr 1
  funext s surface
  have : elementVolumePart sqrt 2 surface.length (elementNodes (similar 2 1 R b nodes) surface) =
      elementVolumePart sqrt 2 surface.length (elementNodes nodes surface) := by
    simp only [elementVolumePart, if_true, euclideanNorm, elementNodes]
    rw [edge_similar h]
  rw [this]

end

section
variable {K : Type} [Field K] [LinearOrder K] [IsStrictOrderedRing K]

/-- C124: when the densities of the forces are turned with the body, then so are the assembled loads. -/
theorem C124_loads2 {N : ℕ} {elements : List (List ℕ)} {nodes : ℕ → ℕ → K} (hn : Nondegenerate2 elements nodes)
    {R : ℕ → ℕ → K} (h : Orthogonal 2 R) (b : ℕ → K) (sqrt : K → K) (neumann : List (List ℕ))
    (inner outer inner' outer' : ℕ → ℕ → K)
    (hi : ∀ p < N, ∀ k < 2, inner' p k = ∑ l ∈ Finset.range 2, R k l * inner p l)
    (ho : ∀ p < N, ∀ k < 2, outer' p k = ∑ l ∈ Finset.range 2, R k l * outer p l) :
    ∃ f f', integrateForces sqrt 2 N (basicMatrices2 elements nodes).volumeAtNodes neumann nodes inner outer =
        some f ∧
      integrateForces sqrt 2 N (basicMatrices2 elements (similar 2 1 R b nodes)).volumeAtNodes neumann
        (similar 2 1 R b nodes) inner' outer' = some f' ∧
      ∀ r < 2 * N, f' r = turned 2 N R f r := by
  have hs : ∀ (l : List (List ℕ)) (s₀ : ℕ → K), ∃ s : ℕ → K, l.foldlM (fun (s : ℕ → K) surface => do
      let part ← elementVolumePart sqrt 2 surface.length (elementNodes nodes surface)
      return fun p => if p ∈ surface then s p + part else s p) s₀ = some s := by
    intro l
    induction l with
    | nil => exact fun s₀ => ⟨s₀, rfl⟩
    | cons x l ih =>
      intro s₀
      simp only [List.foldlM_cons, elementVolumePart, if_true, Option.pure_def, Option.bind_eq_bind,
        Option.bind_some] at ih ⊢
      exact ih _
  obtain ⟨s, hs⟩ : ∃ s, surfacePerBoundaryNode sqrt 2 neumann nodes = some s := hs neumann _
  have hs' : surfacePerBoundaryNode sqrt 2 neumann (similar 2 1 R b nodes) = some s :=
    (surface_similar h b nodes sqrt neumann).trans hs
  have hvol : (basicMatrices2 elements (similar 2 1 R b nodes)).volumeAtNodes =
      (basicMatrices2 elements nodes).volumeAtNodes := by
    funext p q
    have := ((C90_similar2 hn h one_ne_zero b).2 p q).1
    simpa using this
  refine ⟨_, _, by simp only [integrateForces, integratedOuter, hs, Option.pure_def, Option.bind_eq_bind,
    Option.bind_some]; rfl, by simp only [integrateForces, integratedOuter, hs', hvol, Option.pure_def,
    Option.bind_eq_bind, Option.bind_some]; rfl, fun r hr => ?_⟩
  obtain ⟨-, h1, h2⟩ := position_lt hr
  simp only [turned, integratedInner]
  rw [ho _ h1 _ h2, Finset.sum_congr rfl fun q hq => by rw [hi q (Finset.mem_range.1 hq) _ h2]]
  simp only [block_div _ h1, block_mod _ h1, mul_add, Finset.sum_add_distrib, Finset.mul_sum]
  rw [Finset.sum_comm]
  congr 1
  · exact Finset.sum_congr rfl fun l _ => Finset.sum_congr rfl fun q _ => by ring
  · exact Finset.sum_congr rfl fun l _ => by ring

end

section
variable {K : Type} [Field K] [LinearOrder K] [IsStrictOrderedRing K] {V : Type}

omit [LinearOrder K] [IsStrictOrderedRing K] in
theorem same_carries (n : ℕ) (D : ℕ → Prop) : CarriesFields n D D (fun x : ℕ → K => x) :=
  ⟨fun _ _ h => h, fun _ _ _ _ _ _ => rfl, fun _ h => h, fun y h => ⟨y, h, fun _ _ => rfl⟩⟩

/-- C124: the waves in a body do not depend on its position and orientation. `d` is the dimension of the body; mass
and Poisson matrix are those of the mesh before and after the motion. -/
theorem C124_wave_moved {c c' : ProblemClass} {N d : ℕ} {elements : List (List ℕ)} {nodes : ℕ → ℕ → K}
    (hmesh : d = 2 ∧ Nondegenerate2 elements nodes ∧ ValidElements 2 N elements ∨
      d = 3 ∧ Nondegenerate3 elements nodes ∧ ValidElements 3 N elements)
    (hall : ∀ p < N, ∃ t ∈ elements, p ∈ t) {R : ℕ → ℕ → K} (h : Orthogonal d R) (b : ℕ → K)
    (density speed : K) (hdensity : 0 < density) (e e' : Engine K) (hk : e.kind = .wave) (hk' : e'.kind = .wave)
    (hr : Registered c e.cls e.kind) (hr' : Registered c' e'.cls e'.kind)
    (hne : e.cls ≠ .direct) (hne' : e'.cls ≠ .direct) (hN : e.ops.nodesCount = N) (hN' : e'.ops.nodesCount = N)
    (hg : e.grid.nodesCount = N) (hg' : e'.grid.nodesCount = N)
    (hacc : e.ops.acceleration = if d = 2 then Plane.acceleration N (basicMatrices2 elements nodes).U density
      else Space.acceleration N (basicMatrices3 elements nodes).U density)
    (hacc' : e'.ops.acceleration =
      if d = 2 then Plane.acceleration N (basicMatrices2 elements (similar 2 1 R b nodes)).U density
      else Space.acceleration N (basicMatrices3 elements (similar 3 1 R b nodes)).U density)
    (hpoi : e.ops.poisson = if d = 2 then poissonMatrix 2 (basicMatrices2 elements nodes).W speed
      else poissonMatrix 3 (basicMatrices3 elements nodes).W speed)
    (hpoi' : e'.ops.poisson =
      if d = 2 then poissonMatrix 2 (basicMatrices2 elements (similar 2 1 R b nodes)).W speed
      else poissonMatrix 3 (basicMatrices3 elements (similar 3 1 R b nodes)).W speed)
    (hbs : e'.boundaries = e.boundaries) (D : ℕ → Prop) [DecidablePred D] (hb : ValidBoundaries N e.boundaries)
    (hd : DirichletData N 1 e.boundaries D fun _ => 0) (hf : ∀ t, ∀ p < N, e'.ops.force t p = e.ops.force t p)
    (a : Engine.Arguments K) (resume : Option (State K)) (solver : SolverState K) (hdt : 0 < solver.timeStep)
    (hs : ExactSolve e N solver.timeStep) (hs' : ExactSolve e' N solver.timeStep)
    (store store' : ProductStore K V) (rs rs' : List (State K)) (sim sim' : Simulation K V)
    (hrun : e.waveSolve a resume solver store = .ok (rs, sim))
    (hrun' : e'.waveSolve a resume solver store' = .ok (rs', sim')) :
    List.Forall₂ (fun s s' => s'.time = s.time ∧ (∀ p < N, s'.displacement p 0 = s.displacement p 0) ∧
      ∀ p < N, s'.velocity p 0 = s.velocity p 0) rs rs' := by
  subst hN
  have same : e'.ops.acceleration = e.ops.acceleration ∧ e'.ops.poisson = e.ops.poisson ∧
      Dissipates e.ops.nodesCount e.ops.acceleration ∧ Dissipates e.ops.nodesCount e.ops.poisson ∧
      DefiniteOn e.ops.nodesCount D e.ops.acceleration := by
    rcases hmesh with ⟨rfl, hn, hv⟩ | ⟨rfl, hn, hv⟩
    · simp only [if_true] at hacc hacc' hpoi hpoi'
      have hU : (basicMatrices2 elements (similar 2 1 R b nodes)).U = (basicMatrices2 elements nodes).U := by
        funext p q
        simpa using ((C90_similar2 hn h one_ne_zero b).2 p q).2.1
      have hW : poissonMatrix 2 (basicMatrices2 elements (similar 2 1 R b nodes)).W speed =
          poissonMatrix 2 (basicMatrices2 elements nodes).W speed := by
        funext p q
        exact (C90_poisson 1 one_pos b speed p q).1 hn h
      obtain ⟨-, -, -, o4, o5⟩ := C71_operators2 hv hn density 0 0 0 0 speed hdensity.le le_rfl le_rfl le_rfl le_rfl
      rw [hacc', hpoi', hU, hW, hacc, hpoi]
      exact ⟨rfl, rfl, ⟨o4.nonneg⟩, ⟨o5.nonneg⟩, (C74_mass2 hv hn density hdensity hall D).2⟩
    · simp only [if_neg (show ¬ (3 = 2) by omega)] at hacc hacc' hpoi hpoi'
      have hU : (basicMatrices3 elements (similar 3 1 R b nodes)).U = (basicMatrices3 elements nodes).U := by
        funext p q
        simpa using ((C90_similar3 hn h one_pos b).2 p q).2.1
      have hW : poissonMatrix 3 (basicMatrices3 elements (similar 3 1 R b nodes)).W speed =
          poissonMatrix 3 (basicMatrices3 elements nodes).W speed := by
        funext p q
        rw [(C90_poisson 1 one_pos b speed p q).2 hn h, one_mul]
      obtain ⟨-, -, o3, -⟩ := C71_operators3 hv hn density 0 speed hdensity.le le_rfl
      obtain ⟨d1, d2⟩ := scalar_mass3 hv hn density hdensity hall D
      rw [hacc', hpoi', hU, hW, hacc, hpoi]
      exact ⟨rfl, rfl, ⟨d1.nonneg⟩, ⟨o3.nonneg⟩, d2⟩
  obtain ⟨m1, m2, m3, m4, m5⟩ := same
  have hfl : ∀ (x : ℕ → ℕ → K), ∀ p < e.ops.nodesCount, State.flatten e.grid x p = x p 0 ∧
      State.flatten e'.grid x p = x p 0 := fun x p hp => by
    unfold State.flatten
    rw [hg, hg', Nat.mod_eq_of_lt hp, Nat.div_eq_of_lt hp]
    exact ⟨rfl, rfl⟩
  have key := C124_wave e e' hk hk' hr hr' hne hne' hN' D D hb (by rw [hN', hbs]; exact hb) hd
    (by rw [hN', hbs]; exact hd) (same_carries _ D) (fun x y => by rw [m1]) (fun x y => by rw [m2])
    (fun t x => Finset.sum_congr rfl fun r hr => by rw [hf t r (Finset.mem_range.1 hr)]) (by rw [m1]; exact m3)
    (by rw [m2]; exact m4) (by rw [m1]; exact m5) a a rfl rfl resume resume rfl
    (fun r hr => by rw [(hfl _ r hr).1, (hfl _ r hr).2]) (fun r hr => by rw [(hfl _ r hr).1, (hfl _ r hr).2])
    solver solver hdt rfl hs (by rw [hN']; exact hs') store store' rs rs' sim sim' hrun hrun'
  refine key.imp fun s s' hss => ⟨hss.1, fun p hp => ?_, fun p hp => ?_⟩
  · rw [← (hfl s'.displacement p hp).2, hss.2.1 p hp, (hfl _ p hp).1]
  · rw [← (hfl s'.velocity p hp).2, hss.2.2 p hp, (hfl _ p hp).1]

end

/-! ### Renumbering -/

section
variable {K : Type} [Field K]

theorem renumber_reorders {N : ℕ} {σ : ℕ → ℕ} (h : Reorders N σ) (d : ℕ) :
    Reorders (d * N) fun r => r / N * N + σ (r % N) := by
  refine ⟨fun r hr => ?_, fun r hr s hs he => ?_⟩
  · obtain ⟨-, h1, h2⟩ := position_lt hr
    exact block_lt h2 (h.1 _ h1)
  · obtain ⟨-, h1, -⟩ := position_lt hr
    obtain ⟨-, h2, -⟩ := position_lt hs
    beta_reduce at he
    have e1 := congrArg (· / N) he
    have e2 := congrArg (· % N) he
    beta_reduce at e1 e2
    rw [block_div _ (h.1 _ h1), block_div _ (h.1 _ h2)] at e1
    rw [block_mod _ (h.1 _ h1), block_mod _ (h.1 _ h2)] at e2
    rw [← Nat.div_add_mod' r N, ← Nat.div_add_mod' s N, e1, h.2 _ h1 _ h2 e2]

/-- Renumbered fields. -/
theorem renumbered_carries {d N : ℕ} {σ : ℕ → ℕ} (h : Reorders N σ) {D D' : ℕ → Prop}
    (hD : ∀ b < d, ∀ p < N, D' (b * N + p) ↔ D (b * N + σ p)) :
    CarriesFields (d * N) D D' (renumbered N σ : (ℕ → K) → ℕ → K) where
  on x y hxy r hr := hxy _ ((renumber_reorders h d).1 r hr)
  linear a b x y r hr := rfl
  held x hx r hr hDr := by
    obtain ⟨-, h1, h2⟩ := position_lt hr
    refine hx _ ((renumber_reorders h d).1 r hr) ((hD _ h2 _ h1).1 ?_)
    rw [Nat.div_add_mod']
    exact hDr
  onto y hy := by
    obtain ⟨hlt, hinj⟩ := renumber_reorders h d
    classical
    have hinv : ∀ r < d * N, ∃ s, s < d * N ∧ s / N * N + σ (s % N) = r / N * N + σ (r % N) := fun r hr => ⟨r, hr, rfl⟩
    refine ⟨fun t => if ht : ∃ s, s < d * N ∧ s / N * N + σ (s % N) = t then y ht.choose else 0,
      fun t htn hDt => ?_, fun r hr => ?_⟩
    · beta_reduce
      split
      · rename_i ht
        obtain ⟨h1, h2⟩ := ht.choose_spec
        obtain ⟨-, h3, h4⟩ := position_lt h1
        refine hy _ h1 ?_
        have := (hD _ h4 _ h3).2 (by rw [h2]; exact hDt)
        rwa [Nat.div_add_mod'] at this
      · rfl
    · unfold renumbered
      beta_reduce
      rw [dif_pos (hinv r hr)]
      obtain ⟨h1, h2⟩ := (hinv r hr).choose_spec
      rw [hinj _ h1 r hr h2]

theorem renumbered_form {d N : ℕ} {σ : ℕ → ℕ} (h : Reorders N σ) {A A' : ℕ → ℕ → K}
    (hA : ∀ r < d * N, ∀ s < d * N, A' r s = A (r / N * N + σ (r % N)) (s / N * N + σ (s % N))) :
    SameForm (d * N) (renumbered N σ) A A' := by
  intro x y
  have hτ := renumber_reorders h d
  unfold form
  symm
  rw [← sum_reorder hτ]
  refine Finset.sum_congr rfl fun r hr => ?_
  rw [← sum_reorder hτ]
  exact Finset.sum_congr rfl fun s hs => by
    rw [hA r (Finset.mem_range.1 hr) s (Finset.mem_range.1 hs)]; rfl

/-- Renumbered loads do the same work. -/
theorem renumbered_work {d N : ℕ} {σ : ℕ → ℕ} (h : Reorders N σ) (f : ℕ → K) :
    SameWork (d * N) (renumbered N σ) f (renumbered N σ f) := by
  intro x
  exact sum_reorder (renumber_reorders h d) fun r => x r * f r

end

section
variable {K : Type} [Field K] [LinearOrder K] [IsStrictOrderedRing K]

/-- C124: renumbering the nodes of a mesh leaves the forms of mass, elasticity and viscosity as they are. Node `p` of
the second mesh is node `σ p` of the first. -/
theorem C124_renumbered2 {N : ℕ} {elements : List (List ℕ)} {nodes nodes' : ℕ → ℕ → K}
    (hv : ValidElements 2 N elements) {σ : ℕ → ℕ} (h : Reorders N σ) (hnodes : ∀ p < N, nodes (σ p) = nodes' p)
    (density mu lam : K) :
    let m := basicMatrices2 (elements.map (List.map σ)) nodes
    let m' := basicMatrices2 elements nodes'
    SameForm (2 * N) (renumbered N σ) (Plane.acceleration N m.U density) (Plane.acceleration N m'.U density) ∧
    SameForm (2 * N) (renumbered N σ) (Plane.constitutive N m.W mu lam) (Plane.constitutive N m'.W mu lam) := by
  intro m m'
  have hm := fun p hp q hq => (C90_relabel (elements := elements) σ h.2 hnodes p q hp hq).1 hv
  constructor
  · refine renumbered_form h fun r hr s hs => ?_
    obtain ⟨-, h1, -⟩ := position_lt hr
    obtain ⟨-, h2, -⟩ := position_lt hs
    obtain ⟨-, hU, -, -⟩ := hm _ h1 _ h2
    simp only [Plane.acceleration, block, block_div _ (h.1 _ h1), block_div _ (h.1 _ h2), block_mod _ (h.1 _ h1),
      block_mod _ (h.1 _ h2)]
    split <;> simp only [m, m', hU]
  · refine renumbered_form h fun r hr s hs => ?_
    obtain ⟨-, h1, -⟩ := position_lt hr
    obtain ⟨-, h2, -⟩ := position_lt hs
    obtain ⟨-, -, -, hW⟩ := hm _ h1 _ h2
    simp only [Plane.constitutive, block, block_div _ (h.1 _ h1), block_div _ (h.1 _ h2), block_mod _ (h.1 _ h1),
      block_mod _ (h.1 _ h2)]
    split <;> simp only [m, m', hW]

/-- C124: the same for tetrahedra. -/
theorem C124_renumbered3 {N : ℕ} {elements : List (List ℕ)} {nodes nodes' : ℕ → ℕ → K}
    (hv : ValidElements 3 N elements) {σ : ℕ → ℕ} (h : Reorders N σ) (hnodes : ∀ p < N, nodes (σ p) = nodes' p)
    (density mu lam : K) :
    let m := basicMatrices3 (elements.map (List.map σ)) nodes
    let m' := basicMatrices3 elements nodes'
    SameForm (3 * N) (renumbered N σ) (Space.acceleration N m.U density) (Space.acceleration N m'.U density) ∧
    SameForm (3 * N) (renumbered N σ) (Space.constitutive N m.W mu lam) (Space.constitutive N m'.W mu lam) := by
  intro m m'
  have hm := fun p hp q hq => (C90_relabel (elements := elements) σ h.2 hnodes p q hp hq).2 hv
  constructor
  · refine renumbered_form h fun r hr s hs => ?_
    obtain ⟨-, h1, -⟩ := position_lt hr
    obtain ⟨-, h2, -⟩ := position_lt hs
    obtain ⟨-, hU, -, -⟩ := hm _ h1 _ h2
    simp only [Space.acceleration, block, block_div _ (h.1 _ h1), block_div _ (h.1 _ h2), block_mod _ (h.1 _ h1),
      block_mod _ (h.1 _ h2)]
    split <;> simp only [m, m', hU]
  · refine renumbered_form h fun r hr s hs => ?_
    obtain ⟨-, h1, -⟩ := position_lt hr
    obtain ⟨-, h2, -⟩ := position_lt hs
    obtain ⟨-, -, -, hW⟩ := hm _ h1 _ h2
    simp only [Space.constitutive, block, block_div _ (h.1 _ h1), block_div _ (h.1 _ h2), block_mod _ (h.1 _ h1),
      block_mod _ (h.1 _ h2)]
    split <;> simp only [m, m', hW]

omit [Field K] [LinearOrder K] [IsStrictOrderedRing K] in
/-- Supports given by nodes hold all their coordinates. -/
theorem holdsNodes_of_data {N d : ℕ} {bs : List (CondBoundary K)} {D : ℕ → Prop} {g : ℕ → K}
    (hv : ValidBoundaries N bs) (hd : DirichletData N d bs D g) : HoldsNodes d N D := by
  intro p hp a ha b hb hDa
  obtain ⟨v, bd, hbd, k, hk, j, n, hn, hr, -⟩ := (hd.dofs _).1 hDa
  have hnN : n < N := (hv bd hbd).1 n (List.mem_of_getElem? hn)
  have e1 := congrArg (· % N) hr
  beta_reduce at e1
  rw [block_mod _ hp, block_mod _ hnN] at e1
  subst e1
  exact (hd.dofs _).2 ⟨_, bd, hbd, b, hb, j, p, hn, rfl, rfl⟩

/-- A simulation of the plane body with these elements and nodes. -/
structure PlaneBody (e : Engine K) (N : ℕ) (elements : List (List ℕ)) (nodes : ℕ → ℕ → K)
    (density mu lam theta zeta : K) : Prop where
  grid : e.grid.nodesCount = N
  nodesCount : e.ops.nodesCount = N
  dimension : e.ops.dimension = 2
  acceleration : e.ops.acceleration = Plane.acceleration N (basicMatrices2 elements nodes).U density
  elasticity : e.ops.elasticity = Plane.constitutive N (basicMatrices2 elements nodes).W mu lam
  viscosity : e.ops.viscosity = Plane.constitutive N (basicMatrices2 elements nodes).W theta zeta

omit [LinearOrder K] [IsStrictOrderedRing K] in
theorem flatten_turned {N : ℕ} {grid grid' : Grid K} (hg : grid.nodesCount = N) (hg' : grid'.nodesCount = N)
    (R : ℕ → ℕ → K) (x x' : ℕ → ℕ → K) :
    (∀ r < 2 * N, State.flatten grid' x' r = turned 2 N R (State.flatten grid x) r) ↔
      ∀ p < N, ∀ k < 2, x' p k = ∑ l ∈ Finset.range 2, R k l * x p l := by
  have key : ∀ p < N, ∀ k < 2, turned 2 N R (State.flatten grid x) (k * N + p) =
      ∑ l ∈ Finset.range 2, R k l * x p l := fun p hp k hk => by
    unfold turned State.flatten
    rw [hg, block_div _ hp, block_mod _ hp]
    exact Finset.sum_congr rfl fun l _ => by rw [block_div _ hp, block_mod _ hp]
  have key' : ∀ p < N, ∀ k < 2, State.flatten grid' x' (k * N + p) = x' p k := fun p hp k hk => by
    unfold State.flatten
    rw [hg', block_div _ hp, block_mod _ hp]
  refine ⟨fun h p hp k hk => ?_, fun h r hr => ?_⟩
  · rw [← key' p hp k hk, h _ (block_lt hk hp), key p hp k hk]
  · obtain ⟨-, h1, h2⟩ := position_lt hr
    have := h _ h1 _ h2
    rw [← key' _ h1 _ h2, ← key _ h1 _ h2, Nat.div_add_mod'] at this
    exact this

/-- C124: when a plane body, its loads and its initial displacements and velocities are moved, turned or reflected,
then the simulation returns the turned or reflected displacements and velocities at the same times. For quasistatic
simulations the body is held by its supports. -/
theorem C124_moved2 {V : Type} {c c' : ProblemClass} {N : ℕ} {elements : List (List ℕ)} {nodes : ℕ → ℕ → K}
    (hv : ValidElements 2 N elements) (hn : Nondegenerate2 elements nodes) {R : ℕ → ℕ → K} (h : Orthogonal 2 R)
    (b : ℕ → K) (density mu lam theta zeta : K) (hdensity : 0 ≤ density) (hmu : 0 ≤ mu) (hlam : 0 ≤ lam)
    (htheta : 0 ≤ theta) (hzeta : 0 ≤ zeta) (e e' : Engine K)
    (he : PlaneBody e N elements nodes density mu lam theta zeta)
    (he' : PlaneBody e' N elements (similar 2 1 R b nodes) density mu lam theta zeta)
    (hbs : e'.boundaries = e.boundaries) (D : ℕ → Prop) [DecidablePred D] (hb : ValidBoundaries N e.boundaries)
    (hd : DirichletData N 2 e.boundaries D fun _ => 0) (hkind : e'.kind = e.kind)
    (hk : e.kind = .dynamicVelocity ∧ 0 < density ∧ (∀ p < N, ∃ t ∈ elements, p ∈ t) ∨
      e.kind = .quasistaticVelocity ∧ 0 < theta ∧ ∀ p < N, Held elements (fun q => q < N ∧ D q ∧ D (N + q)) p)
    (hr : Registered c e.cls e.kind) (hr' : Registered c' e'.cls e'.kind)
    (hne : e.cls ≠ .direct) (hne' : e'.cls ≠ .direct)
    (hf : ∀ t, ∀ r < 2 * N, e'.ops.force t r = turned 2 N R (e.ops.force t) r)
    (a a' : Engine.Arguments K) (hsteps : a'.nSteps = a.nSteps) (hout : a'.outputStep = a.outputStep)
    (hu : ∀ p < N, ∀ k < 2, a'.initialDisplacement p k = ∑ l ∈ Finset.range 2, R k l * a.initialDisplacement p l)
    (hv₀ : ∀ p < N, ∀ k < 2, a'.initialVelocity p k = ∑ l ∈ Finset.range 2, R k l * a.initialVelocity p l)
    (solver solver' : SolverState K) (hdt : 0 < solver.timeStep) (hstep : solver'.timeStep = solver.timeStep)
    (hc : solver.currentTime = 0) (hc' : solver'.currentTime = 0)
    (hs : ExactSolve e (2 * N) solver.timeStep) (hs' : ExactSolve e' (2 * N) solver.timeStep)
    (store store' : ProductStore K V) (rs rs' : List (State K)) (sim sim' : Simulation K V)
    (hrun : e.timeDependentSolve a solver store = .ok (rs, sim))
    (hrun' : e'.timeDependentSolve a' solver' store' = .ok (rs', sim')) :
    List.Forall₂ (fun s s' => s'.time = s.time ∧
      (∀ p < N, ∀ k < 2, s'.displacement p k = ∑ l ∈ Finset.range 2, R k l * s.displacement p l) ∧
      ∀ p < N, ∀ k < 2, s'.velocity p k = ∑ l ∈ Finset.range 2, R k l * s.velocity p l) rs rs' := by
  obtain ⟨g1, g2, g3, g4, g5, g6⟩ := he
  obtain ⟨g1', g2', g3', g4', g5', g6'⟩ := he'
  subst g2
  have hn' := nondegenerate2_similar hn h one_ne_zero b
  obtain ⟨s1, s2⟩ := C124_turned2 hv hn h b density mu lam
  obtain ⟨-, s3⟩ := C124_turned2 hv hn h b density theta zeta
  obtain ⟨o1, o2, o3, -⟩ := C71_operators2 hv hn' density mu lam theta zeta 0 hdensity hmu hlam htheta hzeta
  rw [← g4, ← g4'] at s1
  rw [← g5, ← g5'] at s2
  rw [← g6, ← g6'] at s3
  rw [← g4'] at o1
  rw [← g5'] at o2
  rw [← g6'] at o3
  have hT := turned_carries h (holdsNodes_of_data hb hd)
  have hb' : ValidBoundaries e'.ops.nodesCount e'.boundaries := by rw [g2', hbs]; exact hb
  have hd' : DirichletData e'.ops.nodesCount 2 e'.boundaries D fun _ => 0 := by rw [g2', hbs]; exact hd
  have hs' : ExactSolve e' (2 * e'.ops.nodesCount) solver.timeStep := by rw [g2']; exact hs'
  have hf' : ∀ t, SameWork (2 * e.ops.nodesCount) (turned 2 e.ops.nodesCount R) (e.ops.force t) (e'.ops.force t) :=
    fun t => sameWork_on (hf t) (turned_work h _)
  have hu' := (flatten_turned g1 g1' R _ _).2 hu
  have hv' := (flatten_turned g1 g1' R _ _).2 hv₀
  have key : List.Forall₂ (fun s s' : State K => s'.time = s.time ∧
      (∀ r < 2 * e.ops.nodesCount, State.flatten e'.grid s'.displacement r =
        turned 2 e.ops.nodesCount R (State.flatten e.grid s.displacement) r) ∧
      ∀ r < 2 * e.ops.nodesCount, State.flatten e'.grid s'.velocity r =
        turned 2 e.ops.nodesCount R (State.flatten e.grid s.velocity) r) rs rs' := by
    rcases hk with ⟨k1, k2, k3⟩ | ⟨k1, k2, k3⟩
    · refine C124_dynamic e e' k1 (hkind.trans k1) hr hr' hne hne' g3 g3' g2' D D hb hb' hd hd' hT s1 s3 s2 hf'
        ⟨o1.nonneg⟩ o3 ⟨o2.nonneg⟩ ?_ a a' hsteps hout hu' hv' solver solver' hdt hstep hc hc' hs hs' store store' rs rs'
        sim sim' hrun hrun'
      rw [g4']
      exact (C74_mass2 hv hn' density k2 k3 D).1
    · refine C124_quasistatic e e' k1 (hkind.trans k1) hr hr' hne hne' g3 g3' g2' D D hb hb' hd hd' hT s3 s2 hf'
        o3 ⟨o2.nonneg⟩ ?_ a a' hsteps hout hu' hv' solver solver' hdt hstep hc hc' hs hs' store store' rs rs'
        sim sim' hrun hrun'
      rw [g6']
      exact C74_elastic2 hv hn' theta zeta k2 hzeta D k3
  exact key.imp fun s s' hss => ⟨hss.1, (flatten_turned g1 g1' R _ _).1 hss.2.1, (flatten_turned g1 g1' R _ _).1 hss.2.2⟩

omit [LinearOrder K] [IsStrictOrderedRing K] in
theorem flatten_renumbered {d N : ℕ} {σ : ℕ → ℕ} (h : Reorders N σ) {grid grid' : Grid K} (hg : grid.nodesCount = N)
    (hg' : grid'.nodesCount = N) (x x' : ℕ → ℕ → K) :
    (∀ r < d * N, State.flatten grid' x' r = renumbered N σ (State.flatten grid x) r) ↔
      ∀ p < N, ∀ k < d, x' p k = x (σ p) k := by
  have key : ∀ p < N, ∀ k < d, renumbered N σ (State.flatten grid x) (k * N + p) = x (σ p) k := fun p hp k hk => by
    unfold renumbered State.flatten
    rw [hg, block_div _ hp, block_mod _ hp, block_div _ (h.1 p hp), block_mod _ (h.1 p hp)]
  have key' : ∀ p < N, ∀ k < d, State.flatten grid' x' (k * N + p) = x' p k := fun p hp k hk => by
    unfold State.flatten
    rw [hg', block_div _ hp, block_mod _ hp]
  refine ⟨fun h p hp k hk => ?_, fun h r hr => ?_⟩
  · rw [← key' p hp k hk, h _ (block_lt hk hp), key p hp k hk]
  · obtain ⟨-, h1, h2⟩ := position_lt hr
    have := h _ h1 _ h2
    rw [← key' _ h1 _ h2, ← key _ h1 _ h2, Nat.div_add_mod'] at this
    exact this

/-- C124: when the nodes of a plane body get other numbers, then the simulation returns the same displacements and
velocities under the new numbers: node `p` of the second body is node `σ p` of the first. -/
theorem C124_relabelled2 {V : Type} {c c' : ProblemClass} {N : ℕ} {elements : List (List ℕ)}
    {nodes nodes' : ℕ → ℕ → K} (hv : ValidElements 2 N elements) (hn : Nondegenerate2 elements nodes') {σ : ℕ → ℕ}
    (h : Reorders N σ) (hnodes : ∀ p < N, nodes (σ p) = nodes' p)
    (density mu lam theta zeta : K) (hdensity : 0 ≤ density) (hmu : 0 ≤ mu) (hlam : 0 ≤ lam)
    (htheta : 0 ≤ theta) (hzeta : 0 ≤ zeta) (e e' : Engine K)
    (he : PlaneBody e N (elements.map (List.map σ)) nodes density mu lam theta zeta)
    (he' : PlaneBody e' N elements nodes' density mu lam theta zeta)
    (D D' : ℕ → Prop) [DecidablePred D] [DecidablePred D'] (hb : ValidBoundaries N e.boundaries)
    (hb' : ValidBoundaries N e'.boundaries) (hd : DirichletData N 2 e.boundaries D fun _ => 0)
    (hd' : DirichletData N 2 e'.boundaries D' fun _ => 0)
    (hD : ∀ k < 2, ∀ p < N, D' (k * N + p) ↔ D (k * N + σ p)) (hkind : e'.kind = e.kind)
    (hk : e.kind = .dynamicVelocity ∧ 0 < density ∧ (∀ p < N, ∃ t ∈ elements, p ∈ t) ∨
      e.kind = .quasistaticVelocity ∧ 0 < theta ∧ ∀ p < N, Held elements (fun q => q < N ∧ D' q ∧ D' (N + q)) p)
    (hr : Registered c e.cls e.kind) (hr' : Registered c' e'.cls e'.kind)
    (hne : e.cls ≠ .direct) (hne' : e'.cls ≠ .direct)
    (hf : ∀ t, ∀ r < 2 * N, e'.ops.force t r = renumbered N σ (e.ops.force t) r)
    (a a' : Engine.Arguments K) (hsteps : a'.nSteps = a.nSteps) (hout : a'.outputStep = a.outputStep)
    (hu : ∀ p < N, ∀ k < 2, a'.initialDisplacement p k = a.initialDisplacement (σ p) k)
    (hv₀ : ∀ p < N, ∀ k < 2, a'.initialVelocity p k = a.initialVelocity (σ p) k)
    (solver solver' : SolverState K) (hdt : 0 < solver.timeStep) (hstep : solver'.timeStep = solver.timeStep)
    (hc : solver.currentTime = 0) (hc' : solver'.currentTime = 0)
    (hs : ExactSolve e (2 * N) solver.timeStep) (hs' : ExactSolve e' (2 * N) solver.timeStep)
    (store store' : ProductStore K V) (rs rs' : List (State K)) (sim sim' : Simulation K V)
    (hrun : e.timeDependentSolve a solver store = .ok (rs, sim))
    (hrun' : e'.timeDependentSolve a' solver' store' = .ok (rs', sim')) :
    List.Forall₂ (fun s s' => s'.time = s.time ∧
      (∀ p < N, ∀ k < 2, s'.displacement p k = s.displacement (σ p) k) ∧
      ∀ p < N, ∀ k < 2, s'.velocity p k = s.velocity (σ p) k) rs rs' := by
  obtain ⟨g1, g2, g3, g4, g5, g6⟩ := he
  obtain ⟨g1', g2', g3', g4', g5', g6'⟩ := he'
  subst g2
  obtain ⟨s1, s2⟩ := C124_renumbered2 hv h hnodes density mu lam
  obtain ⟨-, s3⟩ := C124_renumbered2 hv h hnodes density theta zeta
  obtain ⟨o1, o2, o3, -⟩ := C71_operators2 hv hn density mu lam theta zeta 0 hdensity hmu hlam htheta hzeta
  rw [← g4, ← g4'] at s1
  rw [← g5, ← g5'] at s2
  rw [← g6, ← g6'] at s3
  rw [← g4'] at o1
  rw [← g5'] at o2
  rw [← g6'] at o3
  have hT : CarriesFields (2 * e.ops.nodesCount) D D' (renumbered e.ops.nodesCount σ : (ℕ → K) → ℕ → K) :=
    renumbered_carries h hD
  have hs' : ExactSolve e' (2 * e'.ops.nodesCount) solver.timeStep := by rw [g2']; exact hs'
  have hf' : ∀ t, SameWork (2 * e.ops.nodesCount) (renumbered e.ops.nodesCount σ) (e.ops.force t)
    (e'.ops.force t) := fun t => sameWork_on (hf t) (renumbered_work h _)
  have hu' := (flatten_renumbered (d := 2) h g1 g1' _ _).2 hu
  have hv' := (flatten_renumbered (d := 2) h g1 g1' _ _).2 hv₀
  have key : List.Forall₂ (fun s s' : State K => s'.time = s.time ∧
      (∀ r < 2 * e.ops.nodesCount, State.flatten e'.grid s'.displacement r =
        renumbered e.ops.nodesCount σ (State.flatten e.grid s.displacement) r) ∧
      ∀ r < 2 * e.ops.nodesCount, State.flatten e'.grid s'.velocity r =
        renumbered e.ops.nodesCount σ (State.flatten e.grid s.velocity) r) rs rs' := by
    rcases hk with ⟨k1, k2, k3⟩ | ⟨k1, k2, k3⟩
    · refine C124_dynamic e e' k1 (hkind.trans k1) hr hr' hne hne' g3 g3' g2' D D' hb (by rw [g2']; exact hb') hd
        (by rw [g2']; exact hd') hT s1 s3 s2 hf'
        ⟨o1.nonneg⟩ o3 ⟨o2.nonneg⟩ ?_ a a' hsteps hout hu' hv' solver solver' hdt hstep hc hc' hs hs' store store' rs rs'
        sim sim' hrun hrun'
      rw [g4']
      exact (C74_mass2 hv hn density k2 k3 D').1
    · refine C124_quasistatic e e' k1 (hkind.trans k1) hr hr' hne hne' g3 g3' g2' D D' hb (by rw [g2']; exact hb') hd
        (by rw [g2']; exact hd') hT s3 s2 hf'
        o3 ⟨o2.nonneg⟩ ?_ a a' hsteps hout hu' hv' solver solver' hdt hstep hc hc' hs hs' store store' rs rs'
        sim sim' hrun hrun'
      rw [g6']
      exact C74_elastic2 hv hn theta zeta k2 hzeta D' k3
  exact key.imp fun s s' hss => ⟨hss.1, (flatten_renumbered h g1 g1' _ _).1 hss.2.1,
    (flatten_renumbered h g1 g1' _ _).1 hss.2.2⟩

theorem surface_renumbered {d N : ℕ} {σ : ℕ → ℕ} (h : Reorders N σ) (hd : d = 2 ∨ d = 3) {nodes nodes' : ℕ → ℕ → K}
    (hnodes : ∀ p < N, nodes (σ p) = nodes' p) (sqrt : K → K) (surfaces : List (List ℕ))
    (hs : ∀ s ∈ surfaces, s.length = d ∧ ∀ p ∈ s, p < N) :
    ∃ s s', surfacePerBoundaryNode sqrt d (surfaces.map (List.map σ)) nodes = some s ∧
      surfacePerBoundaryNode sqrt d surfaces nodes' = some s' ∧ ∀ p < N, s' p = s (σ p) := by
  suffices key : ∀ s₀ s₀' : ℕ → K, (∀ p < N, s₀' p = s₀ (σ p)) →
      ∃ s s', (surfaces.map (List.map σ)).foldlM (fun (s : ℕ → K) surface => do
          let part ← elementVolumePart sqrt d surface.length (elementNodes nodes surface)
          return fun p => if p ∈ surface then s p + part else s p) s₀ = some s ∧
        surfaces.foldlM (fun (s : ℕ → K) surface => do
          let part ← elementVolumePart sqrt d surface.length (elementNodes nodes' surface)
          return fun p => if p ∈ surface then s p + part else s p) s₀' = some s' ∧ ∀ p < N, s' p = s (σ p) from
    key _ _ fun _ _ => rfl
  induction surfaces with
  | nil => exact fun s₀ s₀' h₀ => ⟨s₀, s₀', rfl, rfl, h₀⟩
  | cons x l ih =>
    intro s₀ s₀' h₀
    obtain ⟨hx, hN⟩ := hs x (List.mem_cons_self ..)
    have hat : ∀ i < d, elementNodes nodes (x.map σ) i = elementNodes nodes' x i := fun i hi => by
      have hi' : i < x.length := hx ▸ hi
      simp only [elementNodes, List.getD_eq_getElem?_getD, List.getElem?_map, List.getElem?_eq_getElem hi',
        Option.map_some, Option.getD_some]
      exact hnodes _ (hN _ (List.getElem_mem hi'))
    obtain ⟨c, hc, hc'⟩ : ∃ c, elementVolumePart sqrt d (x.map σ).length (elementNodes nodes (x.map σ)) = some c ∧
        elementVolumePart sqrt d x.length (elementNodes nodes' x) = some c := by
      rw [List.length_map]
      rcases hd with rfl | rfl
      · refine ⟨_, rfl, ?_⟩
        simp only [elementVolumePart, if_true, hat 0 (by norm_num), hat 1 (by norm_num)]
      · refine ⟨_, rfl, ?_⟩
        simp only [elementVolumePart, if_true, hat 0 (by norm_num), hat 1 (by norm_num), hat 2 (by norm_num)]
        rfl
    obtain ⟨s, s', e, e', he⟩ := ih (fun t ht => hs t (List.mem_cons_of_mem _ ht))
      (fun p => if p ∈ x.map σ then s₀ p + c else s₀ p) (fun p => if p ∈ x then s₀' p + c else s₀' p) fun p hp => by
        have : σ p ∈ x.map σ ↔ p ∈ x := by
          rw [List.mem_map]
          exact ⟨fun ⟨q, hq, hqp⟩ => h.2 _ (hN q hq) _ hp hqp ▸ hq, fun hx => ⟨p, hx, rfl⟩⟩
        simp only [this, h₀ p hp]
    refine ⟨s, s', ?_, ?_, he⟩
    · rw [List.map_cons, List.foldlM_cons, hc]
      exact e
    · rw [List.foldlM_cons, hc']
      exact e'

theorem loads_renumbered {d N : ℕ} {σ : ℕ → ℕ} (h : Reorders N σ) (hd : d = 2 ∨ d = 3) {nodes nodes' : ℕ → ℕ → K}
    (hnodes : ∀ p < N, nodes (σ p) = nodes' p) (sqrt : K → K) (neumann : List (List ℕ))
    (hs : ∀ s ∈ neumann, s.length = d ∧ ∀ p ∈ s, p < N) {V V' : ℕ → ℕ → K}
    (hV : ∀ p < N, ∀ q < N, V (σ p) (σ q) = V' p q) (inner outer inner' outer' : ℕ → ℕ → K)
    (hi : ∀ p < N, ∀ k < d, inner' p k = inner (σ p) k) (ho : ∀ p < N, ∀ k < d, outer' p k = outer (σ p) k) :
    ∃ f f', integrateForces sqrt d N V (neumann.map (List.map σ)) nodes inner outer = some f ∧
      integrateForces sqrt d N V' neumann nodes' inner' outer' = some f' ∧
      ∀ r < d * N, f' r = renumbered N σ f r := by
  obtain ⟨s, s', hs, hs', he⟩ := surface_renumbered h hd hnodes sqrt neumann hs
  refine ⟨_, _, by simp only [integrateForces, integratedOuter, hs, Option.pure_def, Option.bind_eq_bind,
    Option.bind_some]; rfl, by simp only [integrateForces, integratedOuter, hs', Option.pure_def,
    Option.bind_eq_bind, Option.bind_some]; rfl, fun r hr => ?_⟩
  obtain ⟨-, h1, h2⟩ := position_lt hr
  simp only [renumbered, integratedInner, block_div _ (h.1 _ h1), block_mod _ (h.1 _ h1)]
  rw [he _ h1, ho _ h1 _ h2, ← sum_reorder h fun q => V (σ (r % N)) q * inner q (r / N)]
  congr 1
  exact Finset.sum_congr rfl fun q hq => by
    rw [hV _ h1 _ (Finset.mem_range.1 hq), hi _ (Finset.mem_range.1 hq) _ h2]

/-- C124: when the nodes get other numbers, then the loads assembled from the same densities of forces are the same
under the new numbers. -/
theorem C124_loads_renumbered {d N : ℕ} {elements neumann : List (List ℕ)} {nodes nodes' : ℕ → ℕ → K}
    (hs : ∀ s ∈ neumann, s.length = d ∧ ∀ p ∈ s, p < N) {σ : ℕ → ℕ} (h : Reorders N σ)
    (hnodes : ∀ p < N, nodes (σ p) = nodes' p) (sqrt : K → K) (inner outer inner' outer' : ℕ → ℕ → K)
    (hi : ∀ p < N, ∀ k < d, inner' p k = inner (σ p) k) (ho : ∀ p < N, ∀ k < d, outer' p k = outer (σ p) k)
    (m m' : BasicMatrices K)
    (hm : d = 2 ∧ ValidElements 2 N elements ∧ m = basicMatrices2 (elements.map (List.map σ)) nodes ∧
        m' = basicMatrices2 elements nodes' ∨
      d = 3 ∧ ValidElements 3 N elements ∧ m = basicMatrices3 (elements.map (List.map σ)) nodes ∧
        m' = basicMatrices3 elements nodes') :
    ∃ f f', integrateForces sqrt d N m.volumeAtNodes (neumann.map (List.map σ)) nodes inner outer = some f ∧
      integrateForces sqrt d N m'.volumeAtNodes neumann nodes' inner' outer' = some f' ∧
      ∀ r < d * N, f' r = renumbered N σ f r := by
  refine loads_renumbered h (hm.imp And.left And.left) hnodes sqrt neumann hs (fun p hp q hq => ?_) _ _ _ _ hi ho
  rcases hm with ⟨-, hv, rfl, rfl⟩ | ⟨-, hv, rfl, rfl⟩
  · exact ((C90_relabel (elements := elements) σ h.2 hnodes p q hp hq).1 hv).1
  · exact ((C90_relabel (elements := elements) σ h.2 hnodes p q hp hq).2 hv).1

end

/-! ### Examples -/

section

open Classical in
/-- The square of `CreepBody.lean` with inertia, at these nodes, under these loads, solved exactly. -/
noncomputable def squareAt (elements : List (List ℕ)) (nodes : ℕ → ℕ → ℝ) (bs : List (CondBoundary ℝ))
    (force : ℝ → ℕ → ℝ) : Engine ℝ where
  grid := ⟨4, 2, nodes⟩
  cls := .dynamicSchur
  kind := .dynamicVelocity
  ops := { heldSquareOps with
    acceleration := Plane.acceleration 4 (basicMatrices2 elements nodes).U 1
    elasticity := Plane.constitutive 4 (basicMatrices2 elements nodes).W 4 5
    viscosity := Plane.constitutive 4 (basicMatrices2 elements nodes).W 2 3
    force := force }
  boundaries := bs
  solve := fun s _ => if h : ∃ x, Solves 8 s.system x then h.choose else fun _ => 0

theorem squareAt_exact {elements : List (List ℕ)} {nodes : ℕ → ℕ → ℝ} {bs : List (CondBoundary ℝ)}
    (hv : ValidElements 2 4 elements) (hn : Nondegenerate2 elements nodes)
    (hall : ∀ p < 4, ∃ t ∈ elements, p ∈ t) {D : ℕ → Prop} [DecidablePred D] (hb : ValidBoundaries 4 bs)
    (hd : DirichletData 4 2 bs D fun _ => 0) (force : ℝ → ℕ → ℝ) (dt : ℝ) (hdt : 0 < dt) :
    ExactSolve (squareAt elements nodes bs force) (2 * 4) dt := by
  intro S guess var hvar h
  obtain ⟨x, hx, -⟩ := (C74_elasticity2 hv hn hall 1 4 5 2 3 (by norm_num) (by norm_num) (by norm_num) (by norm_num)
    (by norm_num) (squareAt elements nodes bs force).ops rfl rfl rfl rfl rfl bs D _ hb hd var dt hdt hvar S.system).1 h
  have hex : ∃ x, Solves 8 S.system x := ⟨x, hx⟩
  have : (squareAt elements nodes bs force).solve S guess = hex.choose := dif_pos hex
  rw [this]
  exact hex.choose_spec

theorem squareAt_body (elements : List (List ℕ)) (nodes : ℕ → ℕ → ℝ) (bs : List (CondBoundary ℝ))
    (force : ℝ → ℕ → ℝ) : PlaneBody (squareAt elements nodes bs force) 4 elements nodes 1 4 5 2 3 :=
  ⟨rfl, rfl, rfl, rfl, rfl, rfl⟩

/-- A quarter turn of the plane. -/
def quarterTurn2 (k l : ℕ) : ℝ := if k = 0 ∧ l = 1 then -1 else if k = 1 ∧ l = 0 then 1 else 0

theorem quarterTurn2_orthogonal : Orthogonal 2 quarterTurn2 := by
  intro i hi j hj
  interval_cases i <;> interval_cases j <;> simp [quarterTurn2, Finset.sum_range_succ]

/-- The hypotheses of `C124_moved2` are met by the square and the square after a quarter turn. -/
example (force : ℝ → ℕ → ℝ) (b : ℕ → ℝ) (a : Engine.Arguments ℝ) (solver : SolverState ℝ) (hdt : 0 < solver.timeStep)
    (hc : solver.currentTime = 0) (store : ProductStore ℝ Unit) (a' : Engine.Arguments ℝ)
    (ha : a' = { a with
      initialDisplacement := fun p k => ∑ l ∈ Finset.range 2, quarterTurn2 k l * a.initialDisplacement p l
      initialVelocity := fun p k => ∑ l ∈ Finset.range 2, quarterTurn2 k l * a.initialVelocity p l }) (rs rs' : List (State ℝ))
    (sim sim' : Simulation ℝ Unit)
    (h : (squareAt heldSquareElements heldSquareNodes heldSquareBoundaries force).timeDependentSolve a solver store =
      .ok (rs, sim))
    (h' : (squareAt heldSquareElements (similar 2 1 quarterTurn2 b heldSquareNodes) heldSquareBoundaries
        fun t => turned 2 4 quarterTurn2 (force t)).timeDependentSolve a' solver store = .ok (rs', sim')) :
    List.Forall₂ (fun s s' => s'.time = s.time ∧ ∀ p < 4, s'.displacement p 0 = -s.displacement p 1 ∧
      s'.displacement p 1 = s.displacement p 0) rs rs' := by
  have hall : ∀ p < 4, ∃ t ∈ heldSquareElements, p ∈ t := by unfold heldSquareElements; decide
  have hn' := nondegenerate2_similar heldSquare_mesh.2 quarterTurn2_orthogonal one_ne_zero b
  have hreg : Registered .DynamicDisplacementProblem .dynamicSchur .dynamicVelocity :=
    ⟨⟨.dynamic, by decide +kernel, by decide +kernel⟩, Or.inl (by decide +kernel)⟩
  have := C124_moved2 heldSquare_mesh.1 heldSquare_mesh.2 quarterTurn2_orthogonal b 1 4 5 2 3 (by norm_num)
    (by norm_num) (by norm_num) (by norm_num) (by norm_num) _ _ (squareAt_body _ _ heldSquareBoundaries force)
    (squareAt_body _ _ heldSquareBoundaries fun t => turned 2 4 quarterTurn2 (force t)) rfl _ heldSquare_boundaries.1 heldSquare_boundaries.2 rfl
    (Or.inl ⟨rfl, by norm_num, hall⟩) hreg hreg SolverClass.noConfusion SolverClass.noConfusion (fun _ _ _ => rfl) a a'
    (by rw [ha]) (by rw [ha]) (fun _ _ _ _ => by rw [ha]) (fun _ _ _ _ => by rw [ha]) solver solver hdt rfl hc hc
    (squareAt_exact heldSquare_mesh.1 heldSquare_mesh.2 hall heldSquare_boundaries.1 heldSquare_boundaries.2 force _ hdt)
    (squareAt_exact heldSquare_mesh.1 hn' hall heldSquare_boundaries.1 heldSquare_boundaries.2 _ _ hdt)
    store store rs rs' sim sim' h h'
  refine this.imp fun s s' hss => ⟨hss.1, fun p hp => ⟨?_, ?_⟩⟩
  · rw [hss.2.1 p hp 0 (by norm_num)]
    simp [quarterTurn2, Finset.sum_range_succ]
  · rw [hss.2.1 p hp 1 (by norm_num)]
    simp [quarterTurn2, Finset.sum_range_succ]

open Classical in
/-- The column of `SpaceWaves.lean` at these nodes. -/
noncomputable def columnWaveAt (nodes : ℕ → ℕ → ℝ) : Engine ℝ :=
  { columnWave with
    ops := { columnWave.ops with
      acceleration := Space.acceleration 9 (basicMatrices3 columnMesh nodes).U 5
      poisson := poissonMatrix 3 (basicMatrices3 columnMesh nodes).W 2 } }

theorem columnWaveAt_exact {nodes : ℕ → ℕ → ℝ} (hn : Nondegenerate3 columnMesh nodes) (dt : ℝ) (hdt : 0 < dt) :
    ExactSolve (columnWaveAt nodes) 9 dt := by
  have hall : ∀ p < 9, ∃ t ∈ columnMesh, p ∈ t := by unfold columnMesh; decide
  intro S guess var hvar h
  obtain ⟨x, hx, -⟩ := (C74_scalar3 column_valid hn hall 5 2 (by norm_num) (by norm_num)
    (columnWaveAt nodes).ops rfl rfl rfl _ _ _ (columnSupport_data 1).1 (columnSupport_data 1).2 var dt hdt hvar
    S.system).1 h
  have hex : ∃ x, Solves 9 S.system x := ⟨x, hx⟩
  have : (columnWaveAt nodes).solve S guess = hex.choose := dif_pos hex
  rw [this]
  exact hex.choose_spec

/-- The hypotheses of `C124_wave_moved` are met by the column and the column after a quarter turn. -/
example (b : ℕ → ℝ) (a : Engine.Arguments ℝ) (resume : Option (State ℝ)) (solver : SolverState ℝ)
    (hdt : 0 < solver.timeStep) (store : ProductStore ℝ Unit) (rs rs' : List (State ℝ)) (sim sim' : Simulation ℝ Unit)
    (h : (columnWaveAt (columnNodes 2)).waveSolve a resume solver store = .ok (rs, sim))
    (h' : (columnWaveAt (similar 3 1 quarterTurn b (columnNodes 2))).waveSolve a resume solver store =
      .ok (rs', sim')) :
    List.Forall₂ (fun s s' => s'.time = s.time ∧ (∀ p < 9, s'.displacement p 0 = s.displacement p 0) ∧
      ∀ p < 9, s'.velocity p 0 = s.velocity p 0) rs rs' := by
  have hn := column_nondegenerate (2 : ℝ) (by norm_num)
  have hn' := nondegenerate3_similar hn quarterTurn_orthogonal one_ne_zero b
  have hreg : Registered .WaveProblem .dynamicGlobal .wave :=
    ⟨⟨.dynamic, by decide +kernel, by decide +kernel⟩, Or.inl (by decide +kernel)⟩
  exact C124_wave_moved (Or.inr ⟨rfl, hn, column_valid⟩) (by unfold columnMesh; decide) quarterTurn_orthogonal b 5 2
    (by norm_num) (columnWaveAt (columnNodes 2)) (columnWaveAt (similar 3 1 quarterTurn b (columnNodes 2))) rfl rfl
    hreg hreg SolverClass.noConfusion SolverClass.noConfusion rfl rfl rfl rfl rfl rfl rfl rfl rfl _
    (columnSupport_data 1).1 (columnSupport_data 1).2 (fun _ _ _ => rfl) a resume solver hdt
    (columnWaveAt_exact hn _ hdt) (columnWaveAt_exact hn' _ hdt) store store rs rs' sim sim' h h'

/-- The hypotheses of `C124_loads2` are met by the square with weight and a load on its lower side, which point to
the right after the quarter turn. -/
example : ∃ f f' : ℕ → ℝ,
    integrateForces Real.sqrt 2 4 (basicMatrices2 heldSquareElements heldSquareNodes).volumeAtNodes [[0, 1]]
      heldSquareNodes (fun _ k => if k = 1 then -1 else 0) (fun _ k => if k = 1 then -2 else 0) = some f ∧
    integrateForces Real.sqrt 2 4
      (basicMatrices2 heldSquareElements (similar 2 1 quarterTurn2 (fun _ => 3) heldSquareNodes)).volumeAtNodes [[0, 1]]
      (similar 2 1 quarterTurn2 (fun _ => 3) heldSquareNodes) (fun _ k => if k = 0 then 1 else 0)
      (fun _ k => if k = 0 then 2 else 0) = some f' ∧ ∀ r < 2 * 4, f' r = turned 2 4 quarterTurn2 f r := by
  refine C124_loads2 heldSquare_mesh.2 quarterTurn2_orthogonal (fun _ => 3) Real.sqrt _ _ _ _ _ (fun p _ k hk => ?_)
    fun p _ k hk => ?_ <;> interval_cases k <;> simp [quarterTurn2, Finset.sum_range_succ]

/-- The hypotheses on the numbering in `C124_relabelled2` are met when the corners of the square are numbered from
another one, with the supports at the same corners. -/
example : Reorders 4 (fun p => (p + 1) % 4) ∧
    heldSquareElements.map (List.map fun p => (p + 1) % 4) = [[1, 2, 3], [1, 3, 0]] ∧
    (∀ p < 4, heldSquareNodes ((p + 1) % 4) = (fun q => heldSquareNodes ((q + 1) % 4)) p) ∧
    Nondegenerate2 heldSquareElements (fun q => heldSquareNodes ((q + 1) % 4)) ∧
    ∀ k < 2, ∀ p < 4, (k * 4 + p < 8 ∧ (k * 4 + p) % 4 ∈ [1, 2]) ↔
      (k * 4 + (p + 1) % 4 < 8 ∧ (k * 4 + (p + 1) % 4) % 4 ∈ [2, 3]) := by
  refine ⟨⟨by decide, by decide⟩, by decide, fun _ _ => rfl, fun e he => ?_, by decide⟩
  simp only [heldSquareElements, List.mem_cons, List.not_mem_nil, or_false] at he
  rcases he with rfl | rfl <;> simp [det2, vertices, heldSquareNodes]

/-- The hypotheses of `C124_loads_renumbered` are met by this numbering, weight, and a load on one side. -/
example : ∃ f f' : ℕ → ℝ,
    integrateForces Real.sqrt 2 4
      (basicMatrices2 (heldSquareElements.map (List.map fun p => (p + 1) % 4)) heldSquareNodes).volumeAtNodes
      ([[0, 1]].map (List.map fun p => (p + 1) % 4)) heldSquareNodes (fun _ k => if k = 1 then -1 else 0)
        (fun p k => if p = 2 ∧ k = 0 then 3 else 0) = some f ∧
    integrateForces Real.sqrt 2 4
      (basicMatrices2 heldSquareElements fun q => heldSquareNodes ((q + 1) % 4)).volumeAtNodes [[0, 1]]
      (fun q => heldSquareNodes ((q + 1) % 4)) (fun _ k => if k = 1 then -1 else 0)
      (fun p k => if p = 1 ∧ k = 0 then 3 else 0) = some f' ∧
    ∀ r < 2 * 4, f' r = renumbered 4 (fun p => (p + 1) % 4) f r := by
  refine C124_loads_renumbered (d := 2) (N := 4) (elements := heldSquareElements) (neumann := [[0, 1]])
    (σ := fun p => (p + 1) % 4) (by decide) ⟨by decide, by decide⟩ (fun _ _ => rfl) Real.sqrt
    (fun _ k => if k = 1 then -1 else 0) _ (fun _ k => if k = 1 then -1 else 0) _ (fun _ _ _ _ => rfl)
    (fun p hp k hk => ?_) (basicMatrices2 (heldSquareElements.map (List.map fun p => (p + 1) % 4)) heldSquareNodes)
    (basicMatrices2 heldSquareElements fun q => heldSquareNodes ((q + 1) % 4)) (.inl ⟨rfl, heldSquare_mesh.1, rfl, rfl⟩)
  interval_cases p <;> simp

end
end Conmech
