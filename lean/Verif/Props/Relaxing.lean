import Verif.Lemmas.Relaxing
import Verif.Props.SolverIndependence
import Verif.Props.CreepBody
import Verif.Props.Tensors
/-!
C115: the time steps of problems with relaxation follow the history of displacements of a body with long memory.
-/
namespace Conmech
open Spec

section
variable {n : ℕ} {D : ℕ → Prop} {E R : ℕ → ℕ → ℝ} {J : (ℕ → ℝ) → ℝ} {f : ℝ → ℕ → ℝ} {T : ℝ}

/-- C115. There is only one history of displacements. -/
theorem C115_unique (hE : StoresEnergy n E) (hdef : DefiniteOn n D E) (hR : StoresEnergy n R) {b₀ : ℕ → ℝ}
    {u u' : ℝ → ℕ → ℝ} (h : Relaxing n D E R J f T b₀ u) (h' : Relaxing n D E R J f T b₀ u') :
    ∀ t ∈ Set.Icc 0 T, ∀ r < n, u t r = u' t r := fun t ht r hr =>
  (C106_unique ⟨hE.nonneg⟩ hR hdef h.creep h'.creep (fun r _ => by simp) t ht r hr).2

/-- C115. A history of displacements exists for elastic bodies that are held, loads that change at a bounded
rate and convex contact. -/
theorem C115_exists (hE : StoresEnergy n E) (hdef : DefiniteOn n D E) (R : ℕ → ℕ → ℝ) (hJ : ConvexVec J)
    (hJn : DependsOn n J) (l : ℝ) (hT : 0 ≤ T) (hl : 0 ≤ l)
    (hf : ∀ s ∈ Set.Icc 0 T, ∀ t ∈ Set.Icc 0 T, ∀ r < n, |f s r - f t r| ≤ l * |s - t|) (b₀ : ℕ → ℝ) :
    ∃ u : ℝ → ℕ → ℝ, Relaxing n D E R J f T b₀ u ∧ ∃ cv cf, ModerateCreep n D E R f 0 T u cv cf := by
  obtain ⟨b, u, hm, h0, cv, cf, hmod⟩ := C106_exists hE hdef R hJ hJn T l hT hl hf b₀
  have hfc : ∀ r < n, ContinuousOn (fun t => f t r) (Set.Icc 0 T) := fun r hr => by
    have : LipschitzOnWith (Real.toNNReal l) (fun t => f t r) (Set.Icc 0 T) :=
      LipschitzOnWith.of_dist_le_mul fun s hs t ht => by
        rw [Real.coe_toNNReal _ hl, Real.dist_eq, Real.dist_eq]; exact hf s hs t ht r hr
    exact this.continuousOn
  exact ⟨u, (creep_relaxing hE hdef hfc hm h0).1, cv, cf, hmod⟩

end

/-! ### Steps -/

section
variable {V : Type}

/-- The cost of contact of a law that depends on nothing but the field. -/
noncomputable def instantCost (N : ℕ) (m : ContactSetting ℝ) (y : ℕ → ℝ) : ℝ :=
  contactCostFunctional Real.sqrt m.conditions (contactOf N m.nodes m.surfaces 0 (fun _ => 0) fun _ => 0) ⟨2 * N, y⟩

theorem instantCost_eq (N : ℕ) (m : ContactSetting ℝ) (hm : Instantaneous m.conditions)
    (hn : ∀ s ∈ m.surfaces, ∀ node ∈ s.edge, node < N) (dt : ℝ) (u v y : ℕ → ℝ) :
    contactCostFunctional Real.sqrt m.conditions (contactOf N m.nodes m.surfaces dt u v) ⟨2 * N, y⟩ =
      instantCost N m y := by
  have hy : ∀ old : Flat ℝ, Represents 2 ⟨2 * N, y⟩ old (fun node i => y (i * N + node)) N := fun old =>
    ⟨by norm_num, N, rfl, fun _ _ _ _ => rfl, fun _ _ _ h1 h2 => by omega⟩
  have hw : ∀ x : ℕ → ℝ, Represents 2 ⟨2 * N, x⟩ ⟨2 * N, x⟩ (fun node i => x (i * N + node)) N := fun x =>
    ⟨by norm_num, N, rfl, fun _ _ _ _ => rfl, fun _ _ _ h1 h2 => by omega⟩
  unfold instantCost
  rw [C48_quadrature Real.sqrt m.conditions (contactOf N m.nodes m.surfaces dt u v) ⟨2 * N, y⟩ _ _ N (hy _)
    (hw u) (by simp [contactOf]) hn,
    C48_quadrature Real.sqrt m.conditions (contactOf N m.nodes m.surfaces 0 (fun _ => 0) fun _ => 0) ⟨2 * N, y⟩ _ _ N
      (hy _) (hw fun _ => 0) (by simp [contactOf]) hn]
  have hden : ∀ (nrm : ℕ → ℝ) sn st sn' st' dt dt', density m.conditions 2 nrm sn st dt =
      density m.conditions 2 nrm sn' st' dt' := fun nrm sn st sn' st' dt dt' => by
    funext x
    obtain ⟨h1, h2, h3, h4⟩ := hm (normalComponent 2 x nrm) sn sn' dt dt'
    unfold density
    rw [h1, h2, h3, h4 _ st st']
  exact congrArg List.sum (List.map_congr_left fun s _ => by
    change quadrature _ _ (density m.conditions 2 _ _ _ _) _ = quadrature _ _ (density m.conditions 2 _ _ _ _) _
    rw [hden]
    rfl)

theorem instantCost_depends (N : ℕ) (m : ContactSetting ℝ)
    (hn : ∀ s ∈ m.surfaces, ∀ node ∈ s.edge, node < N) : DependsOn (2 * N) (instantCost N m) := by
  intro x y hxy
  have hx : ∀ (z : ℕ → ℝ) (_ : ∀ r < 2 * N, z r = x r) (old : Flat ℝ),
      Represents 2 ⟨2 * N, z⟩ old (fun node i => x (i * N + node)) N := fun z hz old =>
    ⟨by norm_num, N, rfl, fun i hi node hnode => hz _ (by interval_cases i <;> omega), fun _ _ _ h1 h2 => by omega⟩
  have hw : Represents 2 (⟨2 * N, fun _ => 0⟩ : Flat ℝ) ⟨2 * N, fun _ => 0⟩ (fun _ _ => 0) N :=
    ⟨by norm_num, N, rfl, fun _ _ _ _ => rfl, fun _ _ _ h1 h2 => by omega⟩
  unfold instantCost
  rw [C48_quadrature Real.sqrt m.conditions (contactOf N m.nodes m.surfaces 0 (fun _ => 0) fun _ => 0) ⟨2 * N, x⟩ _ _ N
      (hx x (fun _ _ => rfl) _) hw (by simp [contactOf]) hn,
    C48_quadrature Real.sqrt m.conditions (contactOf N m.nodes m.surfaces 0 (fun _ => 0) fun _ => 0) ⟨2 * N, y⟩ _ _ N
      (hx y (fun r hr => (hxy r hr).symm) _) hw (by simp [contactOf]) hn]

/-- A simulation object for a problem with relaxation: the condensed method, the only one that can take a step
(`C46_relaxed_global_wrong`), a tensor that does not depend on time, and supports that do not move. -/
structure RelaxationSetting (e : Engine ℝ) (m : ContactSetting ℝ) (R : ℕ → ℕ → ℝ) (D : ℕ → Prop) (C : ℕ) : Prop where
  cls : e.cls = .quasistaticRelaxedSchur
  kind : e.kind = .quasistaticRelaxation
  plane : e.ops.dimension = 2
  solve : ∃ minimise len, MinimiseContract minimise ∧
    e.solve = optimisedSolve minimise m e.kind e.ops e.boundaries len
  constant : ∀ t, e.ops.relaxation (some t) = .ok R
  boundaries : ValidBoundaries e.ops.nodesCount e.boundaries
  held : DirichletData e.ops.nodesCount 2 e.boundaries D fun _ => 0
  contact : C ≤ e.ops.nodesCount
  apart : SupportsApart e.ops.nodesCount C 2 D m.surfaces
  sqrt : m.sqrt = Real.sqrt
  instantaneous : Instantaneous m.conditions
  convex : ∀ σ ∈ m.surfaces, ConvexVec (density m.conditions 2 σ.normal 0 [] 0)

theorem RelaxationSetting.nodes {e : Engine ℝ} {m : ContactSetting ℝ} {R : ℕ → ℕ → ℝ} {D : ℕ → Prop} {C : ℕ}
    (h : RelaxationSetting e m R D C) : ∀ s ∈ m.surfaces, ∀ node ∈ s.edge, node < e.ops.nodesCount :=
  fun s hs node hnode => by
    have := h.contact
    rcases h.apart s hs node hnode with h | h <;> omega

theorem RelaxationSetting.density_convex {e : Engine ℝ} {m : ContactSetting ℝ} {R : ℕ → ℕ → ℝ} {D : ℕ → Prop} {C : ℕ}
    (h : RelaxationSetting e m R D C) (dt : ℝ) :
    ∀ σ ∈ m.surfaces, ∀ sn st, ConvexVec (density m.conditions 2 σ.normal sn st dt) := fun σ hσ sn st => by
  have : density m.conditions 2 σ.normal sn st dt = density m.conditions 2 σ.normal 0 [] 0 := by
    funext x
    obtain ⟨h1, h2, h3, h4⟩ := h.instantaneous (normalComponent 2 x σ.normal) sn 0 dt 0
    unfold density
    rw [h1, h2, h3, h4 _ st []]
  rw [this]
  exact h.convex σ hσ

theorem RelaxationSetting.cost_convex {e : Engine ℝ} {m : ContactSetting ℝ} {R : ℕ → ℕ → ℝ} {D : ℕ → Prop} {C : ℕ}
    (h : RelaxationSetting e m R D C) : ConvexVec (instantCost e.ops.nodesCount m) :=
  C48_contact_convex Real.sqrt isSqrt_real m.conditions _ (h.density_convex 0) _

/-- What holds between the steps of a run. -/
structure RelaxedBetween (inv : ℕ → (ℕ → ℕ → ℝ) → ℕ → ℕ → ℝ) (e : Engine ℝ) (C : ℕ) (dt : ℝ)
    (solver : SolverState ℝ) (s : Snapshot ℝ) : Prop where
  current : e.kind.update e.ops e.boundaries (currentVariables solver) = .ok solver.system
  absement : solver.bVector = State.flatten e.grid s.absement
  resting : solver.vVector = fun _ => 0
  time : s.time = solver.currentTime
  timeStep : solver.timeStep = dt
  condensed : solver.schur = some (SchurSolver.init inv e.ops.nodesCount C 2 false solver.system)

theorem relaxation_registered :
    Registered .RelaxationQuasistaticProblem .quasistaticRelaxedSchur .quasistaticRelaxation :=
  ⟨⟨.quasistaticRelaxation, by decide, _, by
    simp only [conmechRegistrations, List.mem_cons]
    exact Or.inr (Or.inr (Or.inr (Or.inr (Or.inr (Or.inr (Or.inr (Or.inr (Or.inl rfl)))))))), by decide, rfl⟩,
    Or.inl (by decide)⟩

/-- The system of a step. -/
theorem relaxation_system {e : Engine ℝ} {m : ContactSetting ℝ} {R : ℕ → ℕ → ℝ} {D : ℕ → Prop} {C : ℕ}
    (hset : RelaxationSetting e m R D C) {var : Variables ℝ} {b : ℕ → ℝ} {dt t : ℝ} (hb : var.absement = some b)
    (hdt : var.timeStep = some dt) (ht : var.time = some t) {S : System ℝ}
    (h : e.kind.update e.ops e.boundaries var = .ok S) :
    S = applyDirichlet e.ops.nodesCount 2 e.boundaries ⟨fun r s => e.ops.elasticity r s + R r s * dt,
      fun r => e.ops.force t r - matVec (2 * e.ops.nodesCount) R b r⟩ := by
  obtain ⟨lhs, rhs, h1, h2, h3⟩ := update_eliminated _ _ _ _ _ h
  rw [hset.kind] at h1 h2 h3
  have hR := hset.constant t
  have hp := hset.plane
  simp only [updateLhs, updateRhs, hb, hdt, ht, hR, hp, required, bind, Except.bind, pure, Except.pure,
    Except.ok.injEq] at h1 h2
  rw [h3, ← h1, ← h2, hset.plane]
  rfl

/-- `iterate` keeps the solver up to date. -/
theorem relaxation_iterate {e : Engine ℝ} {m : ContactSetting ℝ} {R : ℕ → ℕ → ℝ} {D : ℕ → Prop} {C : ℕ}
    (hset : RelaxationSetting e m R D C) (inv : ℕ → (ℕ → ℕ → ℝ) → ℕ → ℕ → ℝ) (s s' : SolverState ℝ)
    (h : e.iterate s = .ok s')
    (hs : s.schur = some (SchurSolver.init inv e.ops.nodesCount C 2 false s.system))
    (hvar : ∃ var b t, var.absement = some b ∧ var.timeStep = some s.timeStep ∧ var.time = some t ∧
      e.kind.update e.ops e.boundaries var = .ok s.system) :
    s'.schur = some (SchurSolver.init inv e.ops.nodesCount C 2 false s'.system) ∧
    e.kind.update e.ops e.boundaries (currentVariables s') = .ok s'.system := by
  have hcur := iterate_current e (by rw [hset.cls, hset.kind]; exact relaxation_registered) (by rw [hset.cls]; nofun)
    (by rw [hset.kind]; exact ⟨nofun, nofun⟩) s s' h
  refine ⟨?_, hcur⟩
  have hit := e.iterate_ok _ _ h
  have hts : s'.timeStep = s.timeStep := by rw [hit]
  obtain ⟨var, b, t, v1, v2, v3, hu⟩ := hvar
  have e1 := relaxation_system hset v1 v2 v3 hu
  have e2 := relaxation_system hset (b := s'.bVector) (dt := s.timeStep) (t := s'.currentTime) rfl
    (by rw [← hts]; rfl) rfl hcur
  have hl : s'.system.lhs = s.system.lhs := by
    rw [e1, e2]; exact applyDirichlet_lhs _ _ _ _ _ rfl
  unfold Engine.iterate at h
  cases h1 : s.iterate e.cls e.kind e.ops e.boundaries with
  | error err => rw [h1] at h; cases h
  | ok s1 =>
    rw [h1] at h
    obtain rfl : s1 = s' := by simpa [liftStatement] using h
    unfold SolverState.iterate at h1
    rw [hset.cls] at h1
    simp only [SolverClass.iterateVariables] at h1
    obtain ⟨S, hS, h5⟩ := updateSystem_ok _ _ _ _ _ _ h1
    subst h5
    simp only [hs, Option.map_some]
    congr 1
    simp only [SchurSolver.init, SchurSolver.recalculateForces]
    rw [show S.lhs = s.system.lhs from hl]

/-- The systems of the steps are symmetric and positive. -/
theorem relaxation_lhs {n : ℕ} {D : ℕ → Prop} {E R : ℕ → ℕ → ℝ} {dt : ℝ} (hdt : 0 < dt) (hE : StoresEnergy n E)
    (hdef : DefiniteOn n D E) (hR : StoresEnergy n R) :
    (∀ r < n, ∀ s < n, E r s + R r s * dt = E s r + R s r * dt) ∧
    ∀ x : ℕ → ℝ, Still n D x → (∃ r < n, x r ≠ 0) → 0 < quad n (fun r s => E r s + R r s * dt) x := by
  refine ⟨fun r hr s hs => by rw [hE.symm r hr s hs, hR.symm r hr s hs], fun x hx hne => ?_⟩
  have e1 : quad n (fun r s => E r s + R r s * dt) x = quad n E x + dt * quad n R x := by
    simp only [quad_eq_act, act, Finset.mul_sum, ← Finset.sum_add_distrib]
    exact Finset.sum_congr rfl fun r _ => Finset.sum_congr rfl fun s _ => by ring
  have h2 := hR.nonneg x
  have h3 : 0 < quad n E x := by
    refine lt_of_le_of_ne (hE.nonneg x) fun h0 => ?_
    obtain ⟨r, hr, hxr⟩ := hne
    exact hxr (hdef x hx h0.symm r hr)
  rw [e1]
  have h5 : 0 ≤ dt * quad n R x := by positivity
  linarith

/-- A step solves the balance of forces with the loads of its beginning and the memory of its end. -/
structure RelaxationStep (n : ℕ) (D : ℕ → Prop) (E R : ℕ → ℕ → ℝ) (J : (ℕ → ℝ) → ℝ) (f : ℝ → ℕ → ℝ) (dt : ℝ)
    (g : Grid ℝ) (s s' : Snapshot ℝ) : Prop where
  time : s'.time = s.time + dt
  absement : State.flatten g s'.absement =
    fun i => State.flatten g s.absement i + dt * State.flatten g s'.displacement i
  held : Still n D (State.flatten g s'.displacement)
  balanced : ∀ y, Still n D y → 0 ≤ ∑ r ∈ Finset.range n, (y r - State.flatten g s'.displacement r) *
    (act n E (State.flatten g s'.displacement) r + act n R (State.flatten g s'.absement) r - f s.time r) +
      (J y - J (State.flatten g s'.displacement))

/-- C115. One step of a run with a tensor that does not depend on time. -/
theorem C115_step {e : Engine ℝ} {m : ContactSetting ℝ} {R : ℕ → ℕ → ℝ} {D : ℕ → Prop} [DecidablePred D] {C : ℕ}
    (hset : RelaxationSetting e m R D C) (hE : StoresEnergy (2 * e.ops.nodesCount) e.ops.elasticity)
    (hdef : DefiniteOn (2 * e.ops.nodesCount) D e.ops.elasticity) (hR : StoresEnergy (2 * e.ops.nodesCount) R)
    (inv : ℕ → (ℕ → ℕ → ℝ) → ℕ → ℕ → ℝ) (hinv : InvContract inv) {dt : ℝ} (hdt : 0 < dt)
    (sim sim' : Simulation ℝ V) (hb : RelaxedBetween inv e C dt sim.solver sim.state.toSnapshot)
    (h : e.step .displacement sim = .ok sim') :
    RelaxedBetween inv e C dt sim'.solver sim'.state.toSnapshot ∧
    RelaxationStep (2 * e.ops.nodesCount) D e.ops.elasticity R (instantCost e.ops.nodesCount m) e.ops.force dt e.grid
      sim.state.toSnapshot sim'.state.toSnapshot := by
  obtain ⟨d1, d2, d3, d4, -, d6, d7⟩ := displacement_step e sim sim' h
  obtain ⟨solver, h1, _, h3⟩ := (e.step_ok_iff _ _ _).1 h
  have hit := e.iterate_ok _ _ h3
  simp only [Engine.advance, Option.some.injEq, Prod.mk.injEq] at h1
  obtain ⟨hs, hv⟩ := h1
  subst hv
  obtain ⟨k1, k2⟩ := relaxation_iterate hset inv _ _ h3 hb.condensed
    ⟨currentVariables sim.solver, _, _, rfl, rfl, rfl, hb.current⟩
  have hvv : sim'.solver.vVector = sim.solver.vVector := by rw [hit]
  have hcur := hb.time
  have habs : State.flatten e.grid sim'.state.absement = fun i => State.flatten e.grid sim.state.absement i +
      dt * State.flatten e.grid sim'.state.displacement i := by
    funext i
    simp only [State.flatten]
    rw [d4, d1, ← hb.timeStep, ← hb.time]
    ring
  refine ⟨⟨k2, d7, hvv.trans hb.resting, d1.trans d2.symm, d3.trans hb.timeStep, k1⟩, ?_⟩
  -- the solve
  obtain ⟨S, j1, j2, j4, j5, j6⟩ : ∃ S : SolverState ℝ, S.schur = sim.solver.schur ∧ S.system = sim.solver.system ∧
      S.vVector = sim.solver.vVector ∧ S.timeStep = sim.solver.timeStep ∧
      State.flatten e.grid sim'.state.displacement = e.solve S (State.flatten e.grid sim.state.displacement) := by
    refine ⟨{ sim.solver with currentTime := sim.solver.currentTime + sim.solver.timeStep }, rfl, rfl, rfl, rfl, ?_⟩
    rw [← hs]
    change State.flatten e.grid (State.unflatten e.grid _) = _
    rw [flatten_unflatten]
  have hsys := relaxation_system hset (b := sim.solver.bVector) (dt := dt) (t := sim.solver.currentTime) rfl
    (by rw [← hb.timeStep]; rfl) rfl hb.current
  obtain ⟨p1, p2⟩ := relaxation_lhs hdt hE hdef hR
  obtain ⟨minimise, len, hm, hsolve⟩ := hset.solve
  have hkind : e.kind.dimensionIn 2 = 2 := by rw [hset.kind]; rfl
  set A : System ℝ := ⟨fun r s => e.ops.elasticity r s + R r s * dt,
      fun r => e.ops.force sim.solver.currentTime r - matVec (2 * e.ops.nodesCount) R sim.solver.bVector r⟩ with hA
  have key := C111_solve inv hinv minimise hm m hset.sqrt e.kind e.ops hset.plane hkind e.boundaries D (fun _ => 0)
    hset.boundaries hset.held C hset.contact hset.apart S (hset.density_convex _)
    ⟨by rw [j1, j2]; exact hb.condensed, fun s _ node _ i _ _ => by rw [j4, hb.resting]⟩ A (by rw [j2, hsys])
    p1 p2 len (State.flatten e.grid sim.state.displacement)
  rw [← hsolve, ← j6, contactArguments_eq _ _ _ hset.plane hkind, hset.sqrt] at key
  have hcost : ∀ y : ℕ → ℝ, costFunctional Real.sqrt m.conditions
      (contactOf e.ops.nodesCount m.nodes m.surfaces S.timeStep S.uVector S.vVector) (2 * e.ops.nodesCount) A.lhs A.rhs
      ⟨2 * e.ops.nodesCount, y⟩ = energy (2 * e.ops.nodesCount) A y + instantCost e.ops.nodesCount m y := fun y => by
    rw [C48_energy, instantCost_eq _ _ hset.instantaneous hset.nodes]
  have hmin : MinimisesWith (2 * e.ops.nodesCount) D A (instantCost e.ops.nodesCount m)
      (State.flatten e.grid sim'.state.displacement) :=
    ⟨key.1, fun y hy => by rw [← hcost, ← hcost]; exact key.2 y hy⟩
  refine ⟨by rw [← hb.timeStep, hb.time]; exact d1, habs, key.1, fun y hy => ?_⟩
  refine (held_variational _ D A p1 _ hset.cost_convex _ hmin y hy).trans (le_of_eq ?_)
  congr 1
  refine Finset.sum_congr rfl fun r _ => ?_
  congr 1
  have ha : act (2 * e.ops.nodesCount) R (State.flatten e.grid sim'.state.absement) r =
      matVec (2 * e.ops.nodesCount) R sim.solver.bVector r +
        dt * act (2 * e.ops.nodesCount) R (State.flatten e.grid sim'.state.displacement) r := by
    rw [habs, hb.absement]
    simp only [act, matVec, Finset.mul_sum, ← Finset.sum_add_distrib]
    exact Finset.sum_congr rfl fun s _ => by ring
  have hl : ∑ s ∈ Finset.range (2 * e.ops.nodesCount), A.lhs r s * State.flatten e.grid sim'.state.displacement s =
      act (2 * e.ops.nodesCount) e.ops.elasticity (State.flatten e.grid sim'.state.displacement) r +
      dt * act (2 * e.ops.nodesCount) R (State.flatten e.grid sim'.state.displacement) r := by
    simp only [act, hA, Finset.mul_sum, ← Finset.sum_add_distrib]
    exact Finset.sum_congr rfl fun s _ => by ring
  change _ = act _ _ (State.flatten e.grid sim'.state.displacement) r +
    act _ _ (State.flatten e.grid sim'.state.absement) r - e.ops.force sim.state.time r
  rw [hl, ha, show sim.state.time = sim.solver.currentTime from hb.time]
  simp only [hA]
  ring

/-- `solve` starts as required. -/
theorem relaxation_start {e : Engine ℝ} {m : ContactSetting ℝ} {R : ℕ → ℕ → ℝ} {D : ℕ → Prop} {C : ℕ}
    (hset : RelaxationSetting e m R D C) (inv : ℕ → (ℕ → ℕ → ℝ) → ℕ → ℕ → ℝ) {dt : ℝ} (a : Engine.Arguments ℝ)
    (solver : SolverState ℝ) (hi : solverInit inv e.cls e.kind e.ops e.boundaries C false dt = .ok solver)
    (store : ProductStore ℝ V) (sim : Simulation ℝ V) (h : e.relaxationStart a solver store = .ok sim) :
    RelaxedBetween inv e C dt sim.solver sim.state.toSnapshot ∧
    sim.state = { State.new e.grid .plain with
      absement := a.initialAbsement, displacement := a.initialDisplacement } := by
  unfold solverInit at hi
  obtain ⟨S, hS, hi⟩ := ok_of_bind _ _ _ hi
  cases hi
  obtain ⟨s, h1, rfl⟩ := ok_of_bind _ _ _ h
  have hit := e.iterate_ok _ _ h1
  obtain ⟨k1, k2⟩ := relaxation_iterate hset inv _ _ h1
    (by simp [hset.cls, hset.kind, hset.plane, SolverClass.isSchur, StatementKind.dimensionIn])
    ⟨_, _, _, rfl, rfl, rfl, hS⟩
  exact ⟨⟨k2, by rw [hit], by rw [hit], by rw [hit]; rfl, by rw [hit], k1⟩, rfl⟩

/-- A relation respected by all steps holds between the initial state and the states returned by
`QuasistaticRelaxation.solve`. -/
theorem relaxation_relation {e : Engine ℝ} {m : ContactSetting ℝ} {R : ℕ → ℕ → ℝ} {D : ℕ → Prop} {C : ℕ}
    (hset : RelaxationSetting e m R D C) (inv : ℕ → (ℕ → ℕ → ℝ) → ℕ → ℕ → ℝ) {dt : ℝ} (a : Engine.Arguments ℝ)
    (solver : SolverState ℝ) (hi : solverInit inv e.cls e.kind e.ops e.boundaries C false dt = .ok solver)
    (store : ProductStore ℝ V) (Q : Snapshot ℝ → Snapshot ℝ → Prop)
    (hrefl : ∀ s, Q s s) (htrans : ∀ a b c, Q a b → Q b c → Q a c)
    (hstep : ∀ sim sim' : Simulation ℝ V, RelaxedBetween inv e C dt sim.solver sim.state.toSnapshot →
      e.step .displacement sim = .ok sim' → RelaxedBetween inv e C dt sim'.solver sim'.state.toSnapshot ∧
      Q sim.state.toSnapshot sim'.state.toSnapshot)
    (rs : List (State ℝ)) (sim : Simulation ℝ V) (h : e.relaxationSolve a solver store = .ok (rs, sim)) :
    List.Pairwise Q ({ (State.new e.grid .plain).toSnapshot with
        absement := a.initialAbsement, displacement := a.initialDisplacement } ::
      rs.map fun s => s.toSnapshot) := by
  rw [Engine.relaxationSolve_eq] at h
  cases hs : e.relaxationStart a solver store with
  | error err => simp [hs, Except.bind] at h
  | ok s0 =>
    rw [hs] at h
    obtain ⟨h1, h2⟩ := relaxation_start hset inv a solver hi store s0 hs
    have := (outputs_relation e .displacement a.products (RelaxedBetween inv e C dt) Q hrefl htrans hstep _ _ _ _ h1
      h).2.2
    rw [h2] at this
    exact this

/-- C115 (partial: the relaxation tensor must not depend on time, see `C115_memory_wrong`). There is exactly
one history of displacements. The absements of the states returned by `solve` are at most a multiple of the
time step away from its integral. The displacements of all states after the beginning are at most a multiple
of the time step away from it, whatever initial displacement was given. -/
theorem C115_converges_partial {e : Engine ℝ} {m : ContactSetting ℝ} {R : ℕ → ℕ → ℝ} {D : ℕ → Prop} [DecidablePred D]
    {C : ℕ} (hset : RelaxationSetting e m R D C) (hE : StoresEnergy (2 * e.ops.nodesCount) e.ops.elasticity)
    (hdef : DefiniteOn (2 * e.ops.nodesCount) D e.ops.elasticity) (hR : StoresEnergy (2 * e.ops.nodesCount) R)
    (T l : ℝ) (hT : 0 ≤ T) (hl : 0 ≤ l)
    (hf : ∀ s ∈ Set.Icc 0 T, ∀ t ∈ Set.Icc 0 T, ∀ r < 2 * e.ops.nodesCount,
      |e.ops.force s r - e.ops.force t r| ≤ l * |s - t|) (b₀ : ℕ → ℕ → ℝ) :
    ∃ (u : ℝ → ℕ → ℝ) (K : ℝ),
      Relaxing (2 * e.ops.nodesCount) D e.ops.elasticity R (instantCost e.ops.nodesCount m) e.ops.force T
        (State.flatten e.grid b₀) u ∧
      (∀ u', Relaxing (2 * e.ops.nodesCount) D e.ops.elasticity R (instantCost e.ops.nodesCount m) e.ops.force T
        (State.flatten e.grid b₀) u' → ∀ t ∈ Set.Icc 0 T, ∀ r < 2 * e.ops.nodesCount, u' t r = u t r) ∧
      ∀ (inv : ℕ → (ℕ → ℕ → ℝ) → ℕ → ℕ → ℝ) (dt : ℝ) (a : Engine.Arguments ℝ) (solver : SolverState ℝ)
        (store : ProductStore ℝ V) (rs : List (State ℝ)) (sim : Simulation ℝ V), InvContract inv → 0 < dt →
        a.initialAbsement = b₀ → solverInit inv e.cls e.kind e.ops e.boundaries C false dt = .ok solver →
        e.relaxationSolve a solver store = .ok (rs, sim) → ∀ s ∈ rs, s.time ≤ T →
          strainDistance (2 * e.ops.nodesCount) R (State.flatten e.grid s.absement)
            (fun i => State.flatten e.grid b₀ i + ∫ t in (0 : ℝ)..s.time, u t i) ≤ dt * K ∧
          (0 < s.time → ∀ r < 2 * e.ops.nodesCount, |State.flatten e.grid s.displacement r - u s.time r| ≤ dt * K) := by
  set n := 2 * e.ops.nodesCount with hn
  set J := instantCost e.ops.nodesCount m with hJ
  obtain ⟨u, hu, cv, cf, hmod⟩ := C115_exists hE hdef R hset.cost_convex (instantCost_depends _ m hset.nodes) l hT hl
    hf (State.flatten e.grid b₀)
  obtain ⟨k, hk0, hk⟩ := balanced_stable hE hdef J
  obtain ⟨n1, n2⟩ := hmod.nonneg
  have hc := hu.creep
  set B : ℝ → ℕ → ℝ := fun t i => State.flatten e.grid b₀ i + ∫ s in (0 : ℝ)..t, u s i with hB
  set K₁ := Real.sqrt (T / 2) * cf + T * cv / 2 with hK₁
  set κ := ∑ r ∈ Finset.range n, Real.sqrt (quad n R fun i => if i = r then 1 else 0) with hκ
  have hK₁0 : 0 ≤ K₁ := by positivity
  have hκ0 : 0 ≤ κ := Finset.sum_nonneg fun _ _ => Real.sqrt_nonneg _
  refine ⟨u, K₁ + k * (n * l + κ * K₁), hu, fun u' h' => C115_unique hE hdef hR h' hu, ?_⟩
  intro inv dt a solver store rs sim hinv hdt ha hi h s hmem hsT
  let shift : Snapshot ℝ → Snapshot ℝ := fun s => { s with displacement := s.absement }
  let Good : Snapshot ℝ → Prop := fun s => s.time ≤ T → ∀ r < n, |State.flatten e.grid s.displacement r - u s.time r| ≤
    k * (n * (l * dt) + κ * strainDistance n R (State.flatten e.grid s.absement) (B s.time))
  let Q : Snapshot ℝ → Snapshot ℝ → Prop := fun s s' =>
    StrainErrorGrows n R B 0 T ((cf * dt) ^ 2 / 2) (cv * dt / 2) e (shift s) (shift s') ∧
      (0 ≤ s.time → s' = s ∨ Good s')
  have hpair := relaxation_relation hset inv a solver hi store Q
    (fun s => ⟨strainErrorGrows_refl _ _ _ _ _ _ _ _ _, fun _ => Or.inl rfl⟩)
    (fun a b c h1 h2 => ⟨strainErrorGrows_trans _ _ _ _ _ (by positivity) (by positivity) _ _ _ _ h1.1 h2.1,
      fun h0 => by
        have h0' : 0 ≤ b.time := h0.trans h1.1.1
        rcases h2.2 h0' with h3 | h3
        · rw [h3]; exact h1.2 h0
        · exact Or.inr h3⟩)
    (fun sim sim' hb hstep => by
      obtain ⟨h1, h2⟩ := C115_step hset hE hdef hR inv hinv hdt sim sim' hb hstep
      refine ⟨h1, ⟨?_, fun h3 h4 => ?_⟩, fun h0 => Or.inr fun h4 r hr => ?_⟩
      · change sim.state.toSnapshot.time ≤ sim'.state.toSnapshot.time
        rw [h2.time]; linarith
      · change 0 ≤ sim.state.toSnapshot.time at h3
        change sim'.state.toSnapshot.time ≤ T at h4
        rw [h2.time] at h4
        have hbal : Balanced n D (fun _ _ => 0) e.ops.elasticity R J (e.ops.force sim.state.toSnapshot.time)
            (fun i => State.flatten e.grid sim.state.toSnapshot.absement i +
              dt * State.flatten e.grid sim'.state.toSnapshot.displacement i)
            (State.flatten e.grid sim'.state.toSnapshot.displacement) (fun _ => 0) := fun y hy => by
          rw [← h2.absement]
          simpa only [act_zero_matrix, zero_add] using h2.balanced y hy
        have := creep_step ⟨hE.nonneg⟩ hR hc hmod hdt h3 h4 h2.held hbal
        unfold strainError
        change strainDistance n R (State.flatten e.grid sim'.state.toSnapshot.absement) (B sim'.state.toSnapshot.time) ≤
          Real.sqrt (strainDistance n R (State.flatten e.grid sim.state.toSnapshot.absement)
            (B sim.state.toSnapshot.time) ^ 2 + (sim'.state.toSnapshot.time - sim.state.toSnapshot.time) * _) +
            (sim'.state.toSnapshot.time - sim.state.toSnapshot.time) * _
        rw [h2.absement, h2.time]
        refine this.trans (le_of_eq ?_)
        rw [add_sub_cancel_left]
      · have hm1 : sim'.state.toSnapshot.time ∈ Set.Icc 0 T := ⟨by rw [h2.time]; linarith, h4⟩
        have hm0 : sim.state.toSnapshot.time ∈ Set.Icc 0 T := ⟨h0, by rw [h2.time] at h4; linarith⟩
        set w := State.flatten e.grid sim'.state.toSnapshot.displacement with hw
        set b' := State.flatten e.grid sim'.state.toSnapshot.absement with hb'
        set t := sim.state.toSnapshot.time with ht
        set t' := sim'.state.toSnapshot.time with ht'
        refine (hk w (u t') (fun i => e.ops.force t i - act n R b' i) (fun i => e.ops.force t' i - act n R (B t') i)
          h2.held (hu.held t' hm1) (fun y hy => (h2.balanced y hy).trans (le_of_eq ?_))
          (fun y hy => (hu.balanced t' hm1 y hy).trans (le_of_eq ?_)) r hr).trans ?_
        · congr 1
          exact Finset.sum_congr rfl fun r _ => by ring
        · congr 1
          exact Finset.sum_congr rfl fun r _ => by ring
        refine mul_le_mul_of_nonneg_left ?_ hk0
        have hterm : ∀ i ∈ Finset.range n, |(e.ops.force t i - act n R b' i) - (e.ops.force t' i - act n R (B t') i)| ≤
            l * dt + Real.sqrt (quad n R fun j => if j = i then 1 else 0) * strainDistance n R b' (B t') := by
          intro i hi
          have hi' := Finset.mem_range.1 hi
          have q1 := hf t hm0 t' hm1 i hi'
          have q2 := act_le_sqrt hR (fun j => b' j - B t' j) i hi'
          have q3 : act n R (fun j => b' j - B t' j) i = act n R b' i - act n R (B t') i := by
            simp only [act, mul_sub, Finset.sum_sub_distrib]
          rw [q3] at q2
          have q4 : |t - t'| = dt := by
            rw [show t' = t + dt from h2.time, show t - (t + dt) = -dt by ring, abs_neg, abs_of_pos hdt]
          rw [q4] at q1
          have q5 : (e.ops.force t i - act n R b' i) - (e.ops.force t' i - act n R (B t') i) =
              (e.ops.force t i - e.ops.force t' i) - (act n R b' i - act n R (B t') i) := by ring
          rw [q5]
          exact (abs_sub _ _).trans (add_le_add q1 q2)
        refine (Finset.sum_le_sum hterm).trans (le_of_eq ?_)
        rw [Finset.sum_add_distrib, Finset.sum_const, Finset.card_range, nsmul_eq_mul, ← Finset.sum_mul])
    rs sim h
  have h1 := (List.pairwise_cons.1 hpair).1 s.toSnapshot (List.mem_map_of_mem hmem)
  obtain ⟨⟨g1, g2⟩, g3⟩ := h1
  have ht : (0 : ℝ) ≤ s.time := by
    change (0 : ℝ) ≤ s.time at g1
    exact g1
  have g2 := g2 (show (0 : ℝ) ≤ 0 from le_rfl) hsT
  unfold strainError at g2
  change strainDistance n R (State.flatten e.grid s.absement) (B s.time) ≤
    Real.sqrt (strainDistance n R (State.flatten e.grid a.initialAbsement) (B 0) ^ 2 + (s.time - 0) * ((cf * dt) ^ 2 / 2)) +
      (s.time - 0) * (cv * dt / 2) at g2
  have e0 : strainDistance n R (State.flatten e.grid a.initialAbsement) (B 0) = 0 := by
    unfold strainDistance
    rw [quad_zero_vector fun r _ => by rw [ha]; simp [hB], Real.sqrt_zero]
  have hsq : Real.sqrt (s.time * ((cf * dt) ^ 2 / 2)) = Real.sqrt (s.time / 2) * (cf * dt) := by
    rw [show s.time * ((cf * dt) ^ 2 / 2) = s.time / 2 * (cf * dt) ^ 2 by ring, Real.sqrt_mul (by positivity),
      Real.sqrt_sq (by positivity)]
  rw [e0, sub_zero, zero_pow two_ne_zero, zero_add, hsq] at g2
  have g4 : strainDistance n R (State.flatten e.grid s.absement) (B s.time) ≤ dt * K₁ := by
    refine g2.trans ?_
    have h2 : Real.sqrt (s.time / 2) ≤ Real.sqrt (T / 2) := Real.sqrt_le_sqrt (by linarith)
    have h3 := mul_le_mul_of_nonneg_right h2 (mul_nonneg n2 hdt.le)
    have h4 := mul_le_mul_of_nonneg_right hsT (mul_nonneg n1 hdt.le)
    rw [hK₁]
    linarith
  refine ⟨g4.trans (mul_le_mul_of_nonneg_left (le_add_of_nonneg_right (by positivity)) hdt.le), fun hpos r hr => ?_⟩
  rcases g3 (show (0 : ℝ) ≤ 0 from le_rfl) with g5 | g5
  · have : s.time = 0 := congrArg Snapshot.time g5
    linarith
  · refine (g5 hsT r hr).trans ?_
    have q1 := mul_le_mul_of_nonneg_left g4 hκ0
    have q2 := mul_le_mul_of_nonneg_left (add_le_add_right q1 ((n : ℝ) * (l * dt))) hk0
    have q3 : 0 ≤ dt * K₁ := by positivity
    calc k * (n * (l * dt) + κ * strainDistance n R (State.flatten e.grid s.absement) (B s.time))
        ≤ k * (n * (l * dt) + κ * (dt * K₁)) := q2
      _ ≤ dt * (K₁ + k * (n * l + κ * K₁)) := by nlinarith

/-- C115: a body on a triangular mesh with an isotropic relaxation tensor, held by its supports and in contact
with an obstacle of the slope law. -/
theorem C115_body_partial {e : Engine ℝ} {m : ContactSetting ℝ} {elements : List (List ℕ)} {nodes : ℕ → ℕ → ℝ}
    (hve : ValidElements 2 e.ops.nodesCount elements) (hnd : Nondegenerate2 elements nodes)
    (mu lam rho sigma : ℝ) (hmu : 0 < mu) (hlam : 0 ≤ lam) (hrho : 0 ≤ rho) (hsigma : 0 ≤ sigma)
    (hel : e.ops.elasticity = Plane.constitutive e.ops.nodesCount (basicMatrices2 elements nodes).W mu lam)
    (hrel : ∀ t, e.ops.relaxation (some t) =
      .ok (Plane.relaxationTensor e.ops.nodesCount (basicMatrices2 elements nodes).W (isotropicTensor rho sigma)))
    (hcls : e.cls = .quasistaticRelaxedSchur) (hkind : e.kind = .quasistaticRelaxation) (hdim : e.ops.dimension = 2)
    (hsolve : ∃ minimise len, MinimiseContract minimise ∧
      e.solve = optimisedSolve minimise m e.kind e.ops e.boundaries len)
    (D : ℕ → Prop) [DecidablePred D] (hv : ValidBoundaries e.ops.nodesCount e.boundaries)
    (hd : DirichletData e.ops.nodesCount 2 e.boundaries D fun _ => 0)
    (hh : ∀ p < e.ops.nodesCount,
      Held elements (fun q => q < e.ops.nodesCount ∧ D q ∧ D (e.ops.nodesCount + q)) p)
    (C : ℕ) (hC : C ≤ e.ops.nodesCount) (hap : SupportsApart e.ops.nodesCount C 2 D m.surfaces)
    (hsqrt : m.sqrt = Real.sqrt) (slope : ℝ) (hslope : 0 ≤ slope) (hlaw : m.conditions = frictionless (slopePotential slope))
    (T l : ℝ) (hT : 0 ≤ T) (hl : 0 ≤ l)
    (hf : ∀ s ∈ Set.Icc 0 T, ∀ t ∈ Set.Icc 0 T, ∀ r < 2 * e.ops.nodesCount,
      |e.ops.force s r - e.ops.force t r| ≤ l * |s - t|) (b₀ : ℕ → ℕ → ℝ) :
    let R := Plane.constitutive e.ops.nodesCount (basicMatrices2 elements nodes).W rho sigma
    let History := fun u : ℝ → ℕ → ℝ => Relaxing (2 * e.ops.nodesCount) D e.ops.elasticity R
      (instantCost e.ops.nodesCount m) e.ops.force T (State.flatten e.grid b₀) u
    ∃ (u : ℝ → ℕ → ℝ) (K : ℝ), History u ∧
      (∀ u', History u' → ∀ t ∈ Set.Icc 0 T, ∀ r < 2 * e.ops.nodesCount, u' t r = u t r) ∧
      ∀ (inv : ℕ → (ℕ → ℕ → ℝ) → ℕ → ℕ → ℝ) (dt : ℝ) (a : Engine.Arguments ℝ) (solver : SolverState ℝ)
        (store : ProductStore ℝ V) (rs : List (State ℝ)) (sim : Simulation ℝ V), InvContract inv → 0 < dt →
        a.initialAbsement = b₀ → solverInit inv e.cls e.kind e.ops e.boundaries C false dt = .ok solver →
        e.relaxationSolve a solver store = .ok (rs, sim) → ∀ s ∈ rs, s.time ≤ T →
          strainDistance (2 * e.ops.nodesCount) R (State.flatten e.grid s.absement)
            (fun i => State.flatten e.grid b₀ i + ∫ t in (0 : ℝ)..s.time, u t i) ≤ dt * K ∧
          (0 < s.time → ∀ r < 2 * e.ops.nodesCount, |State.flatten e.grid s.displacement r - u s.time r| ≤ dt * K) := by
  intro R History
  obtain ⟨-, o2, -, -, -⟩ := C71_operators2 hve hnd 0 mu lam mu lam 0 le_rfl hmu.le hlam hmu.le hlam
  obtain ⟨-, o3, -, -, -⟩ := C71_operators2 hve hnd 0 rho sigma mu lam 0 le_rfl hrho hsigma hmu.le hlam
  have hdef : DefiniteOn (2 * e.ops.nodesCount) D e.ops.elasticity := by
    rw [hel]; exact C74_elastic2 hve hnd mu lam hmu hlam D hh
  have hset : RelaxationSetting e m R D C :=
    { cls := hcls, kind := hkind, plane := hdim, solve := hsolve
      constant := fun t => by rw [hrel, C62_isotropic]
      boundaries := hv, held := hd, contact := hC, apart := hap, sqrt := hsqrt
      instantaneous := by
        rw [hlaw]
        exact fun x sn sn' dt dt' => ⟨rfl, rfl, rfl, fun _ _ _ => rfl⟩
      convex := fun σ _ => by
        rw [hlaw]
        exact C48_density_convex _ _ _ _ _ _ (C47_convex slope 0 0 hslope) }
  exact C115_converges_partial hset (by rw [hel]; exact o2) hdef o3 T l hT hl hf b₀

/-- C115: runs with relaxation return states for every relaxation tensor. -/
theorem C115_runs (e : Engine ℝ) (hcls : e.cls = .quasistaticRelaxedSchur) (hkind : e.kind = .quasistaticRelaxation)
    (hR : ∀ t, ∃ R, e.ops.relaxation (some t) = .ok R)
    (a : Engine.Arguments ℝ) (ha : a.products = []) (solver : SolverState ℝ) (store : ProductStore ℝ V) :
    ∃ rs sim, e.relaxationSolve a solver store = .ok (rs, sim) := by
  have hi : ∀ s, ∃ s', e.iterate s = .ok s' := fun s => by
    obtain ⟨s', h⟩ := C46_step_succeeds_partial e.ops e.boundaries _ e.cls e.kind
      (by rw [hcls, hkind]; exact relaxation_registered) (by rw [hcls]; nofun) hR s
    exact ⟨s', by simp [Engine.iterate, h, liftStatement]⟩
  have h1 : ∀ sim : Simulation ℝ V, sim.state.products = [] →
      ∃ sim', e.step .displacement sim = .ok sim' ∧ sim'.state.products = [] := by
    intro sim hp
    have hp' : ∀ v t, (sim.state.withDisplacement e.grid v t true).products = [] := fun v t => hp
    simp only [Engine.step, Engine.findSolution, Engine.item, State.setDisplacement, hp', updateAll, bind,
      Except.bind, pure, Except.pure]
    obtain ⟨s', h⟩ := hi { sim.solver with
      currentTime := sim.solver.currentTime + sim.solver.timeStep
      bVector := State.flatten e.grid (sim.state.withDisplacement e.grid (e.solve { sim.solver with
        currentTime := sim.solver.currentTime + sim.solver.timeStep }
        (State.flatten e.grid sim.state.displacement))
        (sim.solver.currentTime + sim.solver.timeStep) true).absement
      uVector := State.flatten e.grid (sim.state.withDisplacement e.grid (e.solve { sim.solver with
        currentTime := sim.solver.currentTime + sim.solver.timeStep }
        (State.flatten e.grid sim.state.displacement))
        (sim.solver.currentTime + sim.solver.timeStep) true).displacement }
    rw [h]
    exact ⟨_, rfl, hp⟩
  have h2 : ∀ (k : ℕ) (sim : Simulation ℝ V), sim.state.products = [] →
      ∃ sim', e.steps .displacement k sim = .ok sim' ∧ sim'.state.products = [] := by
    intro k
    induction k with
    | zero => exact fun sim hp => ⟨sim, rfl, hp⟩
    | succ k ih =>
      intro sim hp
      obtain ⟨s1, h3, h4⟩ := h1 sim hp
      obtain ⟨s2, h5, h6⟩ := ih s1 h4
      exact ⟨s2, by simp [Engine.steps, h3, h5, bind, Except.bind], h6⟩
  have h3 : ∀ (l : List ℤ) (sim : Simulation ℝ V), sim.state.products = [] →
      ∃ r, e.outputs .displacement [] l sim = .ok r := by
    intro l
    induction l with
    | nil => exact fun sim _ => ⟨_, rfl⟩
    | cons k l ih =>
      intro sim hp
      obtain ⟨s1, h4, h5⟩ := h2 k.toNat sim hp
      obtain ⟨r, h6⟩ := ih { s1 with store := (s1.state.copy e.grid s1.store).2 } h5
      exact ⟨((s1.state.copy e.grid s1.store).1 :: r.1, r.2), by
        simp [Engine.outputs, Engine.run, Engine.inject, h4, h6, bind, Except.bind, pure, Except.pure]⟩
  simp only [Engine.relaxationSolve, ha, bind, Except.bind]
  obtain ⟨s', h⟩ := hi { solver with
    bVector := State.flatten e.grid a.initialAbsement
    uVector := State.flatten e.grid a.initialDisplacement }
  rw [h]
  obtain ⟨r, h4⟩ := h3 (Engine.outputDiffs a.nSteps a.outputStep) ⟨s', { State.new e.grid .plain with
    absement := a.initialAbsement, displacement := a.initialDisplacement }, store⟩ rfl
  exact ⟨r.1, r.2, h4⟩

/-- The square with relaxation. -/
noncomputable def relaxingSquareOps : Operators ℝ :=
  { heldSquareOps with
    relaxation := fun _ => .ok (Plane.relaxationTensor 4 (basicMatrices2 heldSquareElements heldSquareNodes).W
      (isotropicTensor 7 1)) }

/-- All hypotheses of `C115_body_partial` are met by the square: its runs return and converge to the history of
displacements as the time steps get small. -/
example (store : ProductStore ℝ V) :
    ∃ (e : Engine ℝ) (inv : ℕ → (ℕ → ℕ → ℝ) → ℕ → ℕ → ℝ), e.kind = .quasistaticRelaxation ∧
    e.ops = relaxingSquareOps ∧ e.boundaries = heldSquareBoundaries ∧
    ∃ (u : ℝ → ℕ → ℝ) (K : ℝ),
      Relaxing 8 (fun r => r < 2 * 4 ∧ 2 ≤ r % 4) heldSquareOps.elasticity
        (Plane.constitutive 4 (basicMatrices2 heldSquareElements heldSquareNodes).W 7 1)
        (instantCost 4 ⟨Real.sqrt, frictionless (slopePotential 10), heldSquareNodes, lowerSide⟩)
        heldSquareOps.force 1 (fun _ => 0) u ∧
      ∀ (dt : ℝ) (a : Engine.Arguments ℝ), 0 < dt → a.initialAbsement = (fun _ _ => 0) → a.products = [] →
        ∃ (solver : SolverState ℝ) (rs : List (State ℝ)) (sim : Simulation ℝ V),
          solverInit inv e.cls e.kind e.ops e.boundaries 2 false dt = .ok solver ∧
          e.relaxationSolve a solver store = .ok (rs, sim) ∧
          ∀ s ∈ rs, 0 < s.time → s.time ≤ 1 → ∀ r < 8, |State.flatten e.grid s.displacement r - u s.time r| ≤ dt * K := by
  obtain ⟨⟨inv, hinv⟩, ⟨minimise, hm⟩⟩ := contracts_met
  let m : ContactSetting ℝ := ⟨Real.sqrt, frictionless (slopePotential 10), heldSquareNodes, lowerSide⟩
  let e : Engine ℝ :=
    { grid := ⟨4, 2, heldSquareNodes⟩, cls := .quasistaticRelaxedSchur, kind := .quasistaticRelaxation
      ops := relaxingSquareOps, boundaries := heldSquareBoundaries
      solve := optimisedSolve minimise m .quasistaticRelaxation relaxingSquareOps heldSquareBoundaries 8 }
  obtain ⟨u, K, hu, -, hK⟩ := C115_body_partial (V := V) (e := e) (m := m) heldSquare_mesh.1 heldSquare_mesh.2 4 5 7 1
    (by norm_num) (by norm_num) (by norm_num) (by norm_num) rfl (fun _ => rfl) rfl rfl rfl ⟨minimise, 8, hm, rfl⟩
    (fun r => r < 2 * 4 ∧ 2 ≤ r % 4) heldSquare_boundaries.1 heldSquare_boundaries.2 heldSquare_held 2
    (by change 2 ≤ 4; norm_num) (fun s hs node hn => Or.inl (lowerSide_apart s hs node hn)) rfl 10 (by norm_num) rfl
    1 8 (by norm_num) (by norm_num)
    (by
      intro s _ t _ r hr
      have hr' : (r : ℝ) + 1 ≤ 8 := by
        have : r < 8 := hr
        have : r + 1 ≤ 8 := this
        exact_mod_cast this
      change |s * ((r : ℝ) + 1) - t * (r + 1)| ≤ 8 * |s - t|
      rw [← sub_mul, abs_mul, abs_of_nonneg (by positivity : (0 : ℝ) ≤ r + 1), mul_comm]
      exact mul_le_mul_of_nonneg_right hr' (abs_nonneg _))
    (fun _ _ => 0)
  refine ⟨e, inv, rfl, rfl, rfl, u, K, hu, fun dt a hdt h1 h2 => ?_⟩
  obtain ⟨solver, hi⟩ : ∃ solver, solverInit inv e.cls e.kind e.ops e.boundaries 2 false dt = .ok solver := ⟨_, rfl⟩
  obtain ⟨rs, sim, h⟩ := C115_runs e rfl rfl (fun _ => ⟨_, rfl⟩) a h2 solver store
  exact ⟨solver, rs, sim, hi, h, fun s hs h0 h3 => (hK inv dt a solver store rs sim hinv hdt h1 hi h s hs h3).2 h0⟩

end
end Conmech
