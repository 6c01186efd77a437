import Verif.Spec.SolverIndependence
import Verif.Props.ContactMotions
/-!
C112: the results of a contact simulation depend neither on the solving method nor on the optimiser.
-/
namespace Conmech
open Spec

section unique
variable (ops : Operators ℝ) (kind : StatementKind) (D : ℕ → Prop) (g : ℕ → ℝ)
  (conditions : Conditions ℝ) (nodes : ℕ → ℕ → ℝ) (surfaces : List (Surface ℝ)) (dt time : ℝ)

/-- The contact cost depends on the displacements of the nodes only, and not at all on the old velocities. -/
theorem contactOf_same (N : ℕ) (sqrt : ℝ → ℝ) (hn : ∀ s ∈ surfaces, ∀ node ∈ s.edge, node < N)
    {u v u' v' : ℕ → ℝ} (hu : ∀ r < 2 * N, u r = u' r) (y : ℕ → ℝ) :
    contactCostFunctional sqrt conditions (contactOf N nodes surfaces dt u v) ⟨2 * N, y⟩ =
      contactCostFunctional sqrt conditions (contactOf N nodes surfaces dt u' v') ⟨2 * N, y⟩ := by
  have hy : ∀ old : Flat ℝ, Represents 2 ⟨2 * N, y⟩ old (fun node i => y (i * N + node)) N := fun old =>
    ⟨by norm_num, N, rfl, fun _ _ _ _ => rfl, fun _ _ _ h1 h2 => by omega⟩
  have hw : ∀ x : ℕ → ℝ, (∀ r < 2 * N, u r = x r) →
      Represents 2 ⟨2 * N, x⟩ ⟨2 * N, x⟩ (fun node i => u (i * N + node)) N := fun x hx =>
    ⟨by norm_num, N, rfl, fun i hi node hnode => by
      refine (hx _ ?_).symm
      interval_cases i <;> omega, fun _ _ _ h1 h2 => by omega⟩
  exact (C48_quadrature sqrt conditions (contactOf N nodes surfaces dt u v) ⟨2 * N, y⟩ _ _ N (hy _)
    (hw u fun _ _ => rfl) (by simp [contactOf]) hn).trans
    (C48_quadrature sqrt conditions (contactOf N nodes surfaces dt u' v') ⟨2 * N, y⟩ _ _ N (hy _)
      (hw u' hu) (by simp [contactOf]) hn).symm

theorem matVec_same (n : ℕ) (A : ℕ → ℕ → ℝ) {x y : ℕ → ℝ} (h : ∀ r < n, x r = y r) :
    matVec n A x = matVec n A y := by
  funext r
  exact Finset.sum_congr rfl fun s hs => by rw [h s (Finset.mem_range.1 hs)]

/-- Two fields with the prescribed values and the least energy agree. -/
theorem heldMinimiser_unique (n : ℕ) (A : ℕ → ℕ → ℝ) (f : ℕ → ℝ) (J : (ℕ → ℝ) → ℝ) (hJ : ConvexVec J)
    (hpos : ∀ x : ℕ → ℝ, Still n D x → (∃ r < n, x r ≠ 0) → 0 < quad n A x) {w w' : ℕ → ℝ}
    (h : HeldMinimiser n D g (fun y => energy n ⟨A, f⟩ y + J y) w)
    (h' : HeldMinimiser n D g (fun y => energy n ⟨A, f⟩ y + J y) w') : ∀ r < n, w r = w' r := by
  by_contra hne
  push Not at hne
  obtain ⟨r, hr, hne⟩ := hne
  have hq := hpos (fun r => w r - w' r) (fun r hr hD => by beta_reduce; rw [h.1 r hr hD, h'.1 r hr hD, sub_self])
    ⟨r, hr, fun h0 => hne (sub_eq_zero.1 h0)⟩
  have hab : (1 / 2 : ℝ) + 1 / 2 = 1 := by norm_num
  have h1 := hJ w w' (1 / 2) (1 / 2) (by norm_num) (by norm_num) hab
  have h2 := energy_combine n ⟨A, f⟩ w w' (1 / 2) (1 / 2) hab
  have h3 := h.2 (fun i => 1 / 2 * w i + 1 / 2 * w' i) (fun r hr hD => by rw [h.1 r hr hD, h'.1 r hr hD]; ring)
  have h4 := h'.2 w h.1
  beta_reduce at h3 h4
  rw [h2] at h3
  linarith

/-- C112. The velocities after a step are determined by displacements and velocities before it. -/
theorem C112_unique (hk : kind = .dynamicVelocity ∨ kind = .quasistaticVelocity) (hdim : ops.dimension = 2)
    (hn : ∀ s ∈ surfaces, ∀ node ∈ s.edge, node < ops.nodesCount)
    (hconv : ∀ σ ∈ surfaces, ∀ sn st, ConvexVec (density conditions 2 σ.normal sn st dt))
    (hlhs : ∀ var lhs, var.timeStep = some dt → updateLhs ops var kind = .ok lhs →
      ∀ x : ℕ → ℝ, Still (2 * ops.nodesCount) D x → (∃ r < 2 * ops.nodesCount, x r ≠ 0) →
        0 < quad (2 * ops.nodesCount) lhs x)
    {u v w u' v' w' : ℕ → ℝ} (hu : ∀ r < 2 * ops.nodesCount, u r = u' r)
    (hv : ∀ r < 2 * ops.nodesCount, v r = v' r)
    (h : LeastEnergyStep ops kind D g conditions nodes surfaces dt time u v w)
    (h' : LeastEnergyStep ops kind D g conditions nodes surfaces dt time u' v' w') :
    ∀ r < 2 * ops.nodesCount, w r = w' r := by
  obtain ⟨lhs, rhs, h1, h2, h3⟩ := h
  obtain ⟨lhs', rhs', h1', h2', h3'⟩ := h'
  have el : lhs' = lhs := by
    rcases hk with rfl | rfl
    · exact Except.ok.inj (h1'.symm.trans h1)
    · exact Except.ok.inj (h1'.symm.trans h1)
  have er : rhs' = rhs := by
    rw [← hdim] at hu hv
    rcases hk with rfl | rfl
    · simp only [updateRhs, dynamicRhs, required, bind, Except.bind, pure, Except.pure, Except.ok.injEq] at h2 h2'
      rw [← h2, ← h2', matVec_same _ _ hu, matVec_same _ _ hv]
    · simp only [updateRhs, quasistaticRhs, required, bind, Except.bind, pure, Except.pure,
        Except.ok.injEq] at h2 h2'
      rw [← h2, ← h2', matVec_same _ _ hu]
  subst el er
  have hp := hlhs _ _ rfl h1
  refine heldMinimiser_unique D g (2 * ops.nodesCount) lhs' rhs'
    (fun y => contactCostFunctional Real.sqrt conditions (contactOf ops.nodesCount nodes surfaces dt u v)
      ⟨2 * ops.nodesCount, y⟩)
    (C48_contact_convex Real.sqrt isSqrt_real conditions _ hconv _) hp (w := w) (w' := w') ?_ ?_
  · refine ⟨h3.1, fun y hy => ?_⟩
    have := h3.2 y hy
    beta_reduce at this ⊢
    rw [C48_energy Real.sqrt conditions _ _ ⟨lhs', rhs'⟩, C48_energy Real.sqrt conditions _ _ ⟨lhs', rhs'⟩] at this
    exact this
  · refine ⟨h3'.1, fun y hy => ?_⟩
    have := h3'.2 y hy
    beta_reduce at this ⊢
    rw [C48_energy Real.sqrt conditions _ _ ⟨lhs', rhs'⟩, C48_energy Real.sqrt conditions _ _ ⟨lhs', rhs'⟩] at this
    rw [contactOf_same conditions nodes surfaces dt ops.nodesCount Real.sqrt hn (v' := v') hu,
      contactOf_same conditions nodes surfaces dt ops.nodesCount Real.sqrt hn (v' := v') hu]
    exact this

end unique

section steps
variable {V : Type}

/-- A simulation object as made by the constructors, with one of the optimising solvers. The global method is
used only if no node of a contact surface is held. -/
structure Optimising (e : Engine ℝ) (m : ContactSetting ℝ) (D : ℕ → Prop) : Prop where
  registered : ∃ c, Registered c e.cls e.kind
  iterative : e.cls ≠ .direct
  solve : ∃ minimise, MinimiseContract minimise ∧
    e.solve = optimisedSolve minimise m e.kind e.ops e.boundaries (2 * e.ops.nodesCount)
  apart : e.cls.isSchur = false →
    ∀ s ∈ m.surfaces, ∀ node ∈ s.edge, ∀ i < 2, ¬ D (i * e.ops.nodesCount + node)

/-- What holds between the steps of a run. -/
structure Running (inv : ℕ → (ℕ → ℕ → ℝ) → ℕ → ℕ → ℝ) (e : Engine ℝ) (C : ℕ) (D : ℕ → Prop) (g : ℕ → ℝ)
    (surfaces : List (Surface ℝ)) (dt : ℝ) (solver : SolverState ℝ) (s : Snapshot ℝ) : Prop where
  between : Between e dt solver s
  healthy : e.cls.isSchur = true → Healthy inv e.ops.nodesCount C 2 D g surfaces solver
  none : e.cls.isSchur = false → solver.schur = .none

theorem iterate_none (e : Engine ℝ) (s s' : SolverState ℝ) (h : e.iterate s = .ok s')
    (hs : s.schur = none) : s'.schur = none := by
  unfold Engine.iterate at h
  cases h1 : s.iterate e.cls e.kind e.ops e.boundaries with
  | error err => rw [h1] at h; cases h
  | ok s1 =>
    rw [h1] at h
    obtain rfl : s1 = s' := by simpa [liftStatement] using h
    unfold SolverState.iterate at h1
    cases hi : e.cls.iterateVariables s with
    | none =>
      rw [hi] at h1
      obtain rfl : s = s1 := by simpa using h1
      exact hs
    | some var =>
      rw [hi] at h1
      obtain ⟨S, -, h5⟩ := updateSystem_ok _ _ _ _ _ _ h1
      rw [h5]
      simp [hs]

/-- One call of `solve` of the global method for a convex contact law. -/
theorem C112_global_solve (minimise : ℕ → ((ℕ → ℝ) → ℝ) → (ℕ → ℝ) → ℕ → ℝ) (hm : MinimiseContract minimise)
    (m : ContactSetting ℝ) (hsqrt : m.sqrt = Real.sqrt) (kind : StatementKind) (ops : Operators ℝ)
    (hdim : ops.dimension = 2) (hkind : kind.dimensionIn 2 = 2) (bs : List (CondBoundary ℝ)) (D : ℕ → Prop)
    [DecidablePred D] (g : ℕ → ℝ) (hv : ValidBoundaries ops.nodesCount bs)
    (hd : DirichletData ops.nodesCount 2 bs D g)
    (hap : ∀ s ∈ m.surfaces, ∀ node ∈ s.edge, ∀ i < 2, ¬ D (i * ops.nodesCount + node))
    (s : SolverState ℝ) (hs : s.schur = none)
    (hconv : ∀ σ ∈ m.surfaces, ∀ sn st, ConvexVec (density m.conditions 2 σ.normal sn st s.timeStep))
    (S : System ℝ) (hS : s.system = applyDirichlet ops.nodesCount 2 bs S)
    (hA : ∀ r < 2 * ops.nodesCount, ∀ s < 2 * ops.nodesCount, S.lhs r s = S.lhs s r)
    (hpos : ∀ x : ℕ → ℝ, (∀ r < 2 * ops.nodesCount, D r → x r = 0) → (∃ r < 2 * ops.nodesCount, x r ≠ 0) →
      0 < quad (2 * ops.nodesCount) S.lhs x) (guess : ℕ → ℝ) :
    HeldMinimiser (2 * ops.nodesCount) D g
      (fun y => costFunctional m.sqrt m.conditions (contactArguments m kind ops s) (2 * ops.nodesCount)
        S.lhs S.rhs ⟨2 * ops.nodesCount, y⟩)
      (optimisedSolve minimise m kind ops bs (2 * ops.nodesCount) s guess) := by
  have hout : kind.dimensionOut 2 = 2 := by cases kind <;> first | rfl | (exact absurd hkind (by decide))
  have hd1 : (contactArguments m kind ops s).variableDimension = 2 := by
    simp only [contactArguments, hdim, hout]
  have hpos' : PositiveForm (2 * ops.nodesCount) (applyDirichlet ops.nodesCount 2 bs S).lhs :=
    C13_positive ops.nodesCount 2 bs S D g hv hd hpos
  have e1 : optimisedSolve minimise m kind ops bs (2 * ops.nodesCount) s guess =
      solverSolve (fun guess => minimise (2 * ops.nodesCount) (fun x => costFunctional m.sqrt m.conditions
        (contactArguments m kind ops s) (2 * ops.nodesCount) (applyDirichlet ops.nodesCount 2 bs S).lhs
        (applyDirichlet ops.nodesCount 2 bs S).rhs ⟨2 * ops.nodesCount, x⟩) guess)
        ops.nodesCount 2 bs guess := by
    unfold optimisedSolve
    rw [hdim, hkind]
    congr 1
    funext guess
    unfold optimisedImpl
    rw [hs, hS, hdim, hkind]
  rw [e1]
  refine (C101_held_partial ops.nodesCount 2 bs S D g hv hd (by norm_num) hA m.sqrt m.conditions
    (contactArguments m kind ops s) hd1 (fun σ hσ node hnode i hi => hap σ hσ node hnode i (by rwa [hd1] at hi))
    _ guess ?_).1
  obtain ⟨x, hx, -⟩ := C89_unique_minimiser m.conditions (contactArguments m kind ops s)
    (by rw [hd1]; norm_num) (fun σ hσ sn st => by rw [hd1]; exact hconv σ hσ sn st) (2 * ops.nodesCount)
    (applyDirichlet ops.nodesCount 2 bs S) hpos'
  exact hm _ (fun x => costFunctional m.sqrt m.conditions (contactArguments m kind ops s)
    (2 * ops.nodesCount) (applyDirichlet ops.nodesCount 2 bs S).lhs
    (applyDirichlet ops.nodesCount 2 bs S).rhs ⟨2 * ops.nodesCount, x⟩) _ ⟨x, by rw [hsqrt]; exact hx⟩

/-- C112. One step of a run with either method. -/
theorem C112_step (e : Engine ℝ) (hk : e.kind = .dynamicVelocity ∨ e.kind = .quasistaticVelocity)
    (hdim : e.ops.dimension = 2) (inv : ℕ → (ℕ → ℕ → ℝ) → ℕ → ℕ → ℝ) (hinv : InvContract inv)
    (m : ContactSetting ℝ) (hsqrt : m.sqrt = Real.sqrt) (D : ℕ → Prop) [DecidablePred D] (g : ℕ → ℝ)
    (hv : ValidBoundaries e.ops.nodesCount e.boundaries)
    (hd : DirichletData e.ops.nodesCount 2 e.boundaries D g) (he : Optimising e m D) (C : ℕ)
    (hC : C ≤ e.ops.nodesCount) (hap : SupportsApart e.ops.nodesCount C 2 D m.surfaces)
    (dt : ℝ) (hconv : ∀ σ ∈ m.surfaces, ∀ sn st, ConvexVec (density m.conditions 2 σ.normal sn st dt))
    (hlhs : ∀ var lhs, var.timeStep = some dt → updateLhs e.ops var e.kind = .ok lhs →
      (∀ r < 2 * e.ops.nodesCount, ∀ s < 2 * e.ops.nodesCount, lhs r s = lhs s r) ∧
      ∀ x : ℕ → ℝ, Still (2 * e.ops.nodesCount) D x → (∃ r < 2 * e.ops.nodesCount, x r ≠ 0) →
        0 < quad (2 * e.ops.nodesCount) lhs x)
    (sim sim' : Simulation ℝ V)
    (hrun : Running inv e C D g m.surfaces dt sim.solver sim.state.toSnapshot)
    (h : e.step .velocity sim = .ok sim') :
    Running inv e C D g m.surfaces dt sim'.solver sim'.state.toSnapshot ∧
    LeastEnergyStep e.ops e.kind D g m.conditions m.nodes m.surfaces dt sim.state.time
      (State.flatten e.grid sim.state.displacement) (State.flatten e.grid sim.state.velocity)
      (State.flatten e.grid sim'.state.velocity) := by
  obtain ⟨⟨c, hr⟩, hne, ⟨minimise, hm, hsolve⟩, happ⟩ := he
  obtain ⟨hb, hhealthy, hnone⟩ := hrun
  have hst : e.kind ≠ .staticDisplacement ∧ e.kind ≠ .staticPoisson := by
    rcases hk with h | h <;> rw [h] <;> exact ⟨nofun, nofun⟩
  have hrel : e.kind ≠ .quasistaticRelaxation := by rcases hk with h | h <;> rw [h] <;> nofun
  have hkind : e.kind.dimensionIn 2 = 2 := by rcases hk with h | h <;> rw [h] <;> rfl
  have hfun : ∀ S guess, e.solve S guess =
      solverSolve (optimisedImpl minimise m e.kind e.ops (2 * e.ops.nodesCount) S)
      e.ops.nodesCount 2 e.boundaries guess := fun S guess => by
    rw [hsolve]; unfold optimisedSolve; rw [hdim, hkind]
  obtain ⟨x, hx⟩ := hb.iterated
  have hup := iterate_current e hr hne hst x _ hx
  obtain ⟨solver, h1, _, h3⟩ := (e.step_ok_iff _ _ _).1 h
  refine ⟨⟨(between_step e hr hne hst dt sim sim' hb h).1, fun hcls => ?_, fun hcls => ?_⟩, ?_⟩
  · exact (C111_healthy e hrel D g hv hd inv C m.surfaces _ hfun _ _ h ⟨_, rfl, hup⟩ (hhealthy hcls)).1
  · refine iterate_none e _ _ h3 ?_
    simp only [Engine.advance, Option.some.injEq, Prod.mk.injEq] at h1
    rw [← h1.2]
    exact hnone hcls
  obtain ⟨S, j1, j2, j3, j4, j5, j6⟩ := step_solves e _ _ h
  obtain ⟨lhs, rhs, h4, h5, h6⟩ := update_eliminated _ _ _ _ _ hup
  rw [hdim, hkind, ← j2] at h6
  obtain ⟨hA, hpos⟩ := hlhs _ lhs (by rw [← hb.timeStep]; rfl) h4
  have key : HeldMinimiser (2 * e.ops.nodesCount) D g
      (fun y => costFunctional m.sqrt m.conditions (contactArguments m e.kind e.ops S) (2 * e.ops.nodesCount)
        lhs rhs ⟨2 * e.ops.nodesCount, y⟩)
      (optimisedSolve minimise m e.kind e.ops e.boundaries (2 * e.ops.nodesCount) S
        (State.flatten e.grid sim.state.velocity)) := by
    cases hcls : e.cls.isSchur with
    | true =>
      exact C111_solve inv hinv minimise hm m hsqrt e.kind e.ops hdim hkind e.boundaries D g hv hd C hC hap S
        (by rw [j5, hb.timeStep]; exact hconv)
        ⟨by rw [j1, j2]; exact (hhealthy hcls).condensed, by rw [j4]; exact (hhealthy hcls).held⟩
        ⟨lhs, rhs⟩ h6 hA hpos _ _
    | false =>
      exact C112_global_solve minimise hm m hsqrt e.kind e.ops hdim hkind e.boundaries D g hv hd (happ hcls) S
        (by rw [j1]; exact hnone hcls) (by rw [j5, hb.timeStep]; exact hconv) ⟨lhs, rhs⟩ h6 hA hpos _
  rw [← hsolve, ← j6, contactArguments_eq m e.kind e.ops hdim hkind, hsqrt, j3, j4, j5, hb.timeStep,
    hb.displacement, hb.velocity] at key
  have ht : sim.state.time = sim.solver.currentTime := hb.time
  refine ⟨lhs, rhs, ?_, ?_, key⟩
  · rw [← h4, ← hb.timeStep]
    rcases hk with h | h <;> rw [h] <;> rfl
  · rw [← h5, ← hb.timeStep, ht]
    unfold currentVariables
    rw [hb.displacement, hb.velocity]
    rcases hk with h | h <;> rw [h] <;> rfl

theorem bind_inv {α β ε : Type} (x : Except ε α) (f : α → Except ε β) (b : β) (h : x.bind f = .ok b) :
    ∃ a, x = .ok a ∧ f a = .ok b := by
  cases x with
  | error err => cases h
  | ok a => exact ⟨a, rfl, h⟩

/-- Two runs side by side. -/
theorem steps_pair {K : Type} [Field K] [DecidableEq K] (e e' : Engine K) (c : Coordinates)
    (R : Simulation K V → Simulation K V → Prop)
    (hstep : ∀ s s' t t', R s s' → e.step c s = .ok t → e'.step c s' = .ok t' → R t t') (n : ℕ)
    (s s' t t' : Simulation K V) (h0 : R s s') (h : e.steps c n s = .ok t) (h' : e'.steps c n s' = .ok t') :
    R t t' := by
  induction n generalizing s s' with
  | zero => cases h; cases h'; exact h0
  | succ n ih =>
    obtain ⟨s1, h1, h2⟩ := bind_inv _ _ _ h
    obtain ⟨s1', h1', h2'⟩ := bind_inv _ _ _ h'
    exact ih _ _ (hstep _ _ _ _ h0 h1 h1') h2 h2'

theorem outputs_cons_inv {K : Type} [Field K] [DecidableEq K] (e : Engine K) (c : Coordinates)
    (products : List ℕ) (n : ℤ) (l : List ℤ) (s t : Simulation K V) (rs : List (State K))
    (h : e.outputs c products (n :: l) s = .ok (rs, t)) :
    ∃ s1 q, e.steps c n.toNat (Engine.inject products s) = .ok s1 ∧
      e.outputs c products l ⟨s1.solver, s1.state, (State.copy e.grid s1.state s1.store).2⟩ = .ok (q, t) ∧
      rs = (State.copy e.grid s1.state s1.store).1 :: q := by
  simp only [Engine.outputs, Engine.run, bind, Except.bind, pure, Except.pure] at h
  cases h1 : e.steps c n.toNat (Engine.inject products s) with
  | error err => simp [h1] at h
  | ok s1 =>
    simp only [h1] at h
    split at h
    · cases h
    · rename_i p hp
      cases h
      exact ⟨s1, p.1, rfl, hp, rfl⟩

theorem outputs_pair {K : Type} [Field K] [DecidableEq K] (e e' : Engine K) (c : Coordinates)
    (products products' : List ℕ) (R : SolverState K → Snapshot K → SolverState K → Snapshot K → Prop)
    (Q : Snapshot K → Snapshot K → Prop) (hRQ : ∀ a x b y, R a x b y → Q x y)
    (hstep : ∀ s s' t t' : Simulation K V, R s.solver s.state.toSnapshot s'.solver s'.state.toSnapshot →
      e.step c s = .ok t → e'.step c s' = .ok t' →
      R t.solver t.state.toSnapshot t'.solver t'.state.toSnapshot) (l : List ℤ)
    (s s' t t' : Simulation K V) (rs rs' : List (State K))
    (h0 : R s.solver s.state.toSnapshot s'.solver s'.state.toSnapshot)
    (h : e.outputs c products l s = .ok (rs, t)) (h' : e'.outputs c products' l s' = .ok (rs', t')) :
    List.Forall₂ (fun a b => Q a.toSnapshot b.toSnapshot) rs rs' := by
  induction l generalizing s s' rs rs' with
  | nil => cases h; cases h'; exact .nil
  | cons n l ih =>
    obtain ⟨s1, q, h1, h2, rfl⟩ := outputs_cons_inv e c products n l s t rs h
    obtain ⟨s1', q', h1', h2', rfl⟩ := outputs_cons_inv e' c products' n l s' t' rs' h'
    have hr := steps_pair e e' c (fun a b => R a.solver a.state.toSnapshot b.solver b.state.toSnapshot) hstep
      n.toNat _ _ s1 s1' (by rw [inject_snapshot, inject_snapshot]; exact h0) h1 h1'
    refine .cons ?_ (ih ⟨s1.solver, s1.state, (State.copy e.grid s1.state s1.store).2⟩
      ⟨s1'.solver, s1'.state, (State.copy e'.grid s1'.state s1'.store).2⟩ _ _ hr h2 h2')
    rw [copy_snapshot, copy_snapshot]
    exact hRQ _ _ _ _ hr

theorem flatten_same {N : ℕ} (grid : Grid ℝ) (hN : grid.nodesCount = N) {x y : ℕ → ℕ → ℝ} :
    (∀ r < 2 * N, State.flatten grid x r = State.flatten grid y r) ↔ ∀ i < N, ∀ j < 2, x i j = y i j := by
  subst hN
  refine ⟨fun h i hi j hj => ?_, fun h r hr => ?_⟩
  · have := h (j * grid.nodesCount + i) (by interval_cases j <;> omega)
    unfold State.flatten at this
    rwa [Nat.mul_add_mod', Nat.mod_eq_of_lt hi, Nat.add_comm, Nat.add_mul_div_right _ _ (by omega),
      Nat.div_eq_of_lt hi, Nat.zero_add] at this
  · have h0 : 0 < grid.nodesCount := by omega
    exact h _ (Nat.mod_lt _ h0) _ (by rw [Nat.div_lt_iff_lt_mul h0]; exact hr)

/-- C112. `solve` starts as required. -/
theorem C112_start (e : Engine ℝ) (hk : e.kind = .dynamicVelocity ∨ e.kind = .quasistaticVelocity)
    (hdim : e.ops.dimension = 2) (inv : ℕ → (ℕ → ℕ → ℝ) → ℕ → ℕ → ℝ) (D : ℕ → Prop) (g : ℕ → ℝ) (C : ℕ)
    (surfaces : List (Surface ℝ)) (dt : ℝ) (a : Engine.Arguments ℝ) (solver : SolverState ℝ)
    (hi : solverInit inv e.cls e.kind e.ops e.boundaries C false dt = .ok solver)
    (store : ProductStore ℝ V) (sim : Simulation ℝ V) (h : e.timeDependentStart a solver store = .ok sim)
    (ha : HeldOnContact e.ops.nodesCount 2 D g surfaces (State.flatten e.grid a.initialVelocity)) :
    Running inv e C D g surfaces dt sim.solver sim.state.toSnapshot ∧
    sim.state = { State.new e.grid .plain with
      displacement := a.initialDisplacement, velocity := a.initialVelocity } := by
  have hrel : e.kind ≠ .quasistaticRelaxation := by rcases hk with h | h <;> rw [h] <;> nofun
  have hkind : e.kind.dimensionIn 2 = 2 := by rcases hk with h | h <;> rw [h] <;> rfl
  obtain ⟨r1, r2, r3, r4⟩ := (C60_ready e a solver store sim).1 h
  have hh : e.cls.isSchur = true → Healthy inv e.ops.nodesCount C 2 D g surfaces sim.solver := fun hcls =>
    (C111_start e hrel hdim hkind hcls inv C dt D g surfaces a solver hi store sim h ha).2.2.2.2
  unfold solverInit at hi
  obtain ⟨S, hS, hi⟩ := ok_of_bind _ _ _ hi
  cases hi
  obtain ⟨s, h1, rfl⟩ := ok_of_bind _ _ _ h
  refine ⟨⟨⟨r1.iterated, r1.displacement, r2, r3.symm, r4⟩, hh, fun hcls => ?_⟩, rfl⟩
  refine iterate_none e _ _ h1 ?_
  simp [hcls]

/-- C112 (partial: the global method needs contact surfaces without held nodes, see `C112_supports_wrong`).
Two runs from the same initial state, with any of the two methods, any optimiser and any inverse
meeting their contracts. The law is convex and the system of a step is symmetric and positive. The states
returned show the same body at the same times. -/
theorem C112_methods_partial (e e' : Engine ℝ) (hgrid : e'.grid = e.grid) (hkinds : e'.kind = e.kind)
    (hops : e'.ops = e.ops) (hbs : e'.boundaries = e.boundaries)
    (hk : e.kind = .dynamicVelocity ∨ e.kind = .quasistaticVelocity)
    (hdim : e.ops.dimension = 2) (hN : e.grid.nodesCount = e.ops.nodesCount)
    (inv inv' : ℕ → (ℕ → ℕ → ℝ) → ℕ → ℕ → ℝ) (hinv : InvContract inv) (hinv' : InvContract inv')
    (m : ContactSetting ℝ) (hsqrt : m.sqrt = Real.sqrt) (D : ℕ → Prop) [DecidablePred D] (g : ℕ → ℝ)
    (hv : ValidBoundaries e.ops.nodesCount e.boundaries)
    (hd : DirichletData e.ops.nodesCount 2 e.boundaries D g) (he : Optimising e m D) (he' : Optimising e' m D)
    (C : ℕ) (hC : C ≤ e.ops.nodesCount) (hap : SupportsApart e.ops.nodesCount C 2 D m.surfaces)
    (dt : ℝ) (hconv : ∀ σ ∈ m.surfaces, ∀ sn st, ConvexVec (density m.conditions 2 σ.normal sn st dt))
    (hlhs : ∀ var lhs, var.timeStep = some dt → updateLhs e.ops var e.kind = .ok lhs →
      (∀ r < 2 * e.ops.nodesCount, ∀ s < 2 * e.ops.nodesCount, lhs r s = lhs s r) ∧
      ∀ x : ℕ → ℝ, Still (2 * e.ops.nodesCount) D x → (∃ r < 2 * e.ops.nodesCount, x r ≠ 0) →
        0 < quad (2 * e.ops.nodesCount) lhs x)
    (a : Engine.Arguments ℝ)
    (ha : HeldOnContact e.ops.nodesCount 2 D g m.surfaces (State.flatten e.grid a.initialVelocity))
    (solver solver' : SolverState ℝ)
    (hi : solverInit inv e.cls e.kind e.ops e.boundaries C false dt = .ok solver)
    (hi' : solverInit inv' e'.cls e.kind e.ops e.boundaries C false dt = .ok solver')
    (store store' : ProductStore ℝ V) (rs rs' : List (State ℝ)) (sim sim' : Simulation ℝ V)
    (h : e.timeDependentSolve a solver store = .ok (rs, sim))
    (h' : e'.timeDependentSolve a solver' store' = .ok (rs', sim')) :
    List.Forall₂ (fun s s' => SameMotion e.ops.nodesCount s.toSnapshot s'.toSnapshot) rs rs' := by
  have hn : ∀ s ∈ m.surfaces, ∀ node ∈ s.edge, node < e.ops.nodesCount := fun s hs node hnode => by
    rcases hap s hs node hnode with h | h <;> omega
  rw [Engine.timeDependentSolve_eq] at h h'
  obtain ⟨s0, hs0, h⟩ := bind_inv _ _ _ h
  obtain ⟨s0', hs0', h'⟩ := bind_inv _ _ _ h'
  have hstart := C112_start e hk hdim inv D g C m.surfaces dt a solver hi store s0 hs0 ha
  have hstart' := C112_start e' (by rw [hkinds]; exact hk) (by rw [hops]; exact hdim) inv' D g C m.surfaces dt a
    solver' (by rw [hkinds, hops, hbs]; exact hi') store' s0' hs0' (by rw [hops, hgrid]; exact ha)
  refine outputs_pair e e' .velocity _ _
    (fun a x b y => Running inv e C D g m.surfaces dt a x ∧ Running inv' e' C D g m.surfaces dt b y ∧
      SameMotion e.ops.nodesCount x y) _ (fun _ _ _ _ h => h.2.2) ?_ _ s0 s0' sim sim' rs rs'
    ⟨hstart.1, hstart'.1, ?_⟩ h h'
  · rintro s s' t t' ⟨k1, k2, k3⟩ h1 h1'
    obtain ⟨l1, l2⟩ := C112_step e hk hdim inv hinv m hsqrt D g hv hd he C hC hap dt hconv hlhs s t k1 h1
    obtain ⟨l1', l2'⟩ := C112_step e' (by rw [hkinds]; exact hk) (by rw [hops]; exact hdim) inv' hinv' m hsqrt D g
      (by rw [hops, hbs]; exact hv) (by rw [hops, hbs]; exact hd) he' C (by rw [hops]; exact hC)
      (by rw [hops]; exact hap) dt hconv (by rw [hops, hkinds]; exact hlhs) s' t' k2 h1'
    rw [hops, hkinds, hgrid, ← k3.1] at l2'
    have ht : t.state.time = t'.state.time := by
      rw [(velocity_step e _ _ h1).1, (velocity_step e' _ _ h1').1, k1.between.timeStep, k2.between.timeStep,
        ← k1.between.time, ← k2.between.time, k3.1]
    have hvel := (flatten_same e.grid hN).1 (C112_unique e.ops e.kind D g m.conditions m.nodes m.surfaces dt
      s.state.time hk hdim hn hconv (fun var lhs h1 h2 => (hlhs var lhs h1 h2).2)
      ((flatten_same e.grid hN).2 fun i hi j hj => (k3.2 i hi j hj).1)
      ((flatten_same e.grid hN).2 fun i hi j hj => (k3.2 i hi j hj).2.1) l2 l2')
    have hdisp : ∀ i < e.ops.nodesCount, ∀ j < 2, t.state.displacement i j = t'.state.displacement i j :=
      fun i hi j hj => by
        have := (k3.2 i hi j hj).1
        change s.state.displacement i j = s'.state.displacement i j at this
        have ht0 : s.state.time = s'.state.time := k3.1
        rw [(velocity_step e _ _ h1).2.2.2.1, (velocity_step e' _ _ h1').2.2.2.1, hvel i hi j hj, ht, ht0, this]
    refine ⟨l1, l1', ht, fun i hi j hj => ⟨hdisp i hi j hj, hvel i hi j hj, ?_⟩⟩
    rw [(velocity_step e _ _ h1).2.2.2.2.1, (velocity_step e' _ _ h1').2.2.2.2.1, hgrid, hdisp i hi j hj]
  · rw [hstart.2, hstart'.2, hgrid]
    exact ⟨rfl, fun _ _ _ _ => ⟨rfl, rfl, rfl⟩⟩

/-- C112 for bodies on triangular meshes with mass, in contact with an obstacle of the slope law. -/
theorem C112_dynamic_partial (e e' : Engine ℝ) (hgrid : e'.grid = e.grid) (hkinds : e'.kind = e.kind)
    (hops : e'.ops = e.ops) (hbs : e'.boundaries = e.boundaries) (hk : e.kind = .dynamicVelocity)
    (hdim : e.ops.dimension = 2) (hN : e.grid.nodesCount = e.ops.nodesCount)
    {elements : List (List ℕ)} {nodes : ℕ → ℕ → ℝ} (hve : ValidElements 2 e.ops.nodesCount elements)
    (hnd : Nondegenerate2 elements nodes) (hall : ∀ p < e.ops.nodesCount, ∃ t ∈ elements, p ∈ t)
    (density mu lam theta zeta : ℝ) (hdensity : 0 < density) (hmu : 0 ≤ mu) (hlam : 0 ≤ lam)
    (htheta : 0 ≤ theta) (hzeta : 0 ≤ zeta)
    (hacc : e.ops.acceleration =
      Plane.acceleration e.ops.nodesCount (basicMatrices2 elements nodes).U density)
    (hel : e.ops.elasticity =
      Plane.constitutive e.ops.nodesCount (basicMatrices2 elements nodes).W mu lam)
    (hvis : e.ops.viscosity =
      Plane.constitutive e.ops.nodesCount (basicMatrices2 elements nodes).W theta zeta)
    (inv inv' : ℕ → (ℕ → ℕ → ℝ) → ℕ → ℕ → ℝ) (hinv : InvContract inv) (hinv' : InvContract inv')
    (slope : ℝ) (hslope : 0 ≤ slope) (surfaces : List (Surface ℝ)) (D : ℕ → Prop) [DecidablePred D]
    (g : ℕ → ℝ) (hv : ValidBoundaries e.ops.nodesCount e.boundaries)
    (hd : DirichletData e.ops.nodesCount 2 e.boundaries D g)
    (he : Optimising e ⟨Real.sqrt, frictionless (slopePotential slope), nodes, surfaces⟩ D)
    (he' : Optimising e' ⟨Real.sqrt, frictionless (slopePotential slope), nodes, surfaces⟩ D)
    (C : ℕ) (hC : C ≤ e.ops.nodesCount) (hap : SupportsApart e.ops.nodesCount C 2 D surfaces)
    (dt : ℝ) (hdt : 0 < dt) (a : Engine.Arguments ℝ)
    (ha : HeldOnContact e.ops.nodesCount 2 D g surfaces (State.flatten e.grid a.initialVelocity))
    (solver solver' : SolverState ℝ)
    (hi : solverInit inv e.cls e.kind e.ops e.boundaries C false dt = .ok solver)
    (hi' : solverInit inv' e'.cls e.kind e.ops e.boundaries C false dt = .ok solver')
    (store store' : ProductStore ℝ V) (rs rs' : List (State ℝ)) (sim sim' : Simulation ℝ V)
    (h : e.timeDependentSolve a solver store = .ok (rs, sim))
    (h' : e'.timeDependentSolve a solver' store' = .ok (rs', sim')) :
    List.Forall₂ (fun s s' => SameMotion e.ops.nodesCount s.toSnapshot s'.toSnapshot) rs rs' := by
  obtain ⟨o1, o2, o3, -, -⟩ := C71_operators2 hve hnd density mu lam theta zeta 0 hdensity.le hmu hlam
    htheta hzeta
  rw [← hacc] at o1
  rw [← hel] at o2
  rw [← hvis] at o3
  have hdef : DefiniteOn (2 * e.ops.nodesCount) D e.ops.acceleration := by
    rw [hacc]; exact (C74_mass2 hve hnd density hdensity hall D).1
  have hAs : ∀ r < 2 * e.ops.nodesCount, ∀ s < 2 * e.ops.nodesCount,
      e.ops.viscosity r s = e.ops.viscosity s r := by
    rw [hvis]; exact C26_symmetric hve hnd theta zeta
  exact C112_methods_partial e e' hgrid hkinds hops hbs (Or.inl hk) hdim hN inv inv' hinv hinv' _ rfl D g hv hd he
    he' C hC hap dt (fun σ _ sn st => C48_density_convex _ _ _ _ _ _ (C47_convex slope sn dt hslope))
    (by rw [hk]; exact fun var lhs hvar h => dynamic_lhs e.ops var lhs dt hdt hvar h o1 hdef o3 hAs o2)
    a ha solver solver' hi hi' store store' rs rs' sim sim' h h'

/-- C112 for viscous bodies without inertia on triangular meshes, held at two nodes at least. -/
theorem C112_quasistatic_partial (e e' : Engine ℝ) (hgrid : e'.grid = e.grid) (hkinds : e'.kind = e.kind)
    (hops : e'.ops = e.ops) (hbs : e'.boundaries = e.boundaries) (hk : e.kind = .quasistaticVelocity)
    (hdim : e.ops.dimension = 2) (hN : e.grid.nodesCount = e.ops.nodesCount)
    {elements : List (List ℕ)} {nodes : ℕ → ℕ → ℝ} (hve : ValidElements 2 e.ops.nodesCount elements)
    (hnd : Nondegenerate2 elements nodes)
    (mu lam theta zeta : ℝ) (hmu : 0 ≤ mu) (hlam : 0 ≤ lam) (htheta : 0 < theta) (hzeta : 0 ≤ zeta)
    (hel : e.ops.elasticity =
      Plane.constitutive e.ops.nodesCount (basicMatrices2 elements nodes).W mu lam)
    (hvis : e.ops.viscosity =
      Plane.constitutive e.ops.nodesCount (basicMatrices2 elements nodes).W theta zeta)
    (inv inv' : ℕ → (ℕ → ℕ → ℝ) → ℕ → ℕ → ℝ) (hinv : InvContract inv) (hinv' : InvContract inv')
    (slope : ℝ) (hslope : 0 ≤ slope) (surfaces : List (Surface ℝ)) (D : ℕ → Prop) [DecidablePred D]
    (g : ℕ → ℝ) (hv : ValidBoundaries e.ops.nodesCount e.boundaries)
    (hd : DirichletData e.ops.nodesCount 2 e.boundaries D g)
    (hh : ∀ p < e.ops.nodesCount,
      Held elements (fun q => q < e.ops.nodesCount ∧ D q ∧ D (e.ops.nodesCount + q)) p)
    (he : Optimising e ⟨Real.sqrt, frictionless (slopePotential slope), nodes, surfaces⟩ D)
    (he' : Optimising e' ⟨Real.sqrt, frictionless (slopePotential slope), nodes, surfaces⟩ D)
    (C : ℕ) (hC : C ≤ e.ops.nodesCount) (hap : SupportsApart e.ops.nodesCount C 2 D surfaces)
    (dt : ℝ) (hdt : 0 < dt) (a : Engine.Arguments ℝ)
    (ha : HeldOnContact e.ops.nodesCount 2 D g surfaces (State.flatten e.grid a.initialVelocity))
    (solver solver' : SolverState ℝ)
    (hi : solverInit inv e.cls e.kind e.ops e.boundaries C false dt = .ok solver)
    (hi' : solverInit inv' e'.cls e.kind e.ops e.boundaries C false dt = .ok solver')
    (store store' : ProductStore ℝ V) (rs rs' : List (State ℝ)) (sim sim' : Simulation ℝ V)
    (h : e.timeDependentSolve a solver store = .ok (rs, sim))
    (h' : e'.timeDependentSolve a solver' store' = .ok (rs', sim')) :
    List.Forall₂ (fun s s' => SameMotion e.ops.nodesCount s.toSnapshot s'.toSnapshot) rs rs' := by
  obtain ⟨-, o2, -, -, -⟩ := C71_operators2 hve hnd 0 mu lam theta zeta 0 le_rfl hmu hlam htheta.le hzeta
  obtain ⟨-, o3, -, -, -⟩ := C71_operators2 hve hnd 0 theta zeta mu lam 0 le_rfl htheta.le hzeta hmu hlam
  rw [← hel] at o2
  rw [← hvis] at o3
  have hdef : DefiniteOn (2 * e.ops.nodesCount) D e.ops.viscosity := by
    rw [hvis]; exact C74_elastic2 hve hnd theta zeta htheta hzeta D hh
  exact C112_methods_partial e e' hgrid hkinds hops hbs (Or.inr hk) hdim hN inv inv' hinv hinv' _ rfl D g hv hd he
    he' C hC hap dt (fun σ _ sn st => C48_density_convex _ _ _ _ _ _ (C47_convex slope sn dt hslope))
    (by rw [hk]; exact fun var lhs hvar h => quasistatic_lhs e.ops var lhs dt hdt hvar h o3 hdef o2)
    a ha solver solver' hi hi' store store' rs rs' sim sim' h h'

end steps

/-- C112, violated where a support touches a contact surface: two nodes, the second one is held. Both methods
get an exact minimiser of what they ask for, and their results differ. -/
theorem C112_supports_wrong (inv : ℕ → (ℕ → ℕ → ℝ) → ℕ → ℕ → ℝ) (hinv : InvContract inv)
    (minimise : (ℕ → ℕ → ℝ) → (ℕ → ℝ) → (ℕ → ℝ) → ℕ → ℝ) (guess guess' : ℕ → ℝ) :
    let c := frictionless (slopePotential 12)
    let S := applyDirichlet 2 2 heldEnd springSystem
    let s := SchurSolver.init inv 2 1 2 false S
    Minimises (fun y => costFunctional Real.sqrt c (segmentData 2) 4 S.lhs S.rhs ⟨4, y⟩) springFound ∧
    (Minimises (fun y => costFunctional Real.sqrt c (segmentData 2) 2 s.matrices.boundary s.nodeForces ⟨2, y⟩)
        (minimise s.matrices.boundary s.nodeForces (s.truncateFreeNodes 4 guess)) →
      ∃ r < 4, solverSolve (s.solveImpl minimise 4) 2 2 heldEnd guess r ≠
        solverSolve (fun _ => springFound) 2 2 heldEnd guess' r) := by
  intro c S s
  obtain ⟨h1, -, -, -, h5⟩ := C101_support_wrong
  refine ⟨h1, fun hmin => ?_⟩
  by_contra hne
  push Not at hne
  have key := (C111_condensed 2 2 heldEnd springSystem (fun r => r < 2 * 2 ∧ r % 2 = 1) (fun _ => 0) inv hinv 1
    (by norm_num) (Or.inr rfl) heldEnd_valid.1 heldEnd_valid.2 (by intro r _ s _; simp [springSystem, eq_comm])
    (fun x _ hx => by
      obtain ⟨r, hr, hne⟩ := hx
      have : quad (2 * 2) springSystem.lhs x = ∑ r ∈ Finset.range 4, 2 * x r ^ 2 := by
        simp [quad, springSystem, Finset.sum_range_succ]; ring
      rw [this]
      exact Finset.sum_pos' (fun _ _ => by positivity) ⟨r, Finset.mem_range.2 hr, by positivity⟩)
    Real.sqrt c (segmentData 2) rfl rfl ?_ ?_ minimise 4 guess hmin).1
  · refine h5 ⟨fun r hr hD => ?_, fun v hv => ?_⟩
    · rw [C16_solution_satisfies_dirichlet 2 2 heldEnd _ _ _ _ heldEnd_valid.1 heldEnd_valid.2 r, if_pos hD]
    · have h2 := key.2 v hv
      have hsame : ∀ r < 4, solverSolve (fun _ => springFound) 2 2 heldEnd (fun _ => 0) r =
          solverSolve (s.solveImpl minimise 4) 2 2 heldEnd guess r := fun r hr => by
        rw [hne r hr, C16_solution_satisfies_dirichlet 2 2 heldEnd _ _ _ _ heldEnd_valid.1 heldEnd_valid.2 r,
          C16_solution_satisfies_dirichlet 2 2 heldEnd _ _ _ _ heldEnd_valid.1 heldEnd_valid.2 r]
      beta_reduce at h2 ⊢
      rw [C48_energy] at h2 ⊢
      rw [energy_same 4 springSystem hsame, contactCost_congr Real.sqrt _ (segmentData 2) (by simp [segmentData]) 4 hsame]
      exact h2
  · intro σ hσ node hnode
    simp only [segmentData, List.mem_singleton] at hσ
    subst hσ
    simp only [List.mem_cons, List.not_mem_nil, or_false] at hnode
    rcases hnode with rfl | rfl
    · exact Or.inl ⟨by norm_num, fun i hi => by interval_cases i <;> norm_num⟩
    · exact Or.inr ⟨by norm_num, by norm_num, fun i hi => by interval_cases i <;> norm_num⟩
  · intro σ _ node _ i _ _
    rfl

/-! ### The square held by its upper corners, with contact below -/

/-- The lower side. -/
noncomputable def lowerSide : List (Surface ℝ) := [⟨[0, 1], fun i => if i = 1 then -1 else 0⟩]

theorem lowerSide_apart : ∀ s ∈ lowerSide, ∀ node ∈ s.edge, node < 2 ∧ ∀ i < 2,
    ¬ (i * 4 + node < 2 * 4 ∧ 2 ≤ (i * 4 + node) % 4) := by
  intro s hs node hn
  simp only [lowerSide, List.mem_singleton] at hs
  subst hs
  simp only [List.mem_cons, List.not_mem_nil, or_false] at hn
  rcases hn with rfl | rfl
  · exact ⟨by norm_num, fun i hi => by interval_cases i <;> norm_num⟩
  · exact ⟨by norm_num, fun i hi => by interval_cases i <;> norm_num⟩

/-- All hypotheses of `C112_dynamic_partial` are met by the square, once with the condensed and once with the
global method; both runs return, and what they return is the same. -/
example {V : Type} (store store' : ProductStore ℝ V) (a : Engine.Arguments ℝ)
    (ha : a.products = []) :
    ∃ (e e' : Engine ℝ) (inv : ℕ → (ℕ → ℕ → ℝ) → ℕ → ℕ → ℝ) (solver solver' : SolverState ℝ)
      (rs rs' : List (State ℝ)) (sim sim' : Simulation ℝ V),
    e.cls = .dynamicSchur ∧ e'.cls = .dynamicGlobal ∧ e.ops = heavySquareOps ∧ e'.ops = heavySquareOps ∧
    solverInit inv e.cls e.kind e.ops e.boundaries 2 false (1 / 100) = .ok solver ∧
    solverInit inv e'.cls e'.kind e'.ops e'.boundaries 2 false (1 / 100) = .ok solver' ∧
    e.timeDependentSolve a solver store = .ok (rs, sim) ∧
    e'.timeDependentSolve a solver' store' = .ok (rs', sim') ∧
    List.Forall₂ (fun s s' => SameMotion 4 s.toSnapshot s'.toSnapshot) rs rs' := by
  obtain ⟨⟨inv, hinv⟩, ⟨minimise, hm⟩⟩ := contracts_met
  have hreg : Registered .DynamicDisplacementProblem .dynamicSchur .dynamicVelocity :=
    ⟨⟨.dynamic, by decide +kernel, by decide +kernel⟩, Or.inl (by decide +kernel)⟩
  have hreg' : Registered .DynamicDisplacementProblem .dynamicGlobal .dynamicVelocity :=
    ⟨⟨.dynamic, by decide +kernel, by decide +kernel⟩, Or.inl (by decide +kernel)⟩
  have hall : ∀ p < heavySquareOps.nodesCount, ∃ t ∈ heldSquareElements, p ∈ t := by
    change ∀ p < 4, ∃ t ∈ heldSquareElements, p ∈ t
    unfold heldSquareElements
    decide
  let e : SolverClass → Engine ℝ := fun cls =>
    { grid := ⟨4, 2, heldSquareNodes⟩, cls := cls, kind := .dynamicVelocity
      ops := heavySquareOps, boundaries := heldSquareBoundaries
      solve := optimisedSolve minimise
        ⟨Real.sqrt, frictionless (slopePotential 10), heldSquareNodes, lowerSide⟩ .dynamicVelocity
        heavySquareOps heldSquareBoundaries 8 }
  obtain ⟨solver, hi⟩ : ∃ solver, solverInit inv .dynamicSchur .dynamicVelocity heavySquareOps
      heldSquareBoundaries 2 false (1 / 100) = .ok solver := ⟨_, rfl⟩
  obtain ⟨solver', hi'⟩ : ∃ solver, solverInit inv .dynamicGlobal .dynamicVelocity heavySquareOps
      heldSquareBoundaries 2 false (1 / 100) = .ok solver := ⟨_, rfl⟩
  obtain ⟨rs, sim, h⟩ := C105_runs (e .dynamicSchur) hreg SolverClass.noConfusion (fun _ => ⟨_, rfl⟩) a ha solver
    store
  obtain ⟨rs', sim', h'⟩ := C105_runs (e .dynamicGlobal) hreg' SolverClass.noConfusion (fun _ => ⟨_, rfl⟩) a ha
    solver' store'
  refine ⟨e .dynamicSchur, e .dynamicGlobal, inv, solver, solver', rs, rs', sim, sim', rfl, rfl, rfl, rfl, hi, hi',
    h, h', ?_⟩
  have hap : ∀ s ∈ lowerSide, ∀ node ∈ s.edge, ∀ i < 2, ¬ (i * 4 + node < 2 * 4 ∧ 2 ≤ (i * 4 + node) % 4) :=
    fun s hs node hn => (lowerSide_apart s hs node hn).2
  exact C112_dynamic_partial (e .dynamicSchur) (e .dynamicGlobal) rfl rfl rfl rfl rfl rfl rfl heldSquare_mesh.1
    heldSquare_mesh.2 hall 1 4 5 2 3 (by norm_num) (by norm_num) (by norm_num) (by norm_num) (by norm_num)
    rfl rfl rfl inv inv hinv hinv 10 (by norm_num) lowerSide (fun r => r < 2 * 4 ∧ 2 ≤ r % 4) (fun _ => 0)
    heldSquare_boundaries.1 heldSquare_boundaries.2
    ⟨⟨_, hreg⟩, SolverClass.noConfusion, ⟨minimise, hm, rfl⟩, fun _ => hap⟩
    ⟨⟨_, hreg'⟩, SolverClass.noConfusion, ⟨minimise, hm, rfl⟩, fun _ => hap⟩ 2 (by change 2 ≤ 4; norm_num)
    (fun s hs node hn => Or.inl (lowerSide_apart s hs node hn)) (1 / 100) (by norm_num) a
    (fun s hs node hn i hi hD => absurd hD (hap s hs node hn i hi)) solver solver' hi hi' store store' rs rs'
    sim sim' h h'

/-- The further hypotheses of `C112_quasistatic_partial` are met by the square. -/
example : ∃ (e e' : Engine ℝ) (D : ℕ → Prop), e.kind = .quasistaticVelocity ∧ e'.kind = e.kind ∧
    e.cls = .quasistaticSchur ∧ e'.cls = .quasistaticGlobal ∧ e.ops = heldSquareOps ∧ e'.ops = e.ops ∧
    Optimising e ⟨Real.sqrt, frictionless (slopePotential 10), heldSquareNodes, lowerSide⟩ D ∧
    Optimising e' ⟨Real.sqrt, frictionless (slopePotential 10), heldSquareNodes, lowerSide⟩ D ∧
    ∀ p < 4, Held heldSquareElements (fun q => q < 4 ∧ D q ∧ D (4 + q)) p := by
  obtain ⟨-, ⟨minimise, hm⟩⟩ := contracts_met
  have hreg : Registered .QuasistaticDisplacementProblem .quasistaticSchur .quasistaticVelocity :=
    ⟨⟨.quasistatic, by decide +kernel, by decide +kernel⟩, Or.inl (by decide +kernel)⟩
  have hreg' : Registered .QuasistaticDisplacementProblem .quasistaticGlobal .quasistaticVelocity :=
    ⟨⟨.quasistatic, by decide +kernel, by decide +kernel⟩, Or.inl (by decide +kernel)⟩
  let e : SolverClass → Engine ℝ := fun cls =>
    { grid := ⟨4, 2, heldSquareNodes⟩, cls := cls, kind := .quasistaticVelocity
      ops := heldSquareOps, boundaries := heldSquareBoundaries
      solve := optimisedSolve minimise
        ⟨Real.sqrt, frictionless (slopePotential 10), heldSquareNodes, lowerSide⟩ .quasistaticVelocity
        heldSquareOps heldSquareBoundaries 8 }
  have hap : ∀ s ∈ lowerSide, ∀ node ∈ s.edge, ∀ i < 2, ¬ (i * 4 + node < 2 * 4 ∧ 2 ≤ (i * 4 + node) % 4) :=
    fun s hs node hn => (lowerSide_apart s hs node hn).2
  exact ⟨e .quasistaticSchur, e .quasistaticGlobal, fun r => r < 2 * 4 ∧ 2 ≤ r % 4, rfl, rfl, rfl, rfl, rfl, rfl,
    ⟨⟨_, hreg⟩, SolverClass.noConfusion, ⟨minimise, hm, rfl⟩, fun _ => hap⟩,
    ⟨⟨_, hreg'⟩, SolverClass.noConfusion, ⟨minimise, hm, rfl⟩, fun _ => hap⟩, heldSquare_held⟩

end Conmech
