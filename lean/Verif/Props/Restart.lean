import Verif.Props.Clock
/-!
C38, C39: solving again and resuming.
-/
namespace Conmech
open Spec

variable {K : Type} [Field K] [DecidableEq K] {V : Type}

/-- Two solver objects of the same class that may have been used differently: everything that a
simulation never changes is the same. -/
structure Alike (cls : SolverClass) (s s' : SolverState K) : Prop where
  timeStep : s.timeStep = s'.timeStep
  b : s.bVector = s'.bVector
  t : s.tVector = s'.tVector
  p : s.pVector = s'.pVector
  schur : ∀ rhs, (s.schur.map fun c => c.recalculateForces rhs) =
    s'.schur.map fun c => c.recalculateForces rhs
  idle : cls.iterateVariables s = none → s.system = s'.system ∧ s.schur = s'.schur

omit [DecidableEq K] in
theorem Alike.rfl' (cls : SolverClass) (s : SolverState K) : Alike cls s s :=
  ⟨rfl, rfl, rfl, rfl, fun _ => rfl, fun _ => ⟨rfl, rfl⟩⟩

omit [DecidableEq K] in
/-- Whether `iterate` does something depends only on the class. -/
theorem iterateVariables_none (cls : SolverClass) (s s' : SolverState K)
    (h : cls.iterateVariables s = none) : cls.iterateVariables s' = none := by
  cases cls <;> simp_all [SolverClass.iterateVariables]

omit [DecidableEq K] in
theorem Alike.trans {cls : SolverClass} {s s' s'' : SolverState K} (h : Alike cls s s')
    (h' : Alike cls s' s'') : Alike cls s s'' :=
  ⟨h.timeStep.trans h'.timeStep, h.b.trans h'.b, h.t.trans h'.t, h.p.trans h'.p,
    fun r => (h.schur r).trans (h'.schur r), fun hi =>
      ⟨(h.idle hi).1.trans (h'.idle (iterateVariables_none _ _ _ hi)).1,
       (h.idle hi).2.trans (h'.idle (iterateVariables_none _ _ _ hi)).2⟩⟩

omit [DecidableEq K] in
theorem Alike.symm {cls : SolverClass} {s s' : SolverState K} (h : Alike cls s s') :
    Alike cls s' s :=
  ⟨h.timeStep.symm, h.b.symm, h.t.symm, h.p.symm, fun r => (h.schur r).symm, fun hi =>
    ⟨(h.idle (iterateVariables_none _ _ _ hi)).1.symm, (h.idle (iterateVariables_none _ _ _ hi)).2.symm⟩⟩

/-- After writing the same time and the same vectors into alike solvers, `iterate` gives the same. -/
theorem iterate_alike (e : Engine K) (s s' : SolverState K) (h : Alike e.cls s s') (time : K)
    (u v : ℕ → K) :
    e.iterate { s with currentTime := time, uVector := u, vVector := v } =
      e.iterate { s' with currentTime := time, uVector := u, vVector := v } := by
  obtain ⟨cls, hcls⟩ : ∃ c, e.cls = c := ⟨_, rfl⟩
  obtain ⟨h1, h2, h3, h4, h5, h6⟩ := h
  unfold Engine.iterate
  congr 1
  rw [hcls] at h6 ⊢
  obtain ⟨ts, ct, b, uu, vv, t, p, sys, sch⟩ := s
  obtain ⟨ts', ct', b', uu', vv', t', p', sys', sch'⟩ := s'
  simp only at h1 h2 h3 h4 h5
  subst h1 h2 h3 h4
  cases hn : cls.iterateVariables
      ⟨ts, time, b, u, v, t, p, sys, sch⟩ with
  | none =>
    obtain ⟨h7, h8⟩ := h6 (iterateVariables_none _ _ _ hn)
    simp only at h7 h8
    subst h7 h8
    rfl
  | some var =>
    have hn' : cls.iterateVariables ⟨ts, time, b, u, v, t, p, sys', sch'⟩ = some var := by
      rw [← hn]; cases cls <;> rfl
    simp only [SolverState.iterate, hn, hn', SolverState.updateSystem, bind, Except.bind]
    cases e.kind.update e.ops e.boundaries var with
    | error err => rfl
    | ok S => simp only [pure, Except.pure]; rw [h5 S.rhs]

theorem alike_iterate (e : Engine K) (s s' : SolverState K) (h : e.iterate s = .ok s') :
    Alike e.cls s s' := by
  unfold Engine.iterate SolverState.iterate at h
  cases hv : e.cls.iterateVariables s with
  | none => simp only [hv, liftStatement] at h; cases h; exact Alike.rfl' _ _
  | some var =>
    simp only [hv] at h
    cases hu : s.updateSystem e.kind e.ops e.boundaries var with
    | error err => simp [hu, liftStatement] at h
    | ok s'' =>
      simp only [hu, liftStatement] at h
      cases h
      obtain ⟨S, _, h2⟩ := updateSystem_ok _ _ _ _ _ _ hu
      rw [h2]
      refine ⟨rfl, rfl, rfl, rfl, fun rhs => ?_, fun hi => ?_⟩
      · cases s.schur <;> rfl
      · rw [hv] at hi; cases hi

omit [DecidableEq K] in
theorem alike_write (cls : SolverClass) (s : SolverState K) (time : K) (u v : ℕ → K) :
    Alike cls s { s with currentTime := time, uVector := u, vVector := v } :=
  ⟨rfl, rfl, rfl, rfl, fun _ => rfl, fun _ => ⟨rfl, rfl⟩⟩

theorem alike_step (e : Engine K) (sim sim' : Simulation K V) (h : e.step .velocity sim = .ok sim') :
    Alike e.cls sim.solver sim'.solver := by
  obtain ⟨solver, h1, _, h3⟩ := (e.step_ok_iff _ _ _).1 h
  simp only [Engine.advance, Option.some.injEq, Prod.mk.injEq] at h1
  obtain ⟨_, rfl⟩ := h1
  exact (alike_write e.cls sim.solver _ _ _).trans (alike_iterate e _ _ h3)

theorem alike_steps (e : Engine K) (n : ℕ) (sim sim' : Simulation K V)
    (h : e.steps .velocity n sim = .ok sim') : Alike e.cls sim.solver sim'.solver := by
  induction n generalizing sim with
  | zero => cases h; exact Alike.rfl' _ _
  | succ n ih =>
    simp only [Engine.steps, bind, Except.bind] at h
    cases h1 : e.step .velocity sim with
    | error err => simp [h1] at h
    | ok s1 =>
      simp only [h1] at h
      exact (alike_step e _ _ h1).trans (ih _ h)

theorem alike_outputs (e : Engine K) (products : List ℕ) (ns : List ℤ) (sim sim' : Simulation K V)
    (rs : List (State K)) (h : e.outputs .velocity products ns sim = .ok (rs, sim')) :
    Alike e.cls sim.solver sim'.solver := by
  induction ns generalizing sim rs with
  | nil => cases h; exact Alike.rfl' _ _
  | cons n ns ih =>
    simp only [Engine.outputs, bind, Except.bind] at h
    cases h1 : e.run .velocity products n sim with
    | error err => simp [h1] at h
    | ok s1 =>
      simp only [h1] at h
      cases h2 : e.outputs .velocity products ns
          { s1 with store := (s1.state.copy e.grid s1.store).2 } with
      | error err => simp [h2] at h
      | ok r =>
        simp only [h2, pure, Except.pure, Except.ok.injEq, Prod.mk.injEq] at h
        obtain ⟨_, rfl⟩ := h
        exact (alike_steps e _ _ _ h1).trans
          (ih { s1 with store := (s1.state.copy e.grid s1.store).2 } r.1 h2)

/-- A state as the solvers create it, without products. -/
structure Bare (s : State K) : Prop where
  scalar : s.scalar = .absent
  products : s.products = []
  setup : s.setup = none
  law : s.law = none
  stress : s.stress = none

omit [DecidableEq K] in
theorem Bare.copy {s : State K} (h : Bare s) (g : Grid K) (st : ProductStore K V) :
    s.copy g st = (s, st) := by
  obtain ⟨⟨ab, di, dn, ve, sc, ti⟩, pr, se, la, stre⟩ := s
  obtain ⟨h1, h2, h3, h4, h5⟩ := h
  simp only at h1 h2 h3 h4 h5
  subst h1 h2 h3 h4 h5
  rfl

theorem bare_step (e : Engine K) (sim sim' : Simulation K V) (hb : Bare sim.state)
    (h : e.step .velocity sim = .ok sim') : Bare sim'.state ∧ sim'.store = sim.store := by
  obtain ⟨solver, h1, h2, _⟩ := (e.step_ok_iff _ _ _).1 h
  simp only [Engine.advance, Option.some.injEq, Prod.mk.injEq] at h1
  have hb' : Bare sim'.state := by
    rw [← h1.1]
    exact ⟨hb.scalar, hb.products, hb.setup, hb.law, hb.stress⟩
  refine ⟨hb', ?_⟩
  rw [hb'.products] at h2
  exact (Except.ok.inj h2).symm

/-- Without products a step does not depend on the product objects. -/
theorem step_store (e : Engine K) (sim sim' : Simulation K V) (hb : Bare sim.state)
    (h : e.step .velocity sim = .ok sim') (st : ProductStore K V) :
    e.step .velocity { sim with store := st } = .ok { sim' with store := st } := by
  obtain ⟨hb', _⟩ := bare_step e sim sim' hb h
  obtain ⟨solver, h1, h2, h3⟩ := (e.step_ok_iff _ _ _).1 h
  rw [Engine.step_ok_iff]
  exact ⟨solver, h1, by rw [hb'.products]; rfl, h3⟩

theorem steps_store (e : Engine K) (n : ℕ) (sim sim' : Simulation K V) (hb : Bare sim.state)
    (h : e.steps .velocity n sim = .ok sim') (st : ProductStore K V) :
    e.steps .velocity n { sim with store := st } = .ok { sim' with store := st } ∧
      Bare sim'.state ∧ sim'.store = sim.store := by
  induction n generalizing sim with
  | zero => cases h; exact ⟨rfl, hb, rfl⟩
  | succ n ih =>
    simp only [Engine.steps, bind, Except.bind] at h ⊢
    cases h1 : e.step .velocity sim with
    | error err => simp [h1] at h
    | ok s1 =>
      simp only [h1] at h
      obtain ⟨hb1, hs1⟩ := bare_step e _ _ hb h1
      obtain ⟨h2, h3, h4⟩ := ih s1 hb1 h
      rw [step_store e _ _ hb h1]
      exact ⟨h2, h3, h4.trans hs1⟩

theorem outputs_store (e : Engine K) (ns : List ℤ) (sim sim' : Simulation K V) (hb : Bare sim.state)
    (rs : List (State K)) (h : e.outputs .velocity [] ns sim = .ok (rs, sim'))
    (st : ProductStore K V) :
    e.outputs .velocity [] ns { sim with store := st } = .ok (rs, { sim' with store := st }) := by
  induction ns generalizing sim rs with
  | nil => cases h; rfl
  | cons n ns ih =>
    simp only [Engine.outputs, Engine.run, Engine.inject, List.foldl_nil, bind, Except.bind] at h ⊢
    cases h1 : e.steps .velocity n.toNat sim with
    | error err =>
      have : e.steps .velocity n.toNat { sim with state := sim.state } = .error err := h1
      simp [this] at h
    | ok s1 =>
      obtain ⟨h2, h3, h4⟩ := steps_store e _ _ _ hb h1 st
      have h1' : e.steps .velocity n.toNat { sim with state := sim.state } = .ok s1 := h1
      simp only [h1', h3.copy] at h
      have h2' : e.steps .velocity n.toNat
          { solver := sim.solver, state := sim.state, store := st } = .ok { s1 with store := st } := h2
      simp only [h2', h3.copy]
      cases h5 : e.outputs .velocity [] ns { s1 with store := s1.store } with
      | error err => simp [h5] at h
      | ok r =>
        simp only [h5, pure, Except.pure, Except.ok.injEq, Prod.mk.injEq] at h
        obtain ⟨rfl, rfl⟩ := h
        have := ih s1 h3 r.1 h5
        simp only [this, pure, Except.pure]

theorem bare_new (g : Grid K) (u v : ℕ → ℕ → K) :
    Bare { State.new g .plain with displacement := u, velocity := v } := ⟨rfl, rfl, rfl, rfl, rfl⟩

/-! ### C38 -/

/-- Wave problems without products: any later call of `solve` with the same arguments, by the same
solver object or any other one alike, returns the same states. -/
theorem C38_wave_partial (e : Engine K) (a : Engine.Arguments K) (hp : a.products = [])
    (resume : Option (State K)) (hr : ∀ s ∈ resume, Bare s) (solver solver' : SolverState K)
    (hs : Alike e.cls solver solver') (store store' : ProductStore K V) (rs : List (State K))
    (sim : Simulation K V) (h : e.waveSolve a resume solver store = .ok (rs, sim)) :
    Alike e.cls solver sim.solver ∧
    e.waveSolve a resume solver' store' = .ok (rs, { sim with store := store' }) := by
  rw [Engine.waveSolve_eq, hp] at h ⊢
  have hstart : ∀ s0, e.waveStart a resume solver store = .ok s0 →
      Alike e.cls solver s0.solver ∧ Bare s0.state ∧
      e.waveStart a resume solver' store' = .ok { s0 with store := store' } := by
    intro s0 h0
    unfold Engine.waveStart at h0 ⊢
    simp only [bind, Except.bind] at h0 ⊢
    rw [← iterate_alike e solver solver' hs]
    cases hi : e.iterate _ with
    | error err => rw [hi] at h0; cases h0
    | ok s1 =>
      rw [hi] at h0
      cases h0
      refine ⟨(alike_write e.cls solver _ _ _).trans (alike_iterate e _ _ hi), ?_, rfl⟩
      cases resume with
      | none => exact bare_new _ _ _
      | some st => exact hr st rfl
  cases h0 : e.waveStart a resume solver store with
  | error err => simp [h0, Except.bind] at h
  | ok s0 =>
    obtain ⟨h1, h2, h3⟩ := hstart s0 h0
    rw [h0] at h
    rw [h3]
    exact ⟨h1.trans (alike_outputs e [] _ _ _ rs h), outputs_store e _ s0 sim h2 rs h store'⟩

/-- The other time-dependent problems, without products: the same holds if the clock of the solver
is set back by hand. What is missing is that `solve` does this. -/
theorem C38_reset_partial (e : Engine K) (a : Engine.Arguments K) (hp : a.products = [])
    (solver : SolverState K) (store store' : ProductStore K V) (rs : List (State K))
    (sim : Simulation K V) (h : e.timeDependentSolve a solver store = .ok (rs, sim)) :
    e.timeDependentSolve a { sim.solver with currentTime := solver.currentTime } store' =
      .ok (rs, { sim with store := store' }) := by
  rw [Engine.timeDependentSolve_eq, hp] at h ⊢
  cases h0 : e.timeDependentStart a solver store with
  | error err => simp [h0, Except.bind] at h
  | ok s0 =>
    rw [h0] at h
    obtain ⟨s, h1, rfl⟩ := ok_of_bind _ _ _ h0
    have hal : Alike e.cls solver sim.solver :=
      ((alike_write e.cls solver solver.currentTime _ _).trans (alike_iterate e _ _ h1)).trans
        (alike_outputs e [] _ _ _ rs h)
    have h2 := iterate_alike e _ _ hal solver.currentTime
      (State.flatten e.grid a.initialDisplacement) (State.flatten e.grid a.initialVelocity)
    have h3 : e.timeDependentStart a { sim.solver with currentTime := solver.currentTime } store' =
        .ok ⟨s, { State.new e.grid .plain with
          displacement := a.initialDisplacement, velocity := a.initialVelocity }, store'⟩ := by
      unfold Engine.timeDependentStart
      simp only [bind, Except.bind]
      have h1' : e.iterate { solver with
        currentTime := solver.currentTime
        uVector := State.flatten e.grid a.initialDisplacement
        vVector := State.flatten e.grid a.initialVelocity } = .ok s := h1
      rw [h1'] at h2
      have h2' : e.iterate { sim.solver with
        currentTime := solver.currentTime
        uVector := State.flatten e.grid a.initialDisplacement
        vVector := State.flatten e.grid a.initialVelocity } = .ok s := h2.symm
      rw [h2']; rfl
    rw [h3]
    exact outputs_store e _ ⟨s, _, store⟩ sim (bare_new _ _ _) rs h store'

/-- What happens instead: if the clock of the solver is at `t` when `solve` is called, the first step
of every time-dependent run advances the displacement by `t` plus the time step times the
velocity. -/
theorem C38_first_step_wrong (e : Engine K) (a : Engine.Arguments K) (hp : a.products = [])
    (ho : a.outputStep = []) (hn : a.nSteps = 1) (solver : SolverState K) (store : ProductStore K V)
    (r : State K) (sim : Simulation K V)
    (h : e.timeDependentSolve a solver store = .ok ([r], sim)) :
    r.time = solver.currentTime + solver.timeStep ∧
    ∀ i j, r.displacement i j = a.initialDisplacement i j +
      (solver.currentTime + solver.timeStep) * r.velocity i j := by
  rw [Engine.timeDependentSolve_eq, hp, ho, hn, outputDiffs_nil] at h
  cases h0 : e.timeDependentStart a solver store with
  | error err => simp [h0, Except.bind] at h
  | ok s0 =>
    rw [h0] at h
    obtain ⟨s, h1, rfl⟩ := ok_of_bind _ _ _ h0
    have hit := e.iterate_ok _ _ h1
    simp only [Except.bind, Engine.outputs, Engine.run, Engine.inject, List.foldl_nil, bind,
      Engine.steps, show ((1 : ℤ) - 0).toNat = 1 from rfl] at h
    cases h2 : e.step .velocity ⟨s, { State.new e.grid .plain with
      displacement := a.initialDisplacement, velocity := a.initialVelocity }, store⟩ with
    | error err => rw [h2] at h; cases h
    | ok s1 =>
      rw [h2] at h
      cases h
      obtain ⟨h3, _, _, h4, _⟩ := velocity_step e _ _ h2
      have hc := copy_snapshot e.grid s1.state s1.store
      have htime : (s1.state.copy e.grid s1.store).1.time = s1.state.time :=
        congrArg Snapshot.time hc
      have hdisp : (s1.state.copy e.grid s1.store).1.displacement = s1.state.displacement :=
        congrArg Snapshot.displacement hc
      have hvel : (s1.state.copy e.grid s1.store).1.velocity = s1.state.velocity :=
        congrArg Snapshot.velocity hc
      rw [htime, hdisp, hvel]
      rw [hit] at h3
      refine ⟨h3, fun i j => ?_⟩
      rw [h4, h3]
      simp [State.new]

/-- The second call of `solve` with the same arguments returns something else. -/
theorem C38_twice_wrong :
    (summary (lineEngine.timeDependentSolve { lineArguments [] with products := [] } lineSolver
      lineStore)).map (fun r => (r.1, r.2.1)) = [(3 / 2, 4)] ∧
    (match lineEngine.timeDependentSolve { lineArguments [] with products := [] } lineSolver
        lineStore with
      | .ok (_, sim) => (summary (lineEngine.timeDependentSolve
          { lineArguments [] with products := [] } sim.solver lineStore)).map fun r => (r.1, r.2.1)
      | .error _ => []) = [(3, 43 / 4)] := by
  decide +kernel

/-! ### C39 -/

/-- After any number of steps the solver is as `iterate` leaves it for the current state. -/
def Settled (e : Engine K) (sim : Simulation K V) : Prop :=
  ∃ s : SolverState K, e.iterate { s with
      currentTime := sim.state.time
      uVector := State.flatten e.grid sim.state.displacement
      vVector := State.flatten e.grid sim.state.velocity } = .ok sim.solver

theorem settled_step (e : Engine K) (sim sim' : Simulation K V)
    (h : e.step .velocity sim = .ok sim') : Settled e sim' := by
  obtain ⟨solver, h1, _, h3⟩ := (e.step_ok_iff _ _ _).1 h
  simp only [Engine.advance, Option.some.injEq, Prod.mk.injEq] at h1
  obtain ⟨hs, rfl⟩ := h1
  refine ⟨sim.solver, ?_⟩
  rw [← h3, ← hs]
  rfl

theorem settled_steps (e : Engine K) (n : ℕ) (sim sim' : Simulation K V) (h0 : Settled e sim)
    (h : e.steps .velocity n sim = .ok sim') : Settled e sim' := by
  induction n generalizing sim with
  | zero => cases h; exact h0
  | succ n ih =>
    simp only [Engine.steps, bind, Except.bind] at h
    cases h1 : e.step .velocity sim with
    | error err => simp [h1] at h
    | ok s1 =>
      simp only [h1] at h
      exact ih _ (settled_step e _ _ h1) h

/-- A wave run without products and outputs. -/
theorem wave_single (e : Engine K) (a : Engine.Arguments K) (hp : a.products = [])
    (ho : a.outputStep = []) (resume : Option (State K)) (hr : ∀ s ∈ resume, Bare s)
    (solver : SolverState K) (store : ProductStore K V) (rs : List (State K)) (sim : Simulation K V) :
    e.waveSolve a resume solver store = .ok (rs, sim) ↔
      ∃ s0, e.waveStart a resume solver store = .ok s0 ∧
        e.steps .velocity a.nSteps.toNat s0 = .ok sim ∧ rs = [sim.state] ∧ Bare s0.state := by
  rw [Engine.waveSolve_eq, hp, ho, outputDiffs_nil]
  have hbare : ∀ s0, e.waveStart a resume solver store = .ok s0 → Bare s0.state := by
    intro s0 h0
    unfold Engine.waveStart at h0
    simp only [bind, Except.bind] at h0
    cases hi : e.iterate _ with
    | error err => rw [hi] at h0; cases h0
    | ok s1 =>
      rw [hi] at h0
      cases h0
      cases resume with
      | none => exact bare_new _ _ _
      | some st => exact hr st rfl
  cases h0 : e.waveStart a resume solver store with
  | error err => simp [Except.bind]
  | ok s0 =>
    have hb := hbare s0 h0
    simp only [Except.bind, Engine.outputs, Engine.run, Engine.inject, List.foldl_nil, bind,
      Int.sub_zero, Except.ok.injEq, exists_eq_left', pure, Except.pure]
    have hs0 : ({ s0 with state := s0.state } : Simulation K V) = s0 := rfl
    rw [hs0]
    cases h1 : e.steps .velocity a.nSteps.toNat s0 with
    | error err => simp
    | ok s1 =>
      obtain ⟨_, h2, h3⟩ := steps_store e _ _ _ hb h1 store
      simp only [h2.copy, Except.ok.injEq, Prod.mk.injEq]
      constructor
      · rintro ⟨rfl, rfl⟩; exact ⟨rfl, rfl, hb⟩
      · rintro ⟨rfl, rfl, _⟩; exact ⟨rfl, rfl⟩

/-- Wave problems without products: after a run of `n` steps, resuming for `m` steps with the
returned state, by the same or any alike solver, gives exactly what a run of `n + m` steps gives,
including success. The first run may itself be resumed. -/
theorem C39_resume_partial (e : Engine K) (a : Engine.Arguments K) (hp : a.products = [])
    (ho : a.outputStep = []) (resume : Option (State K)) (hr : ∀ s ∈ resume, Bare s)
    (n m : ℕ) (solver solver' : SolverState K) (hs : Alike e.cls solver solver')
    (store : ProductStore K V) (r : State K) (sim : Simulation K V)
    (h : e.waveSolve { a with nSteps := n } resume solver store = .ok ([r], sim)) :
    Bare r ∧ Alike e.cls solver sim.solver ∧ ∀ rs sim',
      e.waveSolve { a with nSteps := m } (some r) solver' store = .ok (rs, sim') ↔
        e.waveSolve { a with nSteps := (n + m : ℕ) } resume solver store = .ok (rs, sim') := by
  obtain ⟨s0, h0, h1, h2, hb⟩ := (wave_single e { a with nSteps := n } hp ho resume hr _ _ _ _).1 h
  simp only [List.cons.injEq, and_true] at h2
  subst h2
  obtain ⟨_, hbare, hstore⟩ := steps_store e _ _ _ hb h1 store
  have hstart : ∃ s1, e.iterate { solver with
        currentTime := s0.state.time
        uVector := State.flatten e.grid s0.state.displacement
        vVector := State.flatten e.grid s0.state.velocity } = .ok s1 ∧ s0.solver = s1 ∧
        s0.store = store := by
    cases resume with
    | none =>
      obtain ⟨s1, hi, rfl⟩ := ok_of_bind _ _ _ h0
      exact ⟨s1, hi, rfl, rfl⟩
    | some st =>
      obtain ⟨s1, hi, rfl⟩ := ok_of_bind _ _ _ h0
      exact ⟨s1, hi, rfl, rfl⟩
  obtain ⟨s1, hs1, hs1', hst⟩ := hstart
  have hal0 : Alike e.cls solver s0.solver := by
    rw [hs1']; exact (alike_write e.cls solver _ _ _).trans (alike_iterate e _ _ hs1)
  have hal : Alike e.cls solver sim.solver := hal0.trans (alike_steps e _ _ _ h1)
  refine ⟨hbare, hal, fun rs sim' => ?_⟩
  rw [wave_single e { a with nSteps := m } hp ho (some sim.state)
    (by intro s hs; cases hs; exact hbare) solver' store rs sim',
    wave_single e { a with nSteps := (n + m : ℕ) } hp ho resume hr solver store rs sim']
  -- the resumed run starts with the simulation reached by the first one
  obtain ⟨s2, hs2⟩ := settled_steps e _ _ _ ⟨solver, hs1' ▸ hs1⟩ h1
  have hal2 : Alike e.cls s2 solver' := by
    have := (alike_write e.cls s2 _ _ _).trans (alike_iterate e _ _ hs2)
    exact this.trans (hal.symm.trans hs)
  have hstart' : e.waveStart { a with nSteps := m } (some sim.state) solver' store = .ok sim := by
    unfold Engine.waveStart
    simp only [bind, Except.bind]
    rw [← iterate_alike e s2 solver' hal2, hs2]
    obtain ⟨a1, a2, a3⟩ := sim
    simp only at hstore hst ⊢
    rw [hstore, hst]; rfl
  have h0' : e.waveStart { a with nSteps := (n + m : ℕ) } resume solver store = .ok s0 := h0
  simp only [hstart', h0', Except.ok.injEq, exists_eq_left', Int.toNat_natCast] at h1 ⊢
  rw [Engine.steps_add, h1]
  exact ⟨fun ⟨x, y, _⟩ => ⟨x, y, hb⟩, fun ⟨x, y, _⟩ => ⟨x, y, hbare⟩⟩

/-- A copied product cannot be updated: a step of a state whose first product is a copy raises
`NotImplementedError`. -/
theorem step_copied_product (e : Engine K) (sim : Simulation K V) (name : String) (id : ℕ)
    (rest : List (String × ℕ)) (hp : sim.state.products = (name, id) :: rest)
    (hr : (sim.store.get id).rule = none) : e.step .velocity sim = .error .notImplemented := by
  rw [Engine.step_eq]
  simp only [Engine.advance]
  have : (sim.state.withVelocity e.grid (e.solve
      { sim.solver with currentTime := sim.solver.currentTime + sim.solver.timeStep }
      (State.flatten e.grid sim.state.velocity))
      (sim.solver.currentTime + sim.solver.timeStep) true).products = (name, id) :: rest := hp
  rw [this]
  simp only [updateAll, Product.update, hr, bind, Except.bind]

/-- A run with a product, resumed without giving products again: every attempt to make at least one
step raises `NotImplementedError`, whatever the solver is. The returned state is any copy made by a
run. -/
theorem C39_products_wrong (e : Engine K) (a : Engine.Arguments K) (hp : a.products = [])
    (ho : a.outputStep = []) (hn : 0 < a.nSteps) (s : State K) (hs : s.scalar = .absent)
    (st : ProductStore K V) (hne : s.products ≠ []) (hids : ∀ p ∈ s.products, p.2 < st.next)
    (solver : SolverState K) (hi : ∀ x : SolverState K, ∃ y, e.iterate x = .ok y) :
    e.waveSolve a (some (s.copy e.grid st).1) solver (s.copy e.grid st).2 =
      .error .notImplemented := by
  obtain ⟨p, rest, hps⟩ : ∃ p rest, s.products = p :: rest := by
    cases h : s.products with
    | nil => exact absurd h hne
    | cons p rest => exact ⟨p, rest, rfl⟩
  obtain ⟨c1, c2, c3, c4⟩ := copyProducts_spec s.products st hids
  have hc : (s.copy e.grid st).1.products = (State.copyProducts s.products st).1 ∧
      (s.copy e.grid st).2 = (State.copyProducts s.products st).2 := by
    simp only [State.copy, hs, and_self]
  rw [hps] at c4 hc
  obtain ⟨q, qs, hq⟩ : ∃ q qs, (State.copyProducts (p :: rest) st).1 = q :: qs := ⟨_, _, rfl⟩
  have hrule : ((State.copyProducts (p :: rest) st).2.get q.2).rule = none := by
    rw [hq, List.map_cons, List.map_cons, List.cons.injEq, Prod.mk.injEq] at c4
    rw [c4.1.2]; rfl
  rw [Engine.waveSolve_eq, hp, ho, outputDiffs_nil]
  unfold Engine.waveStart
  obtain ⟨y, hy⟩ := hi { solver with
    currentTime := (s.copy e.grid st).1.time
    uVector := State.flatten e.grid (s.copy e.grid st).1.displacement
    vVector := State.flatten e.grid (s.copy e.grid st).1.velocity }
  simp only [bind, Except.bind, hy, pure, Except.pure, Engine.outputs, Engine.run, Engine.inject,
    List.foldl_nil]
  obtain ⟨k, hk⟩ : ∃ k, (a.nSteps - 0).toNat = k + 1 := ⟨a.nSteps.toNat - 1, by omega⟩
  rw [hk]
  simp only [Engine.steps, bind, Except.bind]
  rw [step_copied_product e _ q.1 q.2 qs (by rw [hc.1, hq]) (by rw [hc.2]; exact hrule)]

/-- The hypotheses of `C39_resume_partial` and its conclusion for concrete numbers: 2 steps and then
3 more against 5 steps. -/
example : summary (lineEngine.waveSolve { lineArguments [] with products := [], nSteps := 5 } none
      lineSolver lineStore) = [(5 / 2, 29 / 4, 49 / 4, [])] ∧
    (match lineEngine.waveSolve { lineArguments [] with products := [], nSteps := 2 } none lineSolver
        lineStore with
      | .ok (r :: _, sim) => summary (lineEngine.waveSolve
          { lineArguments [] with products := [], nSteps := 3 } (some r) sim.solver sim.store)
      | _ => []) = [(5 / 2, 29 / 4, 49 / 4, [])] ∧
    (match lineEngine.waveSolve { lineArguments [] with nSteps := 2 } none lineSolver lineStore with
      | .ok (r :: _, sim) => (match lineEngine.waveSolve
          { lineArguments [] with products := [], nSteps := 3 } (some r) sim.solver sim.store with
        | .error e => decide (e = .notImplemented)
        | .ok _ => false)
      | _ => false) = true := by
  decide +kernel

/-- The hypothesis on `iterate` in `C39_products_wrong` is met by the example. -/
example : ∀ x : SolverState ℚ, ∃ y, lineEngine.iterate x = .ok y := fun _ => ⟨_, rfl⟩

end Conmech
