import Verif.Lemmas.Running
import Mathlib.Algebra.BigOperators.Intervals
import Mathlib.Tactic.LinearCombination
import Mathlib.Tactic.FieldSimp
/-!
C36, C37: the clock of a simulation and the states returned for the output steps.
-/
namespace Conmech
open Spec

variable {K : Type} [Field K] [DecidableEq K] {V : Type}

/-! ### C36 -/

/-- One step in velocities. -/
theorem velocity_step (e : Engine K) (sim sim' : Simulation K V)
    (h : e.step .velocity sim = .ok sim') :
    sim'.state.time = sim.solver.currentTime + sim.solver.timeStep ∧
    sim'.solver.currentTime = sim.solver.currentTime + sim.solver.timeStep ∧
    sim'.solver.timeStep = sim.solver.timeStep ∧
    (∀ i j, sim'.state.displacement i j = sim.state.displacement i j +
      (sim'.state.time - sim.state.time) * sim'.state.velocity i j) ∧
    (∀ i j, sim'.state.displacedNodes i j = e.grid.nodes i j + sim'.state.displacement i j) ∧
    sim'.solver.uVector = State.flatten e.grid sim'.state.displacement ∧
    sim'.solver.vVector = State.flatten e.grid sim'.state.velocity ∧
    sim'.state.absement = sim.state.absement := by
  obtain ⟨solver, h1, _, h3⟩ := (e.step_ok_iff _ _ _).1 h
  have hit := e.iterate_ok _ _ h3
  simp only [Engine.advance, Option.some.injEq, Prod.mk.injEq] at h1
  obtain ⟨hs, hv⟩ := h1
  subst hv
  rw [hit, ← hs]
  exact ⟨rfl, rfl, rfl, fun _ _ => rfl, fun _ _ => rfl, rfl, rfl, rfl⟩

/-- One step in displacements. -/
theorem displacement_step (e : Engine K) (sim sim' : Simulation K V)
    (h : e.step .displacement sim = .ok sim') :
    sim'.state.time = sim.solver.currentTime + sim.solver.timeStep ∧
    sim'.solver.currentTime = sim.solver.currentTime + sim.solver.timeStep ∧
    sim'.solver.timeStep = sim.solver.timeStep ∧
    (∀ i j, sim'.state.absement i j = sim.state.absement i j +
      (sim'.state.time - sim.state.time) * sim'.state.displacement i j) ∧
    (∀ i j, sim'.state.displacedNodes i j = e.grid.nodes i j + sim'.state.displacement i j) ∧
    sim'.solver.uVector = State.flatten e.grid sim'.state.displacement ∧
    sim'.solver.bVector = State.flatten e.grid sim'.state.absement := by
  obtain ⟨solver, h1, _, h3⟩ := (e.step_ok_iff _ _ _).1 h
  have hit := e.iterate_ok _ _ h3
  simp only [Engine.advance, Option.some.injEq, Prod.mk.injEq] at h1
  obtain ⟨hs, hv⟩ := h1
  subst hv
  rw [hit, ← hs]
  exact ⟨rfl, rfl, rfl, fun _ _ => rfl, fun _ _ => rfl, rfl, rfl⟩

/-- Problems in velocities: time and displacement after `k` steps of any run, whatever the solver
returns, if solver and state start with the same time. -/
theorem C36_velocity (e : Engine K) (n : ℕ) (traj : ℕ → Simulation K V)
    (h : Follows (e.step .velocity) n traj)
    (h0 : (traj 0).state.time = (traj 0).solver.currentTime) (k : ℕ) (hk : k ≤ n) :
    (traj k).state.time = (traj k).solver.currentTime ∧
    (traj k).state.time = (traj 0).state.time + k * (traj 0).solver.timeStep ∧
    (traj k).solver.timeStep = (traj 0).solver.timeStep ∧
    ∀ i j, (traj k).state.displacement i j = (traj 0).state.displacement i j +
      (traj 0).solver.timeStep * ∑ m ∈ Finset.range k, (traj (m + 1)).state.velocity i j := by
  induction k with
  | zero => simp [h0]
  | succ k ih =>
    obtain ⟨h1, h2, h3, h4⟩ := ih (by omega)
    obtain ⟨s1, s2, s3, s4, _⟩ := velocity_step e _ _ (h k (by omega))
    refine ⟨by rw [s1, s2], ?_, by rw [s3, h3], fun i j => ?_⟩
    · rw [s1, ← h1, h2, h3]; push_cast; ring
    · rw [s4, s1, ← h1, h3, h4, Finset.sum_range_succ]; ring

/-- Problems in displacements: time and absement (the time integral of the displacement). -/
theorem C36_displacement (e : Engine K) (n : ℕ) (traj : ℕ → Simulation K V)
    (h : Follows (e.step .displacement) n traj)
    (h0 : (traj 0).state.time = (traj 0).solver.currentTime) (k : ℕ) (hk : k ≤ n) :
    (traj k).state.time = (traj k).solver.currentTime ∧
    (traj k).state.time = (traj 0).state.time + k * (traj 0).solver.timeStep ∧
    (traj k).solver.timeStep = (traj 0).solver.timeStep ∧
    ∀ i j, (traj k).state.absement i j = (traj 0).state.absement i j +
      (traj 0).solver.timeStep * ∑ m ∈ Finset.range k, (traj (m + 1)).state.displacement i j := by
  induction k with
  | zero => simp [h0]
  | succ k ih =>
    obtain ⟨h1, h2, h3, h4⟩ := ih (by omega)
    obtain ⟨s1, s2, s3, s4, _⟩ := displacement_step e _ _ (h k (by omega))
    refine ⟨by rw [s1, s2], ?_, by rw [s3, h3], fun i j => ?_⟩
    · rw [s1, ← h1, h2, h3]; push_cast; ring
    · rw [s4, s1, ← h1, h3, h4, Finset.sum_range_succ]; ring

/-- In a run the vectors of the solver are the flattened arrays of the state. -/
theorem C36_vectors (e : Engine K) (c : Coordinates) (n : ℕ) (traj : ℕ → Simulation K V)
    (h : Follows (e.step c) n traj) (k : ℕ) (h0 : 0 < k) (hk : k ≤ n) :
    (traj k).solver.uVector = State.flatten e.grid (traj k).state.displacement ∧
    (c = .velocity → (traj k).solver.vVector = State.flatten e.grid (traj k).state.velocity) ∧
    (c = .displacement → (traj k).solver.bVector = State.flatten e.grid (traj k).state.absement) := by
  obtain ⟨k, rfl⟩ : ∃ m, k = m + 1 := ⟨k - 1, by omega⟩
  have hs := h k (by omega)
  cases c with
  | displacement =>
    obtain ⟨_, _, _, _, _, h1, h2⟩ := displacement_step e _ _ hs
    exact ⟨h1, by simp, fun _ => h2⟩
  | velocity =>
    obtain ⟨_, _, _, _, _, h1, h2, _⟩ := velocity_step e _ _ hs
    exact ⟨h1, fun _ => h2, by simp⟩
  | temperature => cases hs

/-! ### C37 -/

theorem inject_twice (products : List ℕ) (sim : Simulation K V)
    (hs : ∀ p ∈ sim.state.products, p.2 < sim.store.next)
    (hp : ∀ id ∈ products, id < sim.store.next)
    (hn : (products.map fun id => (sim.store.get id).name).Nodup) :
    Engine.inject products (Engine.inject products sim) = Engine.inject products sim :=
  (injected_inject products sim _ hs hp hn).inject_eq

theorem outputs_inject (e : Engine K) (c : Coordinates) (products : List ℕ) (n : ℤ) (ns : List ℤ)
    (sim : Simulation K V) (hs : ∀ p ∈ sim.state.products, p.2 < sim.store.next)
    (hp : ∀ id ∈ products, id < sim.store.next)
    (hn : (products.map fun id => (sim.store.get id).name).Nodup) :
    e.outputs c products (n :: ns) sim = e.outputs c products (n :: ns) (Engine.inject products sim) := by
  simp only [Engine.outputs, Engine.run, inject_twice products sim hs hp hn]

theorem inject_scalar (products : List ℕ) (sim : Simulation K V) :
    (Engine.inject products sim).state.scalar = sim.state.scalar :=
  congrArg Snapshot.scalar (injectAll_snapshot (fun id => (sim.store.get id).name) products sim.state)

/-- The simulation at the beginning of the time loop and the products given by the user are sound:
the product objects exist and the products have different names. -/
structure Sound (products : List ℕ) (sim : Simulation K V) : Prop where
  plain : sim.state.scalar = .absent
  own : ∀ p ∈ sim.state.products, p.2 < sim.store.next
  given : ∀ id ∈ products, id < sim.store.next
  names : (products.map fun id => (sim.store.get id).name).Nodup

/-- Any run with outputs (also decreasing ones) makes copies of one trajectory. -/
theorem outputs_trajectory (e : Engine K) (c : Coordinates) (products : List ℕ) (n : ℤ) (ns : List ℤ)
    (sim : Simulation K V) (hS : Sound products sim) (rs : List (State K)) (sim' : Simulation K V)
    (h : e.outputs c products (n :: ns) sim = .ok (rs, sim')) :
    ∃ traj, Follows (e.step c) (total (n :: ns)) traj ∧ traj 0 = Engine.inject products sim ∧
      rs.map (observe sim'.store) =
        (stops 0 (n :: ns)).map fun o => observe (traj o).store (traj o).state := by
  rw [outputs_inject e c products n ns sim hS.own hS.given hS.names] at h
  have hi := injected_inject products sim _ hS.own hS.given hS.names
  have hs := (inject_scalar products sim).trans hS.plain
  obtain ⟨s1, h1⟩ := e.steps_of_outputs c _ products _ _ hi hs (le_refl _) _ h
  obtain ⟨traj, ht, h0, _⟩ := e.follows_of_steps c _ _ _ h1
  obtain ⟨rs', s2, h2, _, _, _, h6⟩ := e.outputs_follows c sim.store.next _ products traj ht
    (by rw [h0]; exact hi)
    (by rw [h0, hs]) (n :: ns) 0 (by omega) (Engine.inject products sim)
    (by rw [h0]; exact close_refl _ _) (le_refl _)
  rw [h] at h2
  cases h2
  exact ⟨traj, ht, h0, h6⟩

/-- A run without outputs is enough for a run with outputs. -/
theorem outputs_of_steps (e : Engine K) (c : Coordinates) (products : List ℕ) (n : ℤ) (ns : List ℤ)
    (sim : Simulation K V) (hS : Sound products sim) (m : ℕ) (hm : total (n :: ns) ≤ m)
    (traj : ℕ → Simulation K V) (ht : Follows (e.step c) m traj)
    (h0 : traj 0 = Engine.inject products sim) :
    ∃ rs sim', e.outputs c products (n :: ns) sim = .ok (rs, sim') ∧
      rs.map (observe sim'.store) =
        (stops 0 (n :: ns)).map fun o => observe (traj o).store (traj o).state := by
  rw [outputs_inject e c products n ns sim hS.own hS.given hS.names]
  have hi := injected_inject products sim _ hS.own hS.given hS.names
  have hs := (inject_scalar products sim).trans hS.plain
  obtain ⟨rs', s2, h2, _, _, _, h6⟩ := e.outputs_follows c sim.store.next _ products traj ht
    (by rw [h0]; exact hi)
    (by rw [h0, hs]) (n :: ns) 0 (by omega) (Engine.inject products sim)
    (by rw [h0]; exact close_refl _ _) (le_refl _)
  exact ⟨rs', s2, h2, h6⟩

/-- Non-decreasing output steps, starting from a non-negative one. -/
def SortedSteps (os : List ℤ) : Prop := (0 :: os).IsChain (· ≤ ·)

theorem outputDiffs_cons (n o : ℤ) (os : List ℤ) :
    Engine.outputDiffs n (o :: os) = (o - 0) :: Engine.diff (o :: os) := rfl

theorem outputDiffs_nil (n : ℤ) : Engine.outputDiffs n [] = [n - 0] := rfl

theorem chain_getLast (a : ℤ) (os : List ℤ) (h : (a :: os).IsChain (· ≤ ·)) (o : ℤ)
    (ho : o ∈ a :: os) : o ≤ os.getLastD a := by
  induction os generalizing a o with
  | nil => simpa using le_of_eq (List.mem_singleton.1 ho)
  | cons b os ih =>
    rw [List.isChain_cons_cons] at h
    have h1 := ih b h.2 b List.mem_cons_self
    have : os.getLastD b = (b :: os).getLastD a := by cases os <;> rfl
    rw [← this]
    rcases List.mem_cons.1 ho with rfl | ho
    · omega
    · exact ih b h.2 o ho

/-- Chopping: the states of a run with sorted output steps are the states of the runs with these
numbers of steps, and the run with outputs succeeds exactly if the longest run does. -/
theorem outputs_chop (e : Engine K) (c : Coordinates) (products : List ℕ) (N : ℤ) (os : List ℤ)
    (hne : os ≠ []) (hso : SortedSteps os) (sim : Simulation K V) (hS : Sound products sim) :
    (∀ rs sim', e.outputs c products (Engine.outputDiffs N os) sim = .ok (rs, sim') →
      List.Forall₂ (fun o r => ∃ r' sim'',
        e.outputs c products (Engine.outputDiffs o []) sim = .ok ([r'], sim'') ∧
        observe sim''.store r' = observe sim'.store r) os rs) ∧
    ((∃ r, e.outputs c products (Engine.outputDiffs N os) sim = .ok r) ↔
      ∃ r, e.outputs c products (Engine.outputDiffs (os.getLastD 0) []) sim = .ok r) := by
  obtain ⟨o, os, rfl⟩ : ∃ o os', os = o :: os' := by cases os with | nil => exact absurd rfl hne | cons a b => exact ⟨a, b, rfl⟩
  obtain ⟨hst, htot⟩ := stops_diff 0 (le_refl _) (o :: os) hso
  have htot' : total (Engine.diff (0 :: o :: os)) = ((o :: os).getLastD 0).toNat := by
    simpa using htot
  have hmax : ∀ x ∈ o :: os, x.toNat ≤ ((o :: os).getLastD 0).toNat := fun x hx => by
    have := chain_getLast 0 (o :: os) hso x (List.mem_cons_of_mem _ hx); omega
  -- a single run along a trajectory
  have single : ∀ (x : ℤ) (m : ℕ) (traj : ℕ → Simulation K V), Follows (e.step c) m traj →
      traj 0 = Engine.inject products sim → x.toNat ≤ m → ∃ r sim'',
        e.outputs c products (Engine.outputDiffs x []) sim = .ok ([r], sim'') ∧
        observe sim''.store r = observe (traj x.toNat).store (traj x.toNat).state := by
    intro x m traj ht h0 hx
    obtain ⟨rs, s, h1, h2⟩ := outputs_of_steps e c products (x - 0) [] sim hS m
      (by simpa [total] using hx) traj ht h0
    have hx0 : stops 0 [x - 0] = [x.toNat] := by simp [stops]
    rw [hx0] at h2
    obtain ⟨r, rfl⟩ : ∃ r, rs = [r] := by
      have := congrArg List.length h2
      simp only [List.length_map, List.length_cons, List.length_nil] at this
      exact List.length_eq_one_iff.1 this
    exact ⟨r, s, h1, by simpa using h2⟩
  constructor
  · intro rs sim' h
    obtain ⟨traj, ht, h0, hr⟩ := outputs_trajectory e c products _ _ sim hS rs sim' h
    change Follows _ (total (Engine.diff (0 :: o :: os))) _ at ht
    change _ = (stops 0 (Engine.diff (0 :: o :: os))).map _ at hr
    rw [htot'] at ht
    have hst' : stops 0 (Engine.diff (0 :: o :: os)) = (o :: os).map Int.toNat := hst
    rw [hst', List.map_map] at hr
    have key : ∀ (l : List ℤ) (rs : List (State K)), (∀ x ∈ l, x ∈ o :: os) →
        rs.map (observe sim'.store) =
          l.map (fun x : ℤ => observe (traj x.toNat).store (traj x.toNat).state) →
        List.Forall₂ (fun o r => ∃ r' sim'',
          e.outputs c products (Engine.outputDiffs o []) sim = .ok ([r'], sim'') ∧
          observe sim''.store r' = observe sim'.store r) l rs := by
      intro l
      induction l with
      | nil =>
        intro rs _ hl
        cases rs with
        | nil => exact .nil
        | cons r rs => simp at hl
      | cons x l ih =>
        intro rs hm hl
        cases rs with
        | nil => simp at hl
        | cons r rs =>
          simp only [List.map_cons, List.cons.injEq] at hl
          refine .cons ?_ (ih rs (fun y hy => hm y (List.mem_cons_of_mem _ hy)) hl.2)
          obtain ⟨r', s'', h1, h2⟩ := single x _ traj ht h0 (hmax x (hm x List.mem_cons_self))
          exact ⟨r', s'', h1, by rw [h2, hl.1]⟩
    exact key _ rs (fun x hx => hx) hr
  · constructor
    · rintro ⟨⟨rs, sim'⟩, h⟩
      obtain ⟨traj, ht, h0, _⟩ := outputs_trajectory e c products _ _ sim hS rs sim' h
      change Follows _ (total (Engine.diff (0 :: o :: os))) _ at ht
      rw [htot'] at ht
      obtain ⟨r, s, h1, _⟩ := single ((o :: os).getLastD 0) _ traj ht h0 (le_refl _)
      exact ⟨_, h1⟩
    · rintro ⟨⟨rs, sim'⟩, h⟩
      obtain ⟨traj, ht, h0, _⟩ := outputs_trajectory e c products _ [] sim hS rs sim' h
      have hx0 : total [((o :: os).getLastD 0) - 0] = ((o :: os).getLastD 0).toNat := by
        simp [total]
      rw [hx0] at ht
      obtain ⟨rs, s, h1, _⟩ := outputs_of_steps e c products (o - 0) (Engine.diff (o :: os)) sim hS _
        (le_of_eq htot') traj ht h0
      exact ⟨_, h1⟩

/-- The simulation at the beginning of the time loop of `TimeDependentSolver.solve`. -/
def Engine.timeDependentStart (e : Engine K) (a : Engine.Arguments K) (solver : SolverState K)
    (store : ProductStore K V) : Except (RunError StatementError) (Simulation K V) := do
  let state := { State.new e.grid .plain with
    displacement := a.initialDisplacement, velocity := a.initialVelocity }
  let solver ← e.iterate { solver with
    uVector := State.flatten e.grid state.displacement
    vVector := State.flatten e.grid state.velocity }
  return { solver := solver, state := state, store := store }

theorem Engine.timeDependentSolve_eq (e : Engine K) (a : Engine.Arguments K) (solver : SolverState K)
    (store : ProductStore K V) :
    e.timeDependentSolve a solver store = (e.timeDependentStart a solver store).bind
      (e.outputs .velocity a.products (Engine.outputDiffs a.nSteps a.outputStep)) := by
  simp only [Engine.timeDependentSolve, Engine.timeDependentStart, bind, Except.bind, pure,
    Except.pure]
  cases e.iterate _ <;> rfl

/-- The same for `QuasistaticRelaxation.solve`. -/
def Engine.relaxationStart (e : Engine K) (a : Engine.Arguments K) (solver : SolverState K)
    (store : ProductStore K V) : Except (RunError StatementError) (Simulation K V) := do
  let state := { State.new e.grid .plain with
    absement := a.initialAbsement, displacement := a.initialDisplacement }
  let solver ← e.iterate { solver with
    bVector := State.flatten e.grid state.absement
    uVector := State.flatten e.grid state.displacement }
  return { solver := solver, state := state, store := store }

theorem Engine.relaxationSolve_eq (e : Engine K) (a : Engine.Arguments K) (solver : SolverState K)
    (store : ProductStore K V) :
    e.relaxationSolve a solver store = (e.relaxationStart a solver store).bind
      (e.outputs .displacement a.products (Engine.outputDiffs a.nSteps a.outputStep)) := by
  simp only [Engine.relaxationSolve, Engine.relaxationStart, bind, Except.bind, pure, Except.pure]
  cases e.iterate _ <;> rfl

/-- The same for `WaveSolver.solve`. -/
def Engine.waveStart (e : Engine K) (a : Engine.Arguments K) (resume : Option (State K))
    (solver : SolverState K) (store : ProductStore K V) :
    Except (RunError StatementError) (Simulation K V) := do
  let state := match resume with
    | none => { State.new e.grid .plain with
        displacement := a.initialDisplacement, velocity := a.initialVelocity }
    | some state => state
  let solver ← e.iterate { solver with
    currentTime := state.time
    uVector := State.flatten e.grid state.displacement
    vVector := State.flatten e.grid state.velocity }
  return { solver := solver, state := state, store := store }

theorem Engine.waveSolve_eq (e : Engine K) (a : Engine.Arguments K) (resume : Option (State K))
    (solver : SolverState K) (store : ProductStore K V) :
    e.waveSolve a resume solver store = (e.waveStart a resume solver store).bind
      (e.outputs .velocity a.products (Engine.outputDiffs a.nSteps a.outputStep)) := by
  cases resume <;>
    simp only [Engine.waveSolve, Engine.waveStart, bind, Except.bind, pure, Except.pure] <;>
    cases e.iterate _ <;> rfl

/-- A solve is a start followed by outputs. -/
theorem chop_of_start (e : Engine K) (c : Coordinates) (products : List ℕ) (N : ℤ) (os : List ℤ)
    (hne : os ≠ []) (hso : SortedSteps os)
    (start : Except (RunError StatementError) (Simulation K V))
    (hS : ∀ sim, start = .ok sim → Sound products sim) :
    (∀ rs sim', start.bind (e.outputs c products (Engine.outputDiffs N os)) = .ok (rs, sim') →
      List.Forall₂ (fun o r => ∃ r' sim'',
        start.bind (e.outputs c products (Engine.outputDiffs o [])) = .ok ([r'], sim'') ∧
        observe sim''.store r' = observe sim'.store r) os rs) ∧
    ((∃ r, start.bind (e.outputs c products (Engine.outputDiffs N os)) = .ok r) ↔
      ∃ r, start.bind (e.outputs c products (Engine.outputDiffs (os.getLastD 0) [])) = .ok r) := by
  cases start with
  | error err => exact ⟨fun _ _ h => by simp [Except.bind] at h, by simp [Except.bind]⟩
  | ok sim => exact outputs_chop e c products N os hne hso sim (hS sim rfl)

theorem ok_of_bind {α β ε : Type} (x : Except ε α) (f : α → β) (b : β)
    (h : (x.bind fun a => Except.ok (f a)) = .ok b) : ∃ a, x = .ok a ∧ f a = b := by
  cases x with
  | error err => cases h
  | ok a => cases h; exact ⟨a, rfl, rfl⟩

/-- Time-dependent problems. With non-decreasing output steps the states returned are those that
runs of these lengths return (also the data of the products), in this order; and the run with
outputs succeeds exactly if the run with the last number of steps succeeds. `n_steps` has no effect
if output steps are given. -/
theorem C37_time_dependent_partial (e : Engine K) (a : Engine.Arguments K) (hne : a.outputStep ≠ [])
    (hso : SortedSteps a.outputStep) (solver : SolverState K) (store : ProductStore K V)
    (hp : ∀ id ∈ a.products, id < store.next)
    (hn : (a.products.map fun id => (store.get id).name).Nodup) :
    (∀ rs sim, e.timeDependentSolve a solver store = .ok (rs, sim) →
      List.Forall₂ (fun o r => ∃ r' sim',
        e.timeDependentSolve { a with nSteps := o, outputStep := [] } solver store = .ok ([r'], sim') ∧
        observe sim'.store r' = observe sim.store r) a.outputStep rs) ∧
    ((∃ r, e.timeDependentSolve a solver store = .ok r) ↔
      ∃ r, e.timeDependentSolve { a with nSteps := a.outputStep.getLastD 0, outputStep := [] }
        solver store = .ok r) := by
  simp only [Engine.timeDependentSolve_eq]
  refine chop_of_start e .velocity a.products a.nSteps a.outputStep hne hso _ fun sim hsim => ?_
  obtain ⟨s, _, rfl⟩ := ok_of_bind _ _ _ hsim
  exact ⟨rfl, by simp [State.new], hp, hn⟩

/-- Quasistatic relaxation problems. -/
theorem C37_relaxation_partial (e : Engine K) (a : Engine.Arguments K) (hne : a.outputStep ≠ [])
    (hso : SortedSteps a.outputStep) (solver : SolverState K) (store : ProductStore K V)
    (hp : ∀ id ∈ a.products, id < store.next)
    (hn : (a.products.map fun id => (store.get id).name).Nodup) :
    (∀ rs sim, e.relaxationSolve a solver store = .ok (rs, sim) →
      List.Forall₂ (fun o r => ∃ r' sim',
        e.relaxationSolve { a with nSteps := o, outputStep := [] } solver store = .ok ([r'], sim') ∧
        observe sim'.store r' = observe sim.store r) a.outputStep rs) ∧
    ((∃ r, e.relaxationSolve a solver store = .ok r) ↔
      ∃ r, e.relaxationSolve { a with nSteps := a.outputStep.getLastD 0, outputStep := [] }
        solver store = .ok r) := by
  simp only [Engine.relaxationSolve_eq]
  refine chop_of_start e .displacement a.products a.nSteps a.outputStep hne hso _ fun sim hsim => ?_
  obtain ⟨s, _, rfl⟩ := ok_of_bind _ _ _ hsim
  exact ⟨rfl, by simp [State.new], hp, hn⟩

/-- Wave problems, from the beginning or resumed. -/
theorem C37_wave_partial (e : Engine K) (a : Engine.Arguments K) (hne : a.outputStep ≠ [])
    (hso : SortedSteps a.outputStep) (resume : Option (State K)) (solver : SolverState K)
    (store : ProductStore K V)
    (hr : ∀ s ∈ resume, s.scalar = .absent ∧ ∀ p ∈ s.products, p.2 < store.next)
    (hp : ∀ id ∈ a.products, id < store.next)
    (hn : (a.products.map fun id => (store.get id).name).Nodup) :
    (∀ rs sim, e.waveSolve a resume solver store = .ok (rs, sim) →
      List.Forall₂ (fun o r => ∃ r' sim',
        e.waveSolve { a with nSteps := o, outputStep := [] } resume solver store = .ok ([r'], sim') ∧
        observe sim'.store r' = observe sim.store r) a.outputStep rs) ∧
    ((∃ r, e.waveSolve a resume solver store = .ok r) ↔
      ∃ r, e.waveSolve { a with nSteps := a.outputStep.getLastD 0, outputStep := [] } resume
        solver store = .ok r) := by
  simp only [Engine.waveSolve_eq]
  refine chop_of_start e .velocity a.products a.nSteps a.outputStep hne hso _ fun sim hsim => ?_
  cases resume with
  | none =>
    obtain ⟨s, _, rfl⟩ := ok_of_bind _ _ _ hsim
    exact ⟨rfl, by simp [State.new], hp, hn⟩
  | some st =>
    obtain ⟨s, _, rfl⟩ := ok_of_bind _ _ _ hsim
    exact ⟨(hr st rfl).1, (hr st rfl).2, hp, hn⟩

/-- Without output steps exactly one state is returned. -/
theorem C37_default (e : Engine K) (a : Engine.Arguments K) (ho : a.outputStep = [])
    (solver : SolverState K) (store : ProductStore K V) (rs : List (State K)) (sim : Simulation K V)
    (h : e.timeDependentSolve a solver store = .ok (rs, sim)) :
    ∃ r, rs = [r] ∧ r.toSnapshot = sim.state.toSnapshot := by
  rw [Engine.timeDependentSolve_eq, ho, outputDiffs_nil] at h
  cases hs : e.timeDependentStart a solver store with
  | error err => simp [hs, Except.bind] at h
  | ok s0 =>
    simp only [hs, Except.bind, Engine.outputs, bind] at h
    cases h1 : e.run .velocity a.products (a.nSteps - 0) s0 with
    | error err => rw [h1] at h; cases h
    | ok s1 =>
      simp only [h1, pure, Except.pure, Except.ok.injEq, Prod.mk.injEq] at h
      exact ⟨_, h.1.symm, by rw [← h.2]; exact copy_snapshot _ _ _⟩

/-- Times and displacements of the states returned by a run in velocities. -/
theorem outputs_time (e : Engine K) (products : List ℕ) (N : ℤ) (os : List ℤ)
    (hne : os ≠ []) (hso : SortedSteps os) (sim : Simulation K V) (hS : Sound products sim)
    (h0 : sim.state.time = sim.solver.currentTime) (rs : List (State K)) (sim' : Simulation K V)
    (h : e.outputs .velocity products (Engine.outputDiffs N os) sim = .ok (rs, sim')) :
    List.Forall₂ (fun (o : ℤ) r => r.time = sim.state.time + o * sim.solver.timeStep) os rs := by
  obtain ⟨o, os, rfl⟩ : ∃ o os', os = o :: os' := by
    cases os with
    | nil => exact absurd rfl hne
    | cons a b => exact ⟨a, b, rfl⟩
  obtain ⟨hst, htot⟩ := stops_diff 0 (le_refl _) (o :: os) hso
  have htot' : total (Engine.diff (0 :: o :: os)) = ((o :: os).getLastD 0).toNat := by
    simpa using htot
  obtain ⟨traj, ht, h1, hr⟩ := outputs_trajectory e .velocity products _ _ sim hS rs sim' h
  change Follows _ (total (Engine.diff (0 :: o :: os))) _ at ht
  change _ = (stops 0 (Engine.diff (0 :: o :: os))).map _ at hr
  rw [htot'] at ht
  have hst' : stops 0 (Engine.diff (0 :: o :: os)) = (o :: os).map Int.toNat := hst
  rw [hst', List.map_map] at hr
  have hsn : (traj 0).state.toSnapshot = sim.state.toSnapshot := by
    rw [h1]; exact injectAll_snapshot (fun id => (sim.store.get id).name) products sim.state
  have hso0 : (traj 0).solver = sim.solver := by rw [h1]; rfl
  have htime : (traj 0).state.time = sim.state.time := congrArg Snapshot.time hsn
  have key : ∀ (l : List ℤ) (rs : List (State K)), (∀ x ∈ l, x ∈ o :: os) →
      rs.map (observe sim'.store) =
        l.map (fun x : ℤ => observe (traj x.toNat).store (traj x.toNat).state) →
      List.Forall₂ (fun (o : ℤ) r => r.time = sim.state.time + o * sim.solver.timeStep) l rs := by
    intro l
    induction l with
    | nil =>
      intro rs _ hl
      cases rs with
      | nil => exact .nil
      | cons r rs => simp at hl
    | cons x l ih =>
      intro rs hm hl
      cases rs with
      | nil => simp at hl
      | cons r rs =>
        simp only [List.map_cons, List.cons.injEq] at hl
        refine .cons ?_ (ih rs (fun y hy => hm y (List.mem_cons_of_mem _ hy)) hl.2)
        have hx := hm x List.mem_cons_self
        have hx0 : 0 ≤ x := by
          have hpw := List.isChain_iff_pairwise.1 hso
          exact List.rel_of_pairwise_cons hpw hx
        have hxl := chain_getLast 0 (o :: os) hso x (List.mem_cons_of_mem _ hx)
        have h2 := (C36_velocity e _ traj ht (by rw [htime, hso0, h0]) x.toNat (by omega)).2.1
        have h3 : r.time = (traj x.toNat).state.time :=
          congrArg (fun p => p.1.time) hl.1
        rw [h3, h2, htime, hso0]
        congr 2
        exact_mod_cast congrArg (Int.cast : ℤ → K) (Int.toNat_of_nonneg hx0)
  exact key _ rs (fun x hx => hx) hr

/-- Time-dependent problems, first call of `solve`: the states returned for the output steps carry
these numbers of time steps as their time. -/
theorem C36_time_dependent (e : Engine K) (a : Engine.Arguments K) (hne : a.outputStep ≠ [])
    (hso : SortedSteps a.outputStep) (solver : SolverState K) (hc : solver.currentTime = 0)
    (store : ProductStore K V) (hp : ∀ id ∈ a.products, id < store.next)
    (hn : (a.products.map fun id => (store.get id).name).Nodup) (rs : List (State K))
    (sim : Simulation K V) (h : e.timeDependentSolve a solver store = .ok (rs, sim)) :
    List.Forall₂ (fun (o : ℤ) r => r.time = o * solver.timeStep) a.outputStep rs := by
  rw [Engine.timeDependentSolve_eq] at h
  cases hs : e.timeDependentStart a solver store with
  | error err => simp [hs, Except.bind] at h
  | ok s0 =>
    rw [hs] at h
    obtain ⟨s, h1, rfl⟩ := ok_of_bind _ _ _ hs
    have hit := e.iterate_ok _ _ h1
    have := outputs_time e a.products a.nSteps a.outputStep hne hso _
      ⟨rfl, by simp [State.new], hp, hn⟩ (by rw [hit]; exact hc.symm) rs sim h
    refine this.imp fun o r hr => ?_
    rw [hr, hit]; simp [State.new]

/-- Wave problems, any call of `solve`, from the beginning or resumed: the times are those of the
initial state plus the given numbers of time steps. -/
theorem C36_wave (e : Engine K) (a : Engine.Arguments K) (hne : a.outputStep ≠ [])
    (hso : SortedSteps a.outputStep) (resume : Option (State K)) (solver : SolverState K)
    (store : ProductStore K V)
    (hr : ∀ s ∈ resume, s.scalar = .absent ∧ ∀ p ∈ s.products, p.2 < store.next)
    (hp : ∀ id ∈ a.products, id < store.next)
    (hn : (a.products.map fun id => (store.get id).name).Nodup) (rs : List (State K))
    (sim : Simulation K V) (h : e.waveSolve a resume solver store = .ok (rs, sim)) :
    List.Forall₂ (fun (o : ℤ) r =>
      r.time = (resume.elim 0 fun s => s.time) + o * solver.timeStep) a.outputStep rs := by
  rw [Engine.waveSolve_eq] at h
  cases hs : e.waveStart a resume solver store with
  | error err => simp [hs, Except.bind] at h
  | ok s0 =>
    rw [hs] at h
    cases resume with
    | none =>
      obtain ⟨s, h1, rfl⟩ := ok_of_bind _ _ _ hs
      have hit := e.iterate_ok _ _ h1
      have := outputs_time e a.products a.nSteps a.outputStep hne hso _
        ⟨rfl, by simp [State.new], hp, hn⟩ (by rw [hit]) rs sim h
      refine this.imp fun o r hr => ?_
      rw [hr, hit]; simp [State.new]
    | some st =>
      obtain ⟨s, h1, rfl⟩ := ok_of_bind _ _ _ hs
      have hit := e.iterate_ok _ _ h1
      have := outputs_time e a.products a.nSteps a.outputStep hne hso _
        ⟨(hr st rfl).1, (hr st rfl).2, hp, hn⟩ (by rw [hit]) rs sim h
      refine this.imp fun o r hr => ?_
      rw [hr, hit]; rfl

/-! ### A concrete engine -/

/-- One node on the line; every step has velocity 1 or displacement 1 plus the time. -/
def lineEngine : Engine ℚ where
  grid := { nodesCount := 1, dimension := 1, nodes := fun _ _ => 5 }
  cls := .dynamicGlobal
  kind := .wave
  ops := { nodesCount := 1, dimension := 1, elasticity := fun _ _ => 1, viscosity := fun _ _ => 1
           acceleration := fun _ _ => 1, poisson := fun _ _ => 1, thermalExpansion := fun _ _ => 1
           thermalConductivity := fun _ _ => 1, permittivity := fun _ _ => 1
           piezoelectricity := fun _ _ => 1, relaxation := fun _ => .ok fun _ _ => 1
           force := fun t _ => t, bodyTemperature := fun _ _ => 0 }
  boundaries := []
  solve := fun s _ _ => 1 + s.currentTime

/-- A new solver with time step 1/2. -/
def lineSolver : SolverState ℚ :=
  { timeStep := 1 / 2, currentTime := 0, bVector := fun _ => 0, uVector := fun _ => 0
    vVector := fun _ => 0, tVector := fun _ => 0, pVector := fun _ => 0
    system := ⟨fun _ _ => 1, fun _ => 0⟩, schur := none }

/-- A recorder of the first displacement. -/
def lineStore : ProductStore ℚ ℚ :=
  { get := fun _ => { name := "first", rule := some fun s => s.displacement 0 0, data := [] }, next := 1 }

def lineArguments (os : List ℤ) : Engine.Arguments ℚ :=
  { nSteps := 3, outputStep := os, initialAbsement := fun _ _ => 0
    initialDisplacement := fun _ _ => 1, initialVelocity := fun _ _ => 0, products := [0] }

instance : DecidableEq (ℚ × ℚ × ℚ × List (List (ℚ × ℚ))) :=
  @instDecidableEqProd _ _ inferInstance (@instDecidableEqProd _ _ inferInstance inferInstance)

/-- What can be compared of the result of a solve: times, first displacements and product data. -/
def summary (r : Except (RunError StatementError) (List (State ℚ) × Simulation ℚ ℚ)) :
    List (ℚ × ℚ × ℚ × List (List (ℚ × ℚ))) :=
  match r with
  | .error _ => []
  | .ok (rs, sim) => rs.map fun s =>
    (s.time, s.displacement 0 0, s.displacedNodes 0 0, s.products.map fun p => (sim.store.get p.2).data)

/-- Decreasing output steps: for the output steps 2, 1, 2 the states after 2, 2 and 3 steps are
returned; a run that never makes more than two steps does not return the third of them. -/
theorem C37_unsorted_wrong :
    (summary (lineEngine.timeDependentSolve (lineArguments [2, 1, 2]) lineSolver lineStore)).map
        (fun r => r.1) = [1, 1, 3 / 2] ∧
    (summary (lineEngine.timeDependentSolve { lineArguments [] with nSteps := 2 } lineSolver
        lineStore)).map (fun r => r.1) = [1] ∧
    (summary (lineEngine.timeDependentSolve { lineArguments [] with nSteps := 1 } lineSolver
        lineStore)).map (fun r => r.1) = [1 / 2] := by
  decide +kernel

/-- The hypotheses of `C37_time_dependent_partial` are met by runs with several outputs and a
product, and what is compared is not trivial. -/
example : SortedSteps [0, 1, 1, 3] ∧
    (∀ id ∈ (lineArguments [0, 1, 1, 3]).products, id < lineStore.next) ∧
    ((lineArguments [0, 1, 1, 3]).products.map fun id => (lineStore.get id).name).Nodup ∧
    summary (lineEngine.timeDependentSolve (lineArguments [0, 1, 1, 3]) lineSolver lineStore) =
      [(0, 1, 5, [[]]), (1 / 2, 7 / 4, 27 / 4, [[(1 / 2, 7 / 4)]]),
       (1 / 2, 7 / 4, 27 / 4, [[(1 / 2, 7 / 4)]]),
       (3 / 2, 4, 9, [[(1 / 2, 7 / 4), (1, 11 / 4), (3 / 2, 4)]])] := by
  refine ⟨by unfold SortedSteps; decide, by decide, by decide, by decide +kernel⟩

/-- The hypotheses of `C36_velocity` are met by a run of three steps. -/
example : ∃ traj : ℕ → Simulation ℚ ℚ, Follows (lineEngine.step .velocity) 3 traj ∧
    (traj 0).state.time = (traj 0).solver.currentTime ∧ (traj 3).state.displacement 0 0 = 4 := by
  have h : (match lineEngine.steps .velocity 3
      ⟨lineSolver, { State.new lineEngine.grid .plain with displacement := fun _ _ => 1 }, lineStore⟩ with
      | .ok sim => decide (sim.state.displacement 0 0 = 4)
      | .error _ => false) = true := by decide +kernel
  revert h
  cases hs : lineEngine.steps .velocity 3
      ⟨lineSolver, { State.new lineEngine.grid .plain with displacement := fun _ _ => 1 }, lineStore⟩ with
  | error err => intro h; cases h
  | ok sim =>
    intro h
    obtain ⟨traj, h1, h2, h3⟩ := lineEngine.follows_of_steps .velocity 3 _ _ hs
    exact ⟨traj, h1, by rw [h2]; rfl, by rw [h3]; simpa using h⟩

end Conmech
