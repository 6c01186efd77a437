import Verif.Props.Forcing
import Verif.Spec.State
/-!
C41, C42, C44: displaced positions, stress, saving.
-/
namespace Conmech
open Spec

variable {K : Type} [Field K]

/-! ### C41 -/

/-- An event that computes a displacement makes the positions right, whatever they were before. -/
theorem C41_update (g : Grid K) (s : State K) (ev : Event K) (h : ev.moves = true) :
    Placed g (ev.apply g s) := by
  cases ev with
  | setDisplacement v t u => intro i j; cases u <;> rfl
  | setVelocity v t u =>
    simp only [Event.moves] at h
    subst h
    intro i j; rfl
  | _ => cases h

theorem placed_apply (g : Grid K) (s : State K) (hs : Placed g s) (ev : Event K) :
    Placed g (ev.apply g s) := by
  by_cases h : ev.moves = true
  · exact C41_update g s ev h
  · cases ev with
    | setDisplacement v t u => exact absurd rfl h
    | setVelocity v t u =>
      cases u with
      | true => exact absurd rfl h
      | false => exact hs
    | setScalar v =>
      simp only [Event.apply, State.setScalar]
      cases s.scalar <;> exact hs
    | setLaw l => exact hs
    | setSetup x => exact hs
    | readStress =>
      simp only [Event.apply, State.getStress]
      cases s.stress <;> cases s.law <;> exact hs

/-- A new state shows the right positions after every history of events. -/
theorem C41_history (g : Grid K) (kind : StateKind) (events : List (Event K)) :
    Placed g (history g (State.new g kind) events) := by
  have key : ∀ s, Placed g s → Placed g (history g s events) := by
    induction events with
    | nil => exact fun s hs => hs
    | cons ev evs ih => exact fun s hs => ih _ (placed_apply g s hs ev)
  exact key _ fun i j => by simp [State.new]

/-- From any state, however it was filled: the positions are right as soon as one event of the history
has computed a displacement. -/
theorem C41_after_one (g : Grid K) (s : State K) (events : List (Event K))
    (h : ∃ ev ∈ events, ev.moves = true) : Placed g (history g s events) := by
  have key : ∀ (evs : List (Event K)) s, Placed g s → Placed g (history g s evs) := by
    intro evs
    induction evs with
    | nil => exact fun s hs => hs
    | cons ev evs ih => exact fun s hs => ih _ (placed_apply g s hs ev)
  induction events generalizing s with
  | nil => simp at h
  | cons ev evs ih =>
    by_cases hev : ev.moves = true
    · exact key evs _ (C41_update g s ev hev)
    · obtain ⟨x, hx, hm⟩ := h
      rcases List.mem_cons.1 hx with rfl | hx
      · exact absurd hm hev
      · exact ih _ ⟨x, hx, hm⟩

section runs
variable [DecidableEq K] {V : Type}

theorem step_placed (e : Engine K) (c : Coordinates) (sim sim' : Simulation K V)
    (h : e.step c sim = .ok sim') : Placed e.grid sim'.state := by
  cases c with
  | velocity => exact (velocity_step e _ _ h).2.2.2.2.1
  | displacement => exact (displacement_step e _ _ h).2.2.2.2.1
  | temperature =>
    obtain ⟨_, h1, _⟩ := (e.step_ok_iff _ _ _).1 h
    cases h1

theorem steps_placed (e : Engine K) (c : Coordinates) (n : ℕ) (sim sim' : Simulation K V)
    (h : e.steps c n sim = .ok sim') (hp : 0 < n ∨ Placed e.grid sim.state) :
    Placed e.grid sim'.state := by
  induction n generalizing sim with
  | zero => cases h; exact hp.resolve_left (by omega)
  | succ n ih =>
    simp only [Engine.steps, bind, Except.bind] at h
    cases h1 : e.step c sim with
    | error err => simp [h1] at h
    | ok sim1 =>
      simp only [h1] at h
      exact ih _ h (.inr (step_placed e c _ _ h1))

theorem inject_placed (g : Grid K) (products : List ℕ) (sim : Simulation K V)
    (h : Placed g sim.state) : Placed g (Engine.inject products sim).state := by
  intro i j
  have := injectAll_snapshot (fun id => (sim.store.get id).name) products sim.state
  have h1 : (Engine.inject products sim).state.displacedNodes = sim.state.displacedNodes :=
    congrArg Snapshot.displacedNodes this
  have h2 : (Engine.inject products sim).state.displacement = sim.state.displacement :=
    congrArg Snapshot.displacement this
  rw [h1, h2]; exact h i j

theorem copy_placed (g : Grid K) (s : State K) (st : ProductStore K V) :
    Placed g (s.copy g st).1 ↔ Placed g s := by
  have := copy_snapshot g s st
  unfold Placed
  rw [show (s.copy g st).1.displacedNodes = s.displacedNodes from congrArg Snapshot.displacedNodes this,
    show (s.copy g st).1.displacement = s.displacement from congrArg Snapshot.displacement this]

theorem outputs_placed (e : Engine K) (c : Coordinates) (products : List ℕ) (ns : List ℤ)
    (sim sim' : Simulation K V) (rs : List (State K))
    (h : e.outputs c products ns sim = .ok (rs, sim'))
    (hp : (∀ n ∈ ns.head?, 0 < n) ∨ Placed e.grid sim.state) : ∀ r ∈ rs, Placed e.grid r := by
  induction ns generalizing sim rs with
  | nil => cases h; simp
  | cons n ns ih =>
    simp only [Engine.outputs, bind, Except.bind] at h
    cases h1 : e.run c products n sim with
    | error err => simp [h1] at h
    | ok sim1 =>
      simp only [h1] at h
      have hp1 : Placed e.grid sim1.state := by
        refine steps_placed e c n.toNat _ _ h1 ?_
        rcases hp with hp | hp
        · left; have := hp n rfl; omega
        · right; exact inject_placed _ _ _ hp
      cases h2 : e.outputs c products ns
          { sim1 with store := (sim1.state.copy e.grid sim1.store).2 } with
      | error err => simp [h2] at h
      | ok x =>
        simp only [h2, pure, Except.pure, Except.ok.injEq, Prod.mk.injEq] at h
        obtain ⟨rfl, rfl⟩ := h
        intro r hr
        rcases List.mem_cons.1 hr with rfl | hr
        · exact (copy_placed _ _ _).2 hp1
        · exact ih _ _ h2 (.inr hp1) r hr

theorem outputDiffs_head (N : ℤ) (os : List ℤ) (h : 0 < os.headD N) :
    ∀ n ∈ (Engine.outputDiffs N os).head?, 0 < n := by
  cases os with
  | nil => intro n hn; simp [Engine.outputDiffs, Engine.diff] at hn; simp at h; omega
  | cons o os =>
    intro n hn
    simp [Engine.outputDiffs, Engine.diff] at hn
    simp at h; omega

/-- All states returned by the solvers show the right positions if the first output is after at least
one step, whatever the initial displacement is. -/
theorem C41_solve_partial (e : Engine K) (a : Engine.Arguments K)
    (ho : 0 < a.outputStep.headD a.nSteps) (solver : SolverState K) (store : ProductStore K V)
    (rs : List (State K)) (sim : Simulation K V) :
    (e.timeDependentSolve a solver store = .ok (rs, sim) → ∀ r ∈ rs, Placed e.grid r) ∧
    (e.relaxationSolve a solver store = .ok (rs, sim) → ∀ r ∈ rs, Placed e.grid r) ∧
    (∀ resume, e.waveSolve a resume solver store = .ok (rs, sim) → ∀ r ∈ rs, Placed e.grid r) := by
  have hh := outputDiffs_head a.nSteps a.outputStep ho
  refine ⟨fun h => ?_, fun h => ?_, fun resume h => ?_⟩
  · rw [Engine.timeDependentSolve_eq] at h
    cases hs : e.timeDependentStart a solver store with
    | error err => simp [hs, Except.bind] at h
    | ok s0 => rw [hs] at h; exact outputs_placed e _ _ _ _ _ _ h (.inl hh)
  · rw [Engine.relaxationSolve_eq] at h
    cases hs : e.relaxationStart a solver store with
    | error err => simp [hs, Except.bind] at h
    | ok s0 => rw [hs] at h; exact outputs_placed e _ _ _ _ _ _ h (.inl hh)
  · rw [Engine.waveSolve_eq] at h
    cases hs : e.waveStart a resume solver store with
    | error err => simp [hs, Except.bind] at h
    | ok s0 => rw [hs] at h; exact outputs_placed e _ _ _ _ _ _ h (.inl hh)

/-- Static problems make one step. -/
theorem C41_static (e : Engine K) (initial : ℕ → ℕ → K) (products : List ℕ) (solver : SolverState K)
    (store : ProductStore K V) (s : State K) (sim : Simulation K V)
    (h : e.staticSolve initial products solver store = .ok (s, sim)) : Placed e.grid s := by
  simp only [Engine.staticSolve, bind, Except.bind] at h
  split at h
  · cases h
  · split at h
    · cases h
    · rename_i sim1 h1
      simp only [pure, Except.pure, Except.ok.injEq, Prod.mk.injEq] at h
      rw [← h.1]
      exact steps_placed e .displacement 1 _ _ h1 (.inl (by omega))

/-- If an output is requested before the first step, the state returned for it shows the initial
positions together with the initial displacement: the positions are wrong exactly if the initial
displacement is not zero. -/
theorem C41_initial_wrong (e : Engine K) (a : Engine.Arguments K) (os : List ℤ)
    (ho : a.outputStep = 0 :: os) (solver : SolverState K) (store : ProductStore K V)
    (r : State K) (rs : List (State K)) (sim : Simulation K V)
    (h : e.timeDependentSolve a solver store = .ok (r :: rs, sim)) :
    r.displacedNodes = e.grid.nodes ∧ r.displacement = a.initialDisplacement ∧
      (Placed e.grid r ↔ ∀ i j, a.initialDisplacement i j = 0) := by
  have hfin : ∀ r : State K, r.displacedNodes = e.grid.nodes →
      r.displacement = a.initialDisplacement →
      r.displacedNodes = e.grid.nodes ∧ r.displacement = a.initialDisplacement ∧
      (Placed e.grid r ↔ ∀ i j, a.initialDisplacement i j = 0) := by
    intro r h1 h2
    refine ⟨h1, h2, ?_⟩
    unfold Placed
    rw [h1, h2]
    exact ⟨fun h i j => by simpa using h i j, fun h i j => by simp [h i j]⟩
  rw [Engine.timeDependentSolve_eq] at h
  cases hs : e.timeDependentStart a solver store with
  | error err => simp [hs, Except.bind] at h
  | ok s0 =>
    rw [hs, ho] at h
    obtain ⟨s, h1, rfl⟩ := ok_of_bind _ _ _ hs
    have hd : Engine.outputDiffs a.nSteps (0 :: os) = 0 :: Engine.diff (0 :: os) := by
      simp [Engine.outputDiffs, Engine.diff]
    simp only [Except.bind, hd, Engine.outputs, Engine.run, Engine.steps, bind, Int.toNat_zero] at h
    split at h
    · cases h
    · rename_i x hx
      simp only [pure, Except.pure, Except.ok.injEq, Prod.mk.injEq, List.cons.injEq] at h
      obtain ⟨⟨rfl, -⟩, -⟩ := h
      have hin : ∀ sim : Simulation K V, (Engine.inject a.products sim).state.toSnapshot =
          sim.state.toSnapshot := fun sim => injectAll_snapshot _ _ _
      have hk := fun (x : Simulation K V) (st : ProductStore K V) =>
        (copy_snapshot e.grid (Engine.inject a.products x).state st).trans (hin x)
      have h1' := congrArg Snapshot.displacedNodes (hk ⟨s, { State.new e.grid .plain with
          displacement := a.initialDisplacement, velocity := a.initialVelocity }, store⟩ store)
      have h2' := congrArg Snapshot.displacement (hk ⟨s, { State.new e.grid .plain with
          displacement := a.initialDisplacement, velocity := a.initialVelocity }, store⟩ store)
      change _ = e.grid.nodes at h1'
      change _ = a.initialDisplacement at h2'
      exact hfin _ h1' h2'

end runs

/-- The state returned for output step 0 of a run on the line: displacement 1, but position 5 of a node
that was at 5; the other outputs are right. -/
example : summary (lineEngine.timeDependentSolve (lineArguments [0, 1]) lineSolver lineStore) =
    [(0, 1, 5, [[]]), (1 / 2, 7 / 4, 27 / 4, [[(1 / 2, 7 / 4)]])] := by
  decide +kernel

/-! ### C42 -/

theorem apply_stress (g : Grid K) (s : State K) (ev : Event K) (h : ev.asks = false) :
    (ev.apply g s).stress = s.stress := by
  cases ev with
  | setDisplacement v t u => cases u <;> rfl
  | setVelocity v t u => cases u <;> rfl
  | setScalar v =>
    simp only [Event.apply, State.setScalar]
    cases s.scalar <;> rfl
  | setLaw l => rfl
  | setSetup x => rfl
  | readStress => cases h

theorem history_stress (g : Grid K) (s : State K) (events : List (Event K))
    (h : ∀ ev ∈ events, ev.asks = false) : (history g s events).stress = s.stress := by
  induction events generalizing s with
  | nil => rfl
  | cons ev evs ih =>
    show (history g (ev.apply g s) evs).stress = _
    rw [ih _ fun x hx => h x (List.mem_cons_of_mem _ hx),
      apply_stress _ _ _ (h ev List.mem_cons_self)]

/-- The first request for the stress, after any history of other events, gives the law at the current
values; without a law it gives nothing. -/
theorem C42_first_partial (g : Grid K) (kind : StateKind) (events : List (Event K))
    (h : ∀ ev ∈ events, ev.asks = false) :
    (history g (State.new g kind) events).getStress.1 =
      currentStress (history g (State.new g kind) events) := by
  have hs := history_stress g (State.new g kind) events h
  have hn : (State.new g kind).stress = none := rfl
  rw [hn] at hs
  unfold State.getStress currentStress
  rw [hs]
  cases (history g (State.new g kind) events).law <;> simp [hs]

omit [Field K] in
theorem getStress_same (s : State K) (σ : ℕ → ℕ → ℕ → K) (h : s.stress = some σ) :
    s.getStress = (some σ, s) := by
  unfold State.getStress
  rw [h]

/-- After a request that gave a stress, every later request gives the same stress, whatever happens in
between. -/
theorem C42_stale_wrong (g : Grid K) (s : State K) (σ : ℕ → ℕ → ℕ → K)
    (h : s.getStress.1 = some σ) (events : List (Event K)) :
    (history g s.getStress.2 events).getStress.1 = some σ := by
  have h0 : s.getStress.2.stress = some σ := by
    unfold State.getStress at h ⊢
    cases hs : s.stress with
    | none =>
      rw [hs] at h
      cases hl : s.law with
      | none => rw [hl] at h; simp [hs] at h
      | some l => rw [hl] at h; exact h
    | some τ => rw [hs] at h; rw [hs] at *; cases s.law <;> simpa [hs] using h
  have key : ∀ (evs : List (Event K)) (s : State K), s.stress = some σ →
      (history g s evs).stress = some σ := by
    intro evs
    induction evs with
    | nil => exact fun s hs => hs
    | cons ev evs ih =>
      intro s hs
      refine ih _ ?_
      cases ha : ev.asks with
      | false => rw [apply_stress _ _ _ ha]; exact hs
      | true =>
        cases ev with
        | readStress => simp only [Event.apply, getStress_same s σ hs]; exact hs
        | _ => cases ha
  exact congrArg Prod.fst (getStress_same _ σ (key events _ h0))

/-- A copy starts anew: it has no law, and after a law is given to it the first request is answered
with the values of the copy. -/
theorem C42_copy {V : Type} (g : Grid K) (s : State K) (st : ProductStore K V) (law : Law K) :
    (s.copy g st).1.getStress.1 = none ∧
    ({ (s.copy g st).1 with law := some law } : State K).getStress.1 =
      some (law none s.toSnapshot) := by
  have hsn := copy_snapshot g s st
  have h1 : (s.copy g st).1.stress = none ∧ (s.copy g st).1.law = none ∧
      (s.copy g st).1.setup = none := by
    unfold State.copy
    cases s.scalar <;> exact ⟨rfl, rfl, rfl⟩
  constructor
  · unfold State.getStress; rw [h1.1, h1.2.1]
  · unfold State.getStress
    simp only [h1.1, h1.2.2]
    rw [hsn]

/-- Non-trivial: a law that returns the first displacement; the second request, after a new
displacement, is answered with the old stress. -/
example :
    let law : Law ℚ := fun _ s _ _ _ => s.displacement 0 0
    let s := history lineEngine.grid (State.new lineEngine.grid .plain)
      [.setLaw (some law), .setDisplacement (fun _ => 3) 1 false]
    let s' := history lineEngine.grid s.getStress.2 [.setDisplacement (fun _ => 7) 2 false]
    s.getStress.1.map (fun f => f 0 0 0) = some 3 ∧ s'.getStress.1.map (fun f => f 0 0 0) = some 3 ∧
      (currentStress s').map (fun f => f 0 0 0) = some 7 := by
  decide +kernel

/-! ### C44 -/

variable {F S L X : Type}

/-- Saving that succeeds leaves everything as it was; what is written contains neither the sources nor
setup nor law. -/
theorem C44_success_partial (write : SaveContext F S L → Except X Unit) (c : SaveContext F S L)
    (h : (save write c).1 = .ok ()) :
    (save write c).2 = c ∧ write ⟨none, none, none, none⟩ = .ok () := by
  unfold save at h ⊢
  simp only at h ⊢
  cases hw : write ⟨none, none, none, none⟩ with
  | error e => rw [hw] at h; cases h
  | ok u => exact ⟨rfl, rfl⟩

/-- Saving that fails, for whatever reason, loses sources, setup and law. -/
theorem C44_failure_wrong (write : SaveContext F S L → Except X Unit) (c : SaveContext F S L)
    (h : ∀ u, (save write c).1 ≠ .ok u) : (save write c).2 = ⟨none, none, none, none⟩ := by
  unfold save at h ⊢
  simp only at h ⊢
  cases hw : write ⟨none, none, none, none⟩ with
  | error e => rfl
  | ok u => rw [hw] at h; exact absurd rfl (h ())

/-- A second attempt after a failure succeeds without bringing anything back. -/
theorem C44_retry_wrong (write write' : SaveContext F S L → Except X Unit) (c : SaveContext F S L)
    (h : ∀ u, (save write c).1 ≠ .ok u) (h' : (save write' (save write c).2).1 = .ok ()) :
    (save write' (save write c).2).2 = ⟨none, none, none, none⟩ := by
  rw [(C44_success_partial write' _ h').1]
  exact C44_failure_wrong write c h

/-- Both happen. -/
example : (save (X := String) (fun c => if c.law = none then .ok () else .error "law")
      (⟨some 1, some 2, some 3, some 4⟩ : SaveContext ℕ ℕ ℕ)).2 = ⟨some 1, some 2, some 3, some 4⟩ ∧
    (save (X := String) (fun _ => .error "no space left on device")
      (⟨some 1, some 2, some 3, some 4⟩ : SaveContext ℕ ℕ ℕ)).2 = ⟨none, none, none, none⟩ :=
  ⟨rfl, rfl⟩

end Conmech
