import Verif.Props.Coupled
import Verif.Props.Forcing
import Verif.Props.Energy
/-!
Invariants of runs of coupled problems.
-/
namespace Conmech
open Spec

variable {K : Type} [Field K] [DecidableEq K] {V : Type}

/-- The field of the state that belongs to the solver. -/
def solverScalar : StateKind → SolverState K → ScalarField K
  | .plain, _ => .absent
  | .temperature, s => .temperature s.tVector
  | .piezoelectric, s => .potential s.pVector

/-- What holds between two steps. -/
structure CoupledBetween (e : CoupledEngine K) (dt : K) (r : CoupledEngine.Run K V) : Prop where
  first : r.coupled.first.timeStep = dt
  second : r.coupled.second.timeStep = dt
  time : r.state.time = r.coupled.first.currentTime
  displacement : r.coupled.first.uVector = State.flatten e.first.grid r.state.displacement
  velocity : r.coupled.first.vVector = State.flatten e.first.grid r.state.velocity
  scalar : r.state.scalar = solverScalar e.stateKind r.coupled.first

omit [DecidableEq K] in
theorem setScalar_scalar (s : State K) (k : StateKind) (σ : SolverState K) (x : ℕ → K)
    (h : s.scalar = solverScalar k σ) (σ' : SolverState K) (h' : σ'.tVector = x) (h'' : σ'.pVector = x) :
    (s.setScalar x).scalar = solverScalar k σ' := by
  unfold State.setScalar
  cases k <;> simp [h, solverScalar, h', h'']

/-- One step: the invariant is kept, the displacement advances by the time step times the new velocity,
and the new velocity and scalar field are those of the last of at least five passes. -/
theorem coupled_step_passes (e : CoupledEngine K) (fuel : ℕ) (dt : K) (r r' : CoupledEngine.Run K V)
    (hb : CoupledBetween e dt r) (h : e.step fuel r = .ok r') :
    CoupledBetween e dt r' ∧
    (State.flatten e.first.grid r'.state.displacement = fun i =>
      State.flatten e.first.grid r.state.displacement i +
        dt * State.flatten e.first.grid r'.state.velocity i) ∧
    r'.state.time = r.state.time + dt ∧
    ∃ m it, 5 ≤ m ∧ m ≤ 10 ∧
      Passes e (State.flatten e.first.grid r.state.displacement)
        (State.flatten e.first.grid r.state.velocity) r.coupled.first.tVector r.coupled.first.pVector
        dt dt (r.state.time + dt) m it ∧
      (it 0).solutionT = r.coupled.solutionT ∧
      State.flatten e.first.grid r'.state.velocity = (it m).solution ∧
      r'.coupled.first.tVector = (it m).solutionT ∧ r'.coupled.first.pVector = (it m).solutionT := by
  obtain ⟨m, it, m5, m10, hp, _, h0, hvel, hT⟩ := C60_coupled e fuel 1
    (fun k => match k with | 0 => r | _ => r') (fun k hk => by
      obtain rfl : k = 0 := by omega
      exact h) 0 (by omega)
  simp only at hp hvel hT h0
  obtain ⟨s1, s2, s3, s4, s5, s6, _, s8, s9, _⟩ := coupled_step e fuel _ _ h
  have hcons : r'.coupled.first.vVector = r'.coupled.solution ∧
      r'.coupled.first.tVector = r'.coupled.solutionT ∧
      r'.coupled.first.pVector = r'.coupled.solutionT ∧
      r'.state.scalar = solverScalar e.stateKind r'.coupled.first := by
    have h' := h
    simp only [CoupledEngine.step, bind, Except.bind] at h'
    split at h'
    · cases h'
    · rename_i c1 h1
      obtain ⟨⟨g1, _⟩, _, _, ⟨g2, _, g3, _⟩, _⟩ := C40_consistent e fuel _ c1.1 c1.2 h1
      simp only [State.setVelocity, bind, Except.bind] at h'
      split at h'
      · cases h'
      · rename_i p hp'
        split at hp'
        · cases hp'
        · cases hp'
          cases h'
          exact ⟨g1, g2, g3, setScalar_scalar (State.withVelocity e.first.grid r.state c1.1.solution
            c1.1.first.currentTime true) e.stateKind r.coupled.first _ hb.scalar _ g2 g3⟩
  obtain ⟨c1, c2, c3, c4⟩ := hcons
  have hfl : State.flatten e.first.grid r'.state.velocity = r'.coupled.solution := by
    rw [s8]; exact flatten_unflatten _ _
  have hsol : r'.coupled.solution = (it m).solution := by
    rw [← hfl, hvel]; exact flatten_unflatten _ _
  have htime : r'.state.time = r.state.time + dt := by rw [s1, hb.time, hb.first]
  have hdis : State.flatten e.first.grid r'.state.displacement = fun i =>
      State.flatten e.first.grid r.state.displacement i +
        dt * State.flatten e.first.grid r'.state.velocity i := by
    funext i
    simp only [State.flatten]
    rw [s6, htime]
    ring
  refine ⟨⟨s4.trans hb.first, s5.trans hb.second, by rw [s1, s2], ?_, ?_, c4⟩, hdis, htime, m, it, m5,
    m10, ?_, h0, by rw [hfl, hsol], by rw [c2, hT], by rw [c3, hT]⟩
  · funext i
    rw [s9, hdis, hb.displacement, hb.first, hfl]
  · rw [c1, hfl]
  · rw [hb.displacement, hb.velocity, hb.first, hb.second] at hp
    have : r.coupled.first.currentTime + ((0 : ℕ) + 1) * dt = r.state.time + dt := by
      rw [hb.time]; push_cast; ring
    rw [this] at hp
    exact hp

/-- The same without the passes: the new velocity solves the system of the last pass with the scalar
field `θ` of the pass before, and the new scalar field solves the system of the new velocity and
displacement. -/
theorem coupled_between_step (e : CoupledEngine K) (fuel : ℕ) (dt : K) (r r' : CoupledEngine.Run K V)
    (hb : CoupledBetween e dt r) (h : e.step fuel r = .ok r') :
    CoupledBetween e dt r' ∧
    (State.flatten e.first.grid r'.state.displacement = fun i =>
      State.flatten e.first.grid r.state.displacement i +
        dt * State.flatten e.first.grid r'.state.velocity i) ∧
    r'.state.time = r.state.time + dt ∧
    ∃ θ S guess S' guess',
      e.first.kind.update e.first.ops e.first.boundaries
        { displacement := some (State.flatten e.first.grid r.state.displacement)
          velocity := some (State.flatten e.first.grid r.state.velocity)
          temperature := some θ, electricPotential := some θ, timeStep := some dt
          time := some (r.state.time + dt) } = .ok S.system ∧
      State.flatten e.first.grid r'.state.velocity = e.first.solve S guess ∧
      e.second.kind.update e.second.ops e.second.boundaries
        { displacement := some (State.flatten e.first.grid r'.state.displacement)
          velocity := some (State.flatten e.first.grid r'.state.velocity)
          temperature := some r.coupled.first.tVector
          electricPotential := some r.coupled.first.pVector, timeStep := some dt } = .ok S'.system ∧
      r'.coupled.first.tVector = e.second.solve S' guess' ∧
      r'.coupled.first.pVector = e.second.solve S' guess' := by
  obtain ⟨hb', hdis, htime, m, it, m5, _, hp, _, hv, hT, hP⟩ := coupled_step_passes e fuel dt r r' hb h
  obtain ⟨j, rfl⟩ : ∃ j, m = j + 1 := ⟨m - 1, by omega⟩
  refine ⟨hb', hdis, htime, (it j).solutionT, (it (j + 1)).first, (it j).solution, (it (j + 1)).second,
    (it j).solutionT, hp.first j (by omega), ?_, ?_, ?_, ?_⟩
  · rw [hv]; exact hp.solution j (by omega)
  · rw [hdis, hv]; exact hp.second j (by omega)
  · rw [hT]; exact hp.solutionT j (by omega)
  · rw [hP]; exact hp.solutionT j (by omega)

/-- The beginning of a run. -/
theorem coupled_between_start (e : CoupledEngine K) (a : Engine.Arguments K) (x : ℕ → K)
    (first second : SolverState K) (store : ProductStore K V) (hc : first.currentTime = 0)
    (hdt : second.timeStep = first.timeStep) (c : Coupled K) (s : State K)
    (h : e.start a x first second = .ok (c, s)) :
    CoupledBetween e first.timeStep ⟨c, s, store⟩ ∧ Fresh s ∧ s.time = 0 ∧
    s.displacement = a.initialDisplacement ∧ s.velocity = a.initialVelocity ∧
    (e.stateKind = .temperature → c.first.tVector = x) ∧
    (e.stateKind = .piezoelectric → c.first.pVector = x) := by
  simp only [CoupledEngine.start, bind, Except.bind] at h
  split at h
  · cases h
  · rename_i f1 hf1
    split at h
    · cases h
    · rename_i f2 hf2
      cases h
      have g1 := Engine.iterate_ok _ _ _ hf1
      have g2 := Engine.iterate_ok _ _ _ hf2
      unfold State.setScalar at *
      cases hk : e.stateKind <;> simp only [hk, State.new, StateKind.initial] at g1 g2 ⊢ <;>
      · refine ⟨⟨?_, ?_, ?_, ?_, ?_, ?_⟩, ⟨rfl, rfl, rfl, rfl⟩, ?_, ?_, ?_, ?_, ?_⟩ <;>
        first
          | trivial
          | (rw [g1]; done)
          | (show f2.timeStep = _; rw [g2]; exact hdt)
          | (show (0 : K) = f1.currentTime; rw [g1]; exact hc.symm)
          | (rw [g1]; simp [solverScalar, hk]; done)
          | (rw [hk]; simp [solverScalar]; done)
          | (intro; rw [g1])
          | (intro hh; cases hh)

/-- What holds at the start and is kept by steps holds for all returned states. -/
theorem coupled_invariant (e : CoupledEngine K) (fuel : ℕ) (a : Engine.Arguments K) (x : ℕ → K)
    (first second : SolverState K) (store : ProductStore K V) (hc : first.currentTime = 0)
    (hdt : second.timeStep = first.timeStep) (P : CoupledEngine.Run K V → Prop)
    (h0 : ∀ c s, e.start a x first second = .ok (c, s) →
      CoupledBetween e first.timeStep ⟨c, s, store⟩ → P ⟨c, s, store⟩)
    (hstep : ∀ r r', CoupledBetween e first.timeStep r → P r → e.step fuel r = .ok r' → P r')
    (rs : List (State K)) (r : CoupledEngine.Run K V)
    (h : e.solve fuel a x first second store = .ok (rs, r)) (s : State K) (hs : s ∈ rs) :
    ∃ q, CoupledBetween e first.timeStep q ∧ P q ∧ q.state = s := by
  simp only [CoupledEngine.solve, bind, Except.bind] at h
  split at h
  · cases h
  · rename_i p hp
    obtain ⟨hb, hf, _⟩ := coupled_between_start e a x first second store hc hdt p.1 p.2 hp
    obtain ⟨_, h2⟩ := (coupled_outputs e fuel _ 0 _ ⟨p.1, p.2, store⟩ hf rfl rs r).1 h
    have main : ∀ n q q', CoupledBetween e first.timeStep q → P q → e.steps fuel n q = .ok q' →
        CoupledBetween e first.timeStep q' ∧ P q' := by
      intro n
      induction n with
      | zero => intro q q' h1 h2 h3; cases h3; exact ⟨h1, h2⟩
      | succ n ih =>
        intro q q' h1 h2 h3
        simp only [CoupledEngine.steps, bind, Except.bind] at h3
        cases h4 : e.step fuel q with
        | error err => simp [h4] at h3
        | ok q1 =>
          simp only [h4] at h3
          exact ih q1 q' (coupled_between_step e fuel _ q q1 h1 h4).1 (hstep q q1 h1 h2 h4) h3
    have hget := (List.forall₂_iff_get.1 h2).2
    obtain ⟨i, hi, rfl⟩ := List.mem_iff_getElem.1 hs
    have hl := h2.length_eq
    obtain ⟨q, hq, he⟩ := hget i (by omega) hi
    obtain ⟨m1, m2⟩ := main _ _ _ hb (h0 p.1 p.2 hp hb) hq
    exact ⟨q, m1, m2, he.symm⟩

end Conmech
