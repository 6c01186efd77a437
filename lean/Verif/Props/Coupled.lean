import Verif.Props.Restart
/-!
C40 and the coupled parts of C36, C37, C38: the iteration between mechanics and temperature or
electric potential.
-/
namespace Conmech
open Spec

variable {K : Type} [Field K] [DecidableEq K] {V : Type}

namespace CoupledEngine

/-- What a pass computes and what it leaves alone. -/
theorem pass_ok (e : CoupledEngine K) (oldU oldV oldT oldP : ℕ → K) (c c' : Coupled K)
    (h : e.pass oldU oldV oldT oldP c = .ok c') :
    (∃ S, e.first.kind.update e.first.ops e.first.boundaries
        { displacement := some oldU, velocity := some oldV, temperature := some c.solutionT,
          electricPotential := some c.solutionT, timeStep := some c.first.timeStep,
          time := some c.first.currentTime } = .ok S ∧
      c'.first = { c.first with
        system := S, schur := c.first.schur.map fun x => x.recalculateForces S.rhs }) ∧
    c'.solution = e.first.solve c'.first c.solution ∧
    (∃ S, e.second.kind.update e.second.ops e.second.boundaries
        { displacement := some fun i => oldU i + c.first.timeStep * c'.solution i,
          velocity := some c'.solution, temperature := some oldT, electricPotential := some oldP,
          timeStep := some c.second.timeStep } = .ok S ∧
      c'.second = { c.second with
        system := S, schur := c.second.schur.map fun x => x.recalculateForces S.rhs }) ∧
    c'.solutionT = e.second.solve c'.second c.solutionT := by
  simp only [pass, SolverState.updateSystem, bind, Except.bind] at h
  cases h1 : e.first.kind.update e.first.ops e.first.boundaries
      { displacement := some oldU, velocity := some oldV, temperature := some c.solutionT,
        electricPotential := some c.solutionT, timeStep := some c.first.timeStep,
        time := some c.first.currentTime } with
  | error err => rw [h1] at h; cases h
  | ok S =>
    rw [h1] at h
    simp only [pure, Except.pure, liftStatement] at h
    split at h
    · cases h
    · rename_i s2 h2
      cases h
      split at h2
      · rename_i S2 h3
        cases h2
        split at h3
        · cases h3
        · rename_i S3 h4
          cases h3
          exact ⟨⟨S, rfl, rfl⟩, rfl, ⟨S3, h4, rfl⟩, rfl⟩
      · cases h2

/-- The solver without its system. -/
def Unchanged (s s' : SolverState K) : Prop :=
  s' = { s with system := s'.system, schur := s'.schur }

theorem loop_spec (e : CoupledEngine K) (oldU oldV oldT oldP : ℕ → K) (fuel : ℕ) (fuse mn : ℤ)
    (large : Bool) (p : ℕ) (c : Coupled K) (hf : fuse = 10 - p) (hm : mn = 5 - p) (hp : p ≤ 10) :
    (∀ c' n, e.loop oldU oldV oldT oldP fuel fuse mn large p c = .ok (c', n) →
      5 ≤ n ∧ n ≤ 10 ∧ Unchanged c.first c'.first ∧ Unchanged c.second c'.second) ∧
    (11 - p ≤ fuel → ∀ fuel', fuel ≤ fuel' →
      e.loop oldU oldV oldT oldP fuel' fuse mn large p c =
        e.loop oldU oldV oldT oldP fuel fuse mn large p c) := by
  induction fuel generalizing fuse mn large p c with
  | zero => exact ⟨fun _ _ h => by simp [loop] at h, fun h => absurd h (by omega)⟩
  | succ fuel ih =>
    constructor
    · intro c' n h
      rw [loop] at h
      split_ifs at h with hc
      · simp only [bind, Except.bind] at h
        cases h1 : e.pass oldU oldV oldT oldP c with
        | error err => simp [h1] at h
        | ok c1 =>
          simp only [h1] at h
          have hp10 : p + 1 ≤ 10 := by
            rcases hc with hc | ⟨_, hc⟩ <;> omega
          obtain ⟨h2, h3, h4, h5⟩ := (ih (fuse - 1) (mn - 1) _ (p + 1) c1 (by push_cast; omega)
            (by push_cast; omega) hp10).1 c' n h
          obtain ⟨⟨S, _, hS⟩, _, ⟨S', _, hS'⟩, _⟩ := pass_ok e _ _ _ _ _ _ h1
          refine ⟨h2, h3, ?_, ?_⟩
          · unfold Unchanged at h4 ⊢; rw [h4, hS]
          · unfold Unchanged at h5 ⊢; rw [h5, hS']
      · simp only [pure, Except.pure, Except.ok.injEq, Prod.mk.injEq] at h
        obtain ⟨rfl, rfl⟩ := h
        simp only [not_or] at hc
        exact ⟨by omega, hp, rfl, rfl⟩
    · intro hfuel fuel' hle
      obtain ⟨f', rfl⟩ : ∃ f', fuel' = f' + 1 := ⟨fuel' - 1, by omega⟩
      rw [loop, loop]
      split_ifs with hc
      · simp only [bind, Except.bind]
        cases h1 : e.pass oldU oldV oldT oldP c with
        | error err => rfl
        | ok c1 =>
          have hp10 : p + 1 ≤ 10 := by
            rcases hc with hc | ⟨_, hc⟩ <;> omega
          exact (ih (fuse - 1) (mn - 1) _ (p + 1) c1 (by push_cast; omega)
            (by push_cast; omega) hp10).2 (by omega) f' (by omega)
      · rfl

/-- The loop never runs out of fuel with eleven evaluations of its condition. -/
theorem loop_finishes (e : CoupledEngine K) (oldU oldV oldT oldP : ℕ → K) (fuel : ℕ) (fuse mn : ℤ)
    (large : Bool) (p : ℕ) (c : Coupled K) (hf : fuse = 10 - p) (hm : mn = 5 - p) (hp : p ≤ 10)
    (hfuel : 11 - p ≤ fuel) :
    (∃ r, e.loop oldU oldV oldT oldP fuel fuse mn large p c = .ok r) ∨
      ∃ err, e.loop oldU oldV oldT oldP fuel fuse mn large p c = .error (.statement err) := by
  induction fuel generalizing fuse mn large p c with
  | zero => omega
  | succ fuel ih =>
    rw [loop]
    split_ifs with hc
    · simp only [bind, Except.bind]
      cases h1 : e.pass oldU oldV oldT oldP c with
      | error err =>
        right
        simp only [pass, bind, Except.bind, liftStatement] at h1
        split at h1
        · rename_i e1 h2
          split at h2
          · cases h2
          · cases h2; cases h1; exact ⟨_, rfl⟩
        · split at h1
          · rename_i e1 h2
            split at h2
            · cases h2
            · cases h2; cases h1; exact ⟨_, rfl⟩
          · cases h1
      | ok c1 =>
        have hp10 : p + 1 ≤ 10 := by
          rcases hc with hc | ⟨_, hc⟩ <;> omega
        exact ih (fuse - 1) (mn - 1) _ (p + 1) c1 (by push_cast; omega) (by push_cast; omega) hp10
          (by omega)
    · exact .inl ⟨_, rfl⟩

end CoupledEngine

/-! ### C40 -/

/-- The iteration makes at least five and at most ten passes, whatever the solvers return and
whatever the residuals are. -/
theorem C40_passes (e : CoupledEngine K) (fuel : ℕ) (c c' : Coupled K) (n : ℕ)
    (h : e.findSolutionUzawa fuel c = .ok (c', n)) : 5 ≤ n ∧ n ≤ 10 := by
  simp only [CoupledEngine.findSolutionUzawa, bind, Except.bind] at h
  cases h1 : e.loop c.first.uVector c.first.vVector c.first.tVector c.first.pVector fuel 10 5 true 0
      c with
  | error err => rw [h1] at h; cases h
  | ok r =>
    rw [h1] at h
    cases h
    obtain ⟨h2, h3, _⟩ := (e.loop_spec _ _ _ _ fuel 10 5 true 0 c (by simp) (by simp)
      (by omega)).1 r.1 r.2 h1
    exact ⟨h2, h3⟩

theorem CoupledEngine.loop_residuals (e : CoupledEngine K) (oldU oldV oldT oldP : ℕ → K) (fuel : ℕ)
    (fuse mn : ℤ) (large : Bool) (p : ℕ) (c : Coupled K) (hf : fuse = 10 - p) (hm : mn = 5 - p)
    (hp : p ≤ 10) (c' : Coupled K) (n : ℕ)
    (h : e.loop oldU oldV oldT oldP fuel fuse mn large p c = .ok (c', n)) :
    p ≤ n ∧ (n = p → c' = c ∧ 5 ≤ p ∧ (p < 10 → large = false)) ∧
    (p < n → 5 ≤ p → large = true) ∧
    ∃ it : ℕ → Coupled K, it p = c ∧ it n = c' ∧
      (∀ i, p ≤ i → i < n → e.pass oldU oldV oldT oldP (it i) = .ok (it (i + 1))) ∧
      (∀ i, p < i → 5 ≤ i → i ≤ n → i < 10 →
        e.exceeds (it i).solution (it (i - 1)).solution (it i).solutionT (it (i - 1)).solutionT =
          decide (i < n)) := by
  induction fuel generalizing fuse mn large p c with
  | zero => simp [loop] at h
  | succ fuel ih =>
    rw [loop] at h
    split_ifs at h with hc
    · simp only [bind, Except.bind] at h
      cases h1 : e.pass oldU oldV oldT oldP c with
      | error err => simp [h1] at h
      | ok c1 =>
        simp only [h1] at h
        have hp10 : p + 1 ≤ 10 := by
          rcases hc with hc | ⟨_, hc⟩ <;> omega
        obtain ⟨h2, h3, h4, it, i1, i2, i3, i4⟩ := ih (fuse - 1) (mn - 1) _ (p + 1) c1
          (by push_cast; omega) (by push_cast; omega) hp10 h
        refine ⟨by omega, fun hn => absurd hn (by omega), fun _ h5 => ?_,
          fun i => if i = p then c else it i, by simp, ?_, ?_, ?_⟩
        · rcases hc with hc | ⟨hc, _⟩
          · omega
          · exact hc
        · simp only [show n ≠ p by omega, if_false]; exact i2
        · intro i hi hin
          rcases Nat.eq_or_lt_of_le hi with rfl | hlt
          · simp only [if_true, show p + 1 ≠ p by omega, if_false, h1, i1]
          · simp only [show i ≠ p by omega, show i + 1 ≠ p by omega, if_false]
            exact i3 i hlt hin
        · intro i hi h5 hin h10
          simp only [show i ≠ p by omega, if_false]
          rcases Nat.eq_or_lt_of_le (show p + 1 ≤ i from hi) with rfl | hlt
          · simp only [Nat.add_sub_cancel, if_true, i1]
            rcases Nat.eq_or_lt_of_le hin with hn | hn
            · rw [(h3 hn.symm).2.2 h10]; simp [hn]
            · rw [h4 hn h5]; simp [hn]
          · simp only [show i - 1 ≠ p by omega, if_false]
            exact i4 i hlt h5 hin h10
    · simp only [pure, Except.pure, Except.ok.injEq, Prod.mk.injEq] at h
      obtain ⟨rfl, rfl⟩ := h
      simp only [not_or, not_and, not_not] at hc
      refine ⟨le_refl _, fun _ => ⟨rfl, by omega, fun h10 => ?_⟩, fun hn => absurd hn (by omega),
        fun _ => c, rfl, rfl, fun i h1 h2 => absurd h2 (by omega), fun i h1 _ h2 => absurd h2 (by omega)⟩
      cases large with
      | false => rfl
      | true => exact absurd (hc.2 rfl) (by omega)

/-- C40: the number of passes is exactly determined by the residuals: the results are those of the
first pass from the fifth on whose change is small, or of the tenth. -/
theorem C40_stops (e : CoupledEngine K) (fuel : ℕ) (c c' : Coupled K) (n : ℕ)
    (h : e.findSolutionUzawa fuel c = .ok (c', n)) :
    ∃ it : ℕ → Coupled K, it 0 = c ∧
      (∀ i < n, e.pass c.first.uVector c.first.vVector c.first.tVector c.first.pVector (it i) =
        .ok (it (i + 1))) ∧
      c'.solution = (it n).solution ∧ c'.solutionT = (it n).solutionT ∧
      5 ≤ n ∧ n ≤ 10 ∧
      (∀ i, 5 ≤ i → i < n → e.exceeds (it i).solution (it (i - 1)).solution (it i).solutionT
        (it (i - 1)).solutionT = true) ∧
      (n < 10 → e.exceeds (it n).solution (it (n - 1)).solution (it n).solutionT
        (it (n - 1)).solutionT = false) := by
  obtain ⟨n5, n10⟩ := C40_passes e fuel c c' n h
  simp only [CoupledEngine.findSolutionUzawa, bind, Except.bind] at h
  cases h1 : e.loop c.first.uVector c.first.vVector c.first.tVector c.first.pVector fuel 10 5 true 0
      c with
  | error err => rw [h1] at h; cases h
  | ok r =>
    rw [h1] at h
    cases h
    obtain ⟨-, -, -, it, i1, i2, i3, i4⟩ := e.loop_residuals _ _ _ _ fuel 10 5 true 0 c (by simp)
      (by simp) (by omega) r.1 r.2 h1
    refine ⟨it, i1, fun i hi => i3 i (by omega) hi, by rw [i2]; rfl, by rw [i2]; rfl, n5, n10,
      fun i h5 hi => ?_, fun hn => ?_⟩
    · rw [i4 i (by omega) h5 hi.le (by omega)]; simpa using hi
    · rw [i4 _ (by omega) n5 (le_refl _) hn]; simp

/-- It ends: evaluating the condition of the loop eleven times is enough, more does not change
anything, and the only failures are those of the statements. -/
theorem C40_terminates (e : CoupledEngine K) (fuel : ℕ) (hf : 11 ≤ fuel) (c : Coupled K) :
    e.findSolutionUzawa fuel c = e.findSolutionUzawa 11 c ∧
    ((∃ r, e.findSolutionUzawa fuel c = .ok r) ∨
      ∃ err, e.findSolutionUzawa fuel c = .error (.statement err)) := by
  have h := (e.loop_spec c.first.uVector c.first.vVector c.first.tVector c.first.pVector 11 10 5 true
    0 c (by simp) (by simp) (by omega)).2 (by omega) fuel hf
  have heq : e.findSolutionUzawa fuel c = e.findSolutionUzawa 11 c := by
    unfold CoupledEngine.findSolutionUzawa
    rw [h]
  refine ⟨heq, ?_⟩
  rcases e.loop_finishes c.first.uVector c.first.vVector c.first.tVector c.first.pVector fuel 10 5
    true 0 c (by simp) (by simp) (by omega) (by omega) with ⟨r, hr⟩ | ⟨err, hr⟩
  · left
    exact ⟨(CoupledEngine.finish c.first.uVector r.1, r.2), by
      simp only [CoupledEngine.findSolutionUzawa, bind, Except.bind, hr]; rfl⟩
  · right
    exact ⟨err, by simp only [CoupledEngine.findSolutionUzawa, bind, Except.bind, hr]⟩

/-- On exit the vectors of both solvers are those of the returned solutions: the displacement is the
one at the beginning of the step plus the time step times the returned velocity. Nothing else of
the solvers is changed, except the systems. -/
theorem C40_consistent (e : CoupledEngine K) (fuel : ℕ) (c c' : Coupled K) (n : ℕ)
    (h : e.findSolutionUzawa fuel c = .ok (c', n)) :
    (c'.first.vVector = c'.solution ∧ c'.second.vVector = c'.solution) ∧
    (∀ i, c'.first.uVector i = c.first.uVector i + c.first.timeStep * c'.solution i) ∧
    (∀ i, c'.second.uVector i = c.first.uVector i + c.second.timeStep * c'.solution i) ∧
    (c'.first.tVector = c'.solutionT ∧ c'.second.tVector = c'.solutionT ∧
      c'.first.pVector = c'.solutionT ∧ c'.second.pVector = c'.solutionT) ∧
    (c'.first.timeStep = c.first.timeStep ∧ c'.second.timeStep = c.second.timeStep ∧
      c'.first.currentTime = c.first.currentTime ∧ c'.second.currentTime = c.second.currentTime ∧
      c'.first.bVector = c.first.bVector ∧ c'.second.bVector = c.second.bVector) := by
  simp only [CoupledEngine.findSolutionUzawa, bind, Except.bind] at h
  cases h1 : e.loop c.first.uVector c.first.vVector c.first.tVector c.first.pVector fuel 10 5 true 0
      c with
  | error err => rw [h1] at h; cases h
  | ok r =>
    rw [h1] at h
    cases h
    obtain ⟨_, _, h4, h5⟩ := (e.loop_spec _ _ _ _ fuel 10 5 true 0 c (by simp) (by simp)
      (by omega)).1 r.1 r.2 h1
    unfold CoupledEngine.Unchanged at h4 h5
    have g1 : r.1.first.timeStep = c.first.timeStep := by rw [h4]
    have g2 : r.1.second.timeStep = c.second.timeStep := by rw [h5]
    refine ⟨⟨rfl, rfl⟩, fun i => ?_, fun i => ?_, ⟨rfl, rfl, rfl, rfl⟩, g1, g2, ?_, ?_, ?_, ?_⟩
    · simp only [CoupledEngine.finish, g1]
    · simp only [CoupledEngine.finish, g2]
    · simp only [CoupledEngine.finish]; rw [h4]
    · simp only [CoupledEngine.finish]; rw [h5]
    · simp only [CoupledEngine.finish]; rw [h4]
    · simp only [CoupledEngine.finish]; rw [h5]

/-! ### Steps of coupled problems -/

/-- One step. -/
theorem coupled_step (e : CoupledEngine K) (fuel : ℕ) (r r' : CoupledEngine.Run K V)
    (h : e.step fuel r = .ok r') :
    r'.state.time = r.coupled.first.currentTime + r.coupled.first.timeStep ∧
    r'.coupled.first.currentTime = r.coupled.first.currentTime + r.coupled.first.timeStep ∧
    r'.coupled.second.currentTime = r.coupled.second.currentTime + r.coupled.second.timeStep ∧
    r'.coupled.first.timeStep = r.coupled.first.timeStep ∧
    r'.coupled.second.timeStep = r.coupled.second.timeStep ∧
    (∀ i j, r'.state.displacement i j = r.state.displacement i j +
      (r'.state.time - r.state.time) * r'.state.velocity i j) ∧
    (∀ i j, r'.state.displacedNodes i j = e.first.grid.nodes i j + r'.state.displacement i j) ∧
    r'.state.velocity = State.unflatten e.first.grid r'.coupled.solution ∧
    (∀ i, r'.coupled.first.uVector i = r.coupled.first.uVector i +
      r.coupled.first.timeStep * r'.coupled.solution i) ∧
    r'.state.products = r.state.products ∧
    r'.state.setup = r.state.setup ∧ r'.state.law = r.state.law ∧ r'.state.stress = r.state.stress ∧
    (r.state.products = [] → r'.store = r.store) := by
  simp only [CoupledEngine.step, bind, Except.bind] at h
  split at h
  · cases h
  · rename_i c1 h1
    obtain ⟨_, h3, _, _, h6, h7, h8, h9, _⟩ := C40_consistent e fuel _ c1.1 c1.2 h1
    simp only [State.setVelocity, bind, Except.bind] at h
    split at h
    · cases h
    · rename_i p hp
      split at hp
      · cases hp
      · rename_i st hst
        cases hp
        cases h
        dsimp only at *
        have hset : ∀ (s : State K) (v : ℕ → K), (s.setScalar v).time = s.time ∧
            (s.setScalar v).displacement = s.displacement ∧
            (s.setScalar v).displacedNodes = s.displacedNodes ∧
            (s.setScalar v).velocity = s.velocity ∧ (s.setScalar v).products = s.products ∧
            (s.setScalar v).setup = s.setup ∧ (s.setScalar v).law = s.law ∧
            (s.setScalar v).stress = s.stress := by
          intro s v
          unfold State.setScalar
          cases s.scalar <;> simp
        obtain ⟨t1, t2, t3, t4, t5, t6, t7, t8⟩ := hset
          (State.withVelocity e.first.grid r.state c1.1.solution c1.1.first.currentTime true)
          c1.1.solutionT
        rw [t1, t2, t3, t4, t5, t6, t7, t8]
        refine ⟨h8, h8, h9, h6, h7, fun _ _ => rfl, fun _ _ => rfl, rfl, h3, rfl, rfl, rfl, rfl, ?_⟩
        intro hp
        have : (State.withVelocity e.first.grid r.state c1.1.solution c1.1.first.currentTime
          true).products = [] := hp
        rw [this] at hst
        exact (Except.ok.inj hst).symm

/-- C36 for coupled problems: time, displacement, and agreement of the solver's displacement with
that of the state. -/
theorem C36_coupled (e : CoupledEngine K) (fuel n : ℕ) (traj : ℕ → CoupledEngine.Run K V)
    (h : Follows (e.step fuel) n traj)
    (h0 : (traj 0).state.time = (traj 0).coupled.first.currentTime)
    (hu : (traj 0).coupled.first.uVector = State.flatten e.first.grid (traj 0).state.displacement)
    (k : ℕ) (hk : k ≤ n) :
    (traj k).state.time = (traj k).coupled.first.currentTime ∧
    (traj k).state.time = (traj 0).state.time + k * (traj 0).coupled.first.timeStep ∧
    (traj k).coupled.second.currentTime =
      (traj 0).coupled.second.currentTime + k * (traj 0).coupled.second.timeStep ∧
    (∀ i j, (traj k).state.displacement i j = (traj 0).state.displacement i j +
      (traj 0).coupled.first.timeStep * ∑ m ∈ Finset.range k, (traj (m + 1)).state.velocity i j) ∧
    (traj k).coupled.first.uVector = State.flatten e.first.grid (traj k).state.displacement ∧
    (traj k).coupled.first.timeStep = (traj 0).coupled.first.timeStep ∧
    (traj k).coupled.second.timeStep = (traj 0).coupled.second.timeStep := by
  induction k with
  | zero => simp [h0, hu]
  | succ k ih =>
    obtain ⟨h1, h2, h3, h4, h5, h6, h7⟩ := ih (by omega)
    obtain ⟨s1, s2, s3, s4, s5, s6, _, s8, s9, _⟩ := coupled_step e fuel _ _ (h k (by omega))
    refine ⟨by rw [s1, s2], ?_, ?_, fun i j => ?_, ?_, by rw [s4, h6], by rw [s5, h7]⟩
    · rw [s1, ← h1, h2, h6]; push_cast; ring
    · rw [s3, h3, h7]; push_cast; ring
    · rw [s6, s1, ← h1, h6, h4, Finset.sum_range_succ]; ring
    · funext i
      rw [s9, h5]
      simp only [State.flatten]
      rw [s6, s1, ← h1, s8]
      simp only [State.unflatten]
      rw [Nat.div_add_mod']
      ring

theorem coupled_steps_follows (e : CoupledEngine K) (fuel n : ℕ) (r : CoupledEngine.Run K V)
    (traj : ℕ → CoupledEngine.Run K V) (h : Follows (e.step fuel) n traj) (h0 : traj 0 = r) :
    e.steps fuel n r = .ok (traj n) := by
  induction n generalizing r traj with
  | zero => rw [← h0]; rfl
  | succ n ih =>
    have h1 := h 0 (by omega)
    rw [h0] at h1
    simp only [CoupledEngine.steps, bind, Except.bind, h1]
    exact ih _ (fun k => traj (k + 1)) (fun k hk => h (k + 1) (by omega)) rfl

theorem coupled_steps_add (e : CoupledEngine K) (fuel m n : ℕ) (r : CoupledEngine.Run K V) :
    e.steps fuel (m + n) r = (e.steps fuel m r).bind (e.steps fuel n) := by
  induction m generalizing r with
  | zero => rw [Nat.zero_add]; rfl
  | succ m ih =>
    rw [show m + 1 + n = (m + n) + 1 by omega]
    simp only [CoupledEngine.steps, bind, Except.bind]
    cases e.step fuel r with
    | error err => rfl
    | ok s => exact ih s

/-- A state as the coupled solvers create it. -/
structure Fresh (s : State K) : Prop where
  products : s.products = []
  setup : s.setup = none
  law : s.law = none
  stress : s.stress = none

omit [DecidableEq K] in
theorem Fresh.copy {s : State K} (h : Fresh s) (g : Grid K) (st : ProductStore K V) :
    s.copy g st = (s, st) := by
  obtain ⟨⟨ab, di, dn, ve, sc, ti⟩, pr, se, la, stre⟩ := s
  obtain ⟨h2, h3, h4, h5⟩ := h
  simp only at h2 h3 h4 h5
  subst h2 h3 h4 h5
  cases sc <;> rfl

theorem fresh_steps (e : CoupledEngine K) (fuel n : ℕ) (r r' : CoupledEngine.Run K V)
    (hf : Fresh r.state) (h : e.steps fuel n r = .ok r') : Fresh r'.state ∧ r'.store = r.store := by
  induction n generalizing r with
  | zero => cases h; exact ⟨hf, rfl⟩
  | succ n ih =>
    simp only [CoupledEngine.steps, bind, Except.bind] at h
    cases h1 : e.step fuel r with
    | error err => simp [h1] at h
    | ok r1 =>
      simp only [h1] at h
      obtain ⟨_, _, _, _, _, _, _, _, _, p1, p2, p3, p4, p5⟩ := coupled_step e fuel _ _ h1
      have hf1 : Fresh r1.state := ⟨p1.trans hf.products, p2.trans hf.setup, p3.trans hf.law,
        p4.trans hf.stress⟩
      obtain ⟨h2, h3⟩ := ih r1 hf1 h
      exact ⟨h2, h3.trans (p5 hf.products)⟩

/-- The copies made along a coupled run are its states after the given numbers of steps. -/
theorem coupled_outputs (e : CoupledEngine K) (fuel : ℕ) (ns : List ℤ) (k : ℕ)
    (r0 r : CoupledEngine.Run K V) (hf : Fresh r.state) (hk : e.steps fuel k r0 = .ok r)
    (rs : List (State K)) (r' : CoupledEngine.Run K V) :
    e.outputs fuel ns r = .ok (rs, r') ↔ e.steps fuel (k + total ns) r0 = .ok r' ∧
      List.Forall₂ (fun o s => ∃ q, e.steps fuel o r0 = .ok q ∧ s = q.state) (stops k ns) rs := by
  induction ns generalizing k r rs with
  | nil =>
    simp only [CoupledEngine.outputs, total, Nat.add_zero, stops, hk, Except.ok.injEq,
      Prod.mk.injEq, List.forall₂_nil_left_iff]
    exact ⟨fun h => ⟨h.2, h.1.symm⟩, fun h => ⟨h.2.symm, h.1⟩⟩
  | cons n ns ih =>
    have hadd : e.steps fuel (k + n.toNat) r0 = e.steps fuel n.toNat r := by
      rw [coupled_steps_add, hk]; rfl
    simp only [CoupledEngine.outputs, bind, Except.bind, total, stops]
    cases h1 : e.steps fuel n.toNat r with
    | error err =>
      constructor
      · intro h; cases h
      · rintro ⟨h, _⟩
        rw [← Nat.add_assoc, coupled_steps_add, hadd, h1] at h
        cases h
    | ok r1 =>
      obtain ⟨hf1, hs1⟩ := fresh_steps e fuel _ _ _ hf h1
      have ih1 := fun rs => ih (k + n.toNat) r1 hf1 (hadd.trans h1) rs
      have hr1 : ({ r1 with store := r1.store } : CoupledEngine.Run K V) = r1 := rfl
      simp only [hf1.copy]
      rw [hr1, ← Nat.add_assoc]
      cases rs with
      | nil =>
        constructor
        · intro h
          cases h2 : e.outputs fuel ns r1 with
          | error err => rw [h2] at h; cases h
          | ok x => rw [h2] at h; simp [pure, Except.pure] at h
        · rintro ⟨_, h⟩; cases h
      | cons s rs =>
        rw [List.forall₂_cons]
        constructor
        · intro h
          cases h2 : e.outputs fuel ns r1 with
          | error err => rw [h2] at h; cases h
          | ok x =>
            rw [h2] at h
            simp only [pure, Except.pure, Except.ok.injEq, Prod.mk.injEq, List.cons.injEq] at h
            obtain ⟨⟨rfl, rfl⟩, rfl⟩ := h
            obtain ⟨h3, h4⟩ := (ih1 x.1).1 h2
            exact ⟨h3, ⟨r1, hadd.trans h1, rfl⟩, h4⟩
        · rintro ⟨h3, ⟨q, hq, rfl⟩, h4⟩
          rw [hadd, h1] at hq
          cases hq
          rw [(ih1 rs).2 ⟨h3, h4⟩]
          rfl

/-- C37 for coupled problems: with non-decreasing output steps the states returned are exactly those
that runs of these lengths return. -/
theorem C37_coupled_partial (e : CoupledEngine K) (fuel : ℕ) (a : Engine.Arguments K)
    (hne : a.outputStep ≠ []) (hso : SortedSteps a.outputStep) (x : ℕ → K)
    (first second : SolverState K) (store : ProductStore K V) (rs : List (State K))
    (r : CoupledEngine.Run K V) (h : e.solve fuel a x first second store = .ok (rs, r)) :
    List.Forall₂ (fun o s => ∃ r', e.solve fuel { a with nSteps := o, outputStep := [] } x first second
      store = .ok ([s], r')) a.outputStep rs := by
  have hst : ∀ n, e.start { a with nSteps := n, outputStep := [] } x first second =
      e.start a x first second := fun _ => rfl
  simp only [CoupledEngine.solve, bind, Except.bind, hst] at h ⊢
  cases h0 : e.start a x first second with
  | error err => rw [h0] at h; cases h
  | ok p =>
    rw [h0] at h
    dsimp only at h ⊢
    have hf : Fresh p.2 := by
      simp only [CoupledEngine.start, bind, Except.bind] at h0
      split at h0
      · cases h0
      · split at h0
        · cases h0
        · cases h0
          unfold State.setScalar
          cases e.stateKind <;> exact ⟨rfl, rfl, rfl, rfl⟩
    obtain ⟨o, os, ho⟩ : ∃ o os', a.outputStep = o :: os' := by
      cases h : a.outputStep with
      | nil => exact absurd h hne
      | cons a b => exact ⟨a, b, rfl⟩
    rw [ho] at h hso ⊢
    obtain ⟨h1, h2⟩ := (coupled_outputs e fuel _ 0 _ ⟨p.1, p.2, store⟩ hf rfl rs r).1 h
    obtain ⟨hst', _⟩ := stops_diff 0 (le_refl _) (o :: os) hso
    have hs' : stops 0 (Engine.outputDiffs a.nSteps (o :: os)) = (o :: os).map Int.toNat := hst'
    rw [hs', List.forall₂_map_left_iff] at h2
    refine h2.imp fun x s hx => ?_
    obtain ⟨q, hq, rfl⟩ := hx
    refine ⟨q, (coupled_outputs e fuel _ 0 _ ⟨p.1, p.2, store⟩ hf rfl _ _).2 ⟨?_, ?_⟩⟩
    · simpa [outputDiffs_nil, total] using hq
    · rw [outputDiffs_nil]
      simp only [stops, Nat.zero_add, Int.sub_zero]
      exact .cons ⟨q, hq, rfl⟩ .nil

/-- C38 for coupled problems: if the clock is at `t` when `solve` is called, the displacement of the
state is advanced by `t` plus the time step times the velocity in the first step, while the one of
the solver is advanced by the time step times the velocity. -/
theorem C38_coupled_wrong (e : CoupledEngine K) (fuel : ℕ) (a : Engine.Arguments K) (x : ℕ → K)
    (first second : SolverState K) (store : ProductStore K V) (c : Coupled K) (s : State K)
    (h0 : e.start a x first second = .ok (c, s)) (r : CoupledEngine.Run K V)
    (h : e.step fuel ⟨c, s, store⟩ = .ok r) :
    (∀ i j, r.state.displacement i j = a.initialDisplacement i j +
      (first.currentTime + first.timeStep) * r.state.velocity i j) ∧
    (∀ k, r.coupled.first.uVector k = State.flatten e.first.grid a.initialDisplacement k +
      first.timeStep * State.flatten e.first.grid r.state.velocity k) := by
  obtain ⟨s1, _, _, _, _, s6, _, s8, s9, _⟩ := coupled_step e fuel _ _ h
  simp only [CoupledEngine.start, bind, Except.bind] at h0
  split at h0
  · cases h0
  · rename_i f1 hf1
    split at h0
    · cases h0
    · cases h0
      have hit := e.first.iterate_ok _ _ hf1
      dsimp only at *
      have hset : ∀ (s : State K) (v : ℕ → K), (s.setScalar v).time = s.time ∧
          (s.setScalar v).displacement = s.displacement := by
        intro s v
        unfold State.setScalar
        cases s.scalar <;> simp
      have ht : f1.currentTime = first.currentTime ∧ f1.timeStep = first.timeStep ∧
          f1.uVector = State.flatten e.first.grid a.initialDisplacement := by
        rw [hit]
        cases e.stateKind <;> exact ⟨rfl, rfl, by simp only [(hset _ _).2]⟩
      refine ⟨fun i j => ?_, fun k => ?_⟩
      · rw [s6, s1, (hset _ _).1, (hset _ _).2, ht.1, ht.2.1]
        simp [State.new]
      · rw [s9, s8, ht.2.1, ht.2.2]
        simp only [State.flatten, State.unflatten]
        rw [Nat.div_add_mod']

end Conmech
