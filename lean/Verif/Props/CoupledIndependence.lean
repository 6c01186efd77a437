import Verif.Props.CoupledBodies
/-!
C118: the results of coupled simulations depend neither on the solving method nor on the optimiser.
-/
namespace Conmech
open Spec

/-- The values of the two scalar fields agree at all nodes. -/
def Spec.SameScalar {K : Type} (N : ℕ) : ScalarField K → ScalarField K → Prop
  | .absent, .absent => True
  | .temperature x, .temperature y => ∀ i < N, x i = y i
  | .potential x, .potential y => ∀ i < N, x i = y i
  | _, _ => False

/-- The variables that are passed to `update` of coupled problems, `problem_solver.py:206-217, 226-236`. -/
def given (u v t p : ℕ → ℝ) (dt time : Option ℝ) : Variables ℝ :=
  { displacement := some u, velocity := some v, temperature := some t, electricPotential := some p,
    timeStep := dt, time := time }

/-- Systems depend on the components of the fields only. -/
theorem update_agree (kind : StatementKind) (ops : Operators ℝ) (hdim : ops.dimension = 2)
    (bs : List (CondBoundary ℝ)) {u u' v v' t t' p p' : ℕ → ℝ} (hu : ∀ r < 2 * ops.nodesCount, u r = u' r)
    (hv : ∀ r < 2 * ops.nodesCount, v r = v' r) (ht : ∀ r < ops.nodesCount, t r = t' r)
    (hp : ∀ r < ops.nodesCount, p r = p' r) (dt time : Option ℝ) :
    kind.update ops bs (given u v t p dt time) =
      kind.update ops bs (given u' v' t' p' dt time) := by
  have hu1 : ∀ r < ops.nodesCount, u r = u' r := fun r hr => hu r (by omega)
  have hv1 : ∀ r < ops.nodesCount, v r = v' r := fun r hr => hv r (by omega)
  unfold StatementKind.update
  have hl : updateLhs ops (given u v t p dt time) kind =
    updateLhs ops (given u' v' t' p' dt time) kind := by
    cases kind <;> rfl
  have hr : updateRhs ops (given u v t p dt time) kind =
    updateRhs ops (given u' v' t' p' dt time) kind := by
    cases kind <;>
      simp only [given, updateRhs, dynamicRhs, quasistaticRhs, required, bind, Except.bind, pure, Except.pure, hdim,
        matVec_same _ _ hu, matVec_same _ _ hv, matVec_same _ _ ht, matVec_same _ _ hp, matVec_same _ _ hu1,
        matVec_same _ _ hv1]
  rw [hl, hr]

/-- Forces of a monotone contact are balanced by one field only. -/
theorem balance_unique {n : ℕ} {D : ℕ → Prop} {S : System ℝ} (hpos : PositiveForm n S.lhs)
    (J : (ℕ → ℝ) → ℝ) {x y : ℕ → ℝ} (hx : Still n D x) (hy : Still n D y)
    (h : ∀ z, Still n D z → 0 ≤ ∑ r ∈ Finset.range n, (z r - x r) *
      (∑ s ∈ Finset.range n, S.lhs r s * x s - S.rhs r) + (J z - J x))
    (h' : ∀ z, Still n D z → 0 ≤ ∑ r ∈ Finset.range n, (z r - y r) *
      (∑ s ∈ Finset.range n, S.lhs r s * y s - S.rhs r) + (J z - J y)) :
    ∀ r < n, x r = y r := by
  by_contra hne
  push Not at hne
  obtain ⟨r, hr, hne⟩ := hne
  have hq := hpos (fun r => x r - y r) ⟨r, hr, sub_ne_zero.2 hne⟩
  have e1 : quad n S.lhs (fun r => x r - y r) =
      -((∑ r ∈ Finset.range n, (y r - x r) * (∑ s ∈ Finset.range n, S.lhs r s * x s - S.rhs r)) +
        ∑ r ∈ Finset.range n, (x r - y r) * (∑ s ∈ Finset.range n, S.lhs r s * y s - S.rhs r)) := by
    unfold quad
    rw [← Finset.sum_add_distrib, ← Finset.sum_neg_distrib]
    refine Finset.sum_congr rfl fun r _ => ?_
    have : ∑ s ∈ Finset.range n, S.lhs r s * (x s - y s) =
        ∑ s ∈ Finset.range n, S.lhs r s * x s - ∑ s ∈ Finset.range n, S.lhs r s * y s := by
      rw [← Finset.sum_sub_distrib]
      exact Finset.sum_congr rfl fun s _ => by ring
    rw [this]; ring
  linarith [h y hy, h' x hx]

theorem solves_unique {n : ℕ} {S : System ℝ} (hpos : PositiveForm n S.lhs) {x y : ℕ → ℝ}
    (hx : Solves n S x) (hy : Solves n S y) : ∀ r < n, x r = y r := by
  refine balance_unique (D := fun _ => False) (S := S) hpos (fun _ => 0) (fun _ _ h => h.elim)
    (fun _ _ h => h.elim) (fun z _ => ?_) (fun z _ => ?_)
  · have : ∑ r ∈ Finset.range n, (z r - x r) *
      (∑ s ∈ Finset.range n, S.lhs r s * x s - S.rhs r) = 0 := Finset.sum_eq_zero fun r hr => by
        have := hx r (Finset.mem_range.1 hr)
        unfold Row at this
        rw [this]; ring
    rw [this]; norm_num
  · have : ∑ r ∈ Finset.range n, (z r - y r) *
      (∑ s ∈ Finset.range n, S.lhs r s * y s - S.rhs r) = 0 := Finset.sum_eq_zero fun r hr => by
        have := hy r (Finset.mem_range.1 hr)
        unfold Row at this
        rw [this]; ring
    rw [this]; norm_num

/-- Two simulations of the same coupled problem, which may use other methods and optimisers. The stopping
criterion looks at the components of the fields only. -/
structure SameProblem (e e' : CoupledEngine ℝ) : Prop where
  grid : e'.first.grid = e.first.grid
  kind : e'.first.kind = e.first.kind
  ops : e'.first.ops = e.first.ops
  boundaries : e'.first.boundaries = e.first.boundaries
  kind' : e'.second.kind = e.second.kind
  ops' : e'.second.ops = e.second.ops
  boundaries' : e'.second.boundaries = e.second.boundaries
  state : e'.stateKind = e.stateKind
  exceeds : ∀ x x' y y' z z' w w' : ℕ → ℝ, (∀ r < 2 * e.first.ops.nodesCount, x r = x' r) →
    (∀ r < 2 * e.first.ops.nodesCount, y r = y' r) → (∀ r < e.first.ops.nodesCount, z r = z' r) →
    (∀ r < e.first.ops.nodesCount, w r = w' r) → e'.exceeds x' y' z' w' = e.exceeds x y z w

/-- Both solvers and solutions agree. -/
structure SameCoupled (N : ℕ) (dt : ℝ) (c c' : Coupled ℝ) : Prop where
  step : c.first.timeStep = dt ∧ c'.first.timeStep = dt
  step' : c.second.timeStep = dt ∧ c'.second.timeStep = dt
  time : c.first.currentTime = c'.first.currentTime
  u : ∀ r < 2 * N, c.first.uVector r = c'.first.uVector r
  v : ∀ r < 2 * N, c.first.vVector r = c'.first.vVector r
  t : ∀ r < N, c.first.tVector r = c'.first.tVector r
  p : ∀ r < N, c.first.pVector r = c'.first.pVector r
  solution : ∀ r < 2 * N, c.solution r = c'.solution r
  solutionT : ∀ r < N, c.solutionT r = c'.solutionT r

/-- Solvers that balance the forces and solve the equations of the second field, with matrices that are
positive. -/
structure Balanced (e : CoupledEngine ℝ) (D : ℕ → Prop) (dt : ℝ) (J : (ℕ → ℝ) → ℝ) : Prop where
  first : ContactSolve e.first (2 * e.first.ops.nodesCount) D dt J
  second : ExactSolve e.second e.first.ops.nodesCount dt

section pair
variable {V : Type} (e e' : CoupledEngine ℝ) (h : SameProblem e e') (hdim : e.first.ops.dimension = 2)
  (hops : e.second.ops = e.first.ops) (D : ℕ → Prop) (dt : ℝ) (J : (ℕ → ℝ) → ℝ)
  (hpos : ∀ var S, var.timeStep = some dt → e.first.kind.update e.first.ops e.first.boundaries var = .ok S →
    PositiveForm (2 * e.first.ops.nodesCount) S.lhs)
  (hpos' : ∀ var S, var.timeStep = some dt → e.second.kind.update e.second.ops e.second.boundaries var = .ok S →
    PositiveForm e.first.ops.nodesCount S.lhs)
  (hb : Balanced e D dt J) (hb' : Balanced e' D dt J)

include h hdim hops hpos hpos' hb hb' in
theorem pass_pair {u u' v v' t t' p p' : ℕ → ℝ} (hu : ∀ r < 2 * e.first.ops.nodesCount, u r = u' r)
    (hv : ∀ r < 2 * e.first.ops.nodesCount, v r = v' r) (ht : ∀ r < e.first.ops.nodesCount, t r = t' r)
    (hp : ∀ r < e.first.ops.nodesCount, p r = p' r) (c c' d d' : Coupled ℝ)
    (hc : SameCoupled e.first.ops.nodesCount dt c c') (h1 : e.pass u v t p c = .ok d)
    (h1' : e'.pass u' v' t' p' c' = .ok d') : SameCoupled e.first.ops.nodesCount dt d d' := by
  unfold CoupledEngine.pass at h1 h1'
  obtain ⟨f, hf, h1⟩ := bind_inv _ _ _ h1
  obtain ⟨g, hg, h1⟩ := bind_inv _ _ _ h1
  obtain ⟨f', hf', h1'⟩ := bind_inv _ _ _ h1'
  obtain ⟨g', hg', h1'⟩ := bind_inv _ _ _ h1'
  cases h1
  cases h1'
  have lift : ∀ {x : Except StatementError (SolverState ℝ)} {y}, liftStatement x = .ok y → x = .ok y := by
    intro x y hxy
    cases x with
    | error err => cases hxy
    | ok a => cases hxy; rfl
  have hf := lift hf
  have hg := lift hg
  have hf' := lift hf'
  have hg' := lift hg'
  obtain ⟨S, hS, rfl⟩ := updateSystem_ok _ _ _ _ _ _ hf
  obtain ⟨S', hS', rfl⟩ := updateSystem_ok _ _ _ _ _ _ hf'
  obtain ⟨T, hT, rfl⟩ := updateSystem_ok _ _ _ _ _ _ hg
  obtain ⟨T', hT', rfl⟩ := updateSystem_ok _ _ _ _ _ _ hg'
  have hSS : S = S' := by
    have := update_agree e.first.kind e.first.ops hdim e.first.boundaries hu hv hc.solutionT hc.solutionT
      (some dt) (some c.first.currentTime)
    unfold given at this
    rw [h.kind, h.ops, h.boundaries, hc.step.2, ← hc.time, ← this] at hS'
    rw [hc.step.1] at hS
    rw [hS] at hS'
    cases hS'; rfl
  have hw : ∀ r < 2 * e.first.ops.nodesCount, e.first.solve
        { c.first with system := S, schur := c.first.schur.map fun q => q.recalculateForces S.rhs } c.solution r =
      e'.first.solve
        { c'.first with system := S', schur := c'.first.schur.map fun q => q.recalculateForces S'.rhs }
        c'.solution r := by
    obtain ⟨a1, a2⟩ := hb.first
      { c.first with system := S, schur := c.first.schur.map fun q => q.recalculateForces S.rhs } c.solution _
      (by rw [hc.step.1]) hS
    obtain ⟨b1, b2⟩ := hb'.first
      { c'.first with system := S', schur := c'.first.schur.map fun q => q.recalculateForces S'.rhs } c'.solution _
      (by rw [hc.step.2]) hS'
    rw [h.ops] at b1 b2
    have hP := hpos _ S (by rw [hc.step.1]) hS
    subst hSS
    exact balance_unique hP J a1 b1 a2 b2
  have hTT : T = T' := by
    have := update_agree e.second.kind e.second.ops (by rw [hops, hdim]) e.second.boundaries
      (u := fun i => u i + c.first.timeStep * e.first.solve
        { c.first with system := S, schur := c.first.schur.map fun q => q.recalculateForces S.rhs } c.solution i)
      (u' := fun i => u' i + c'.first.timeStep * e'.first.solve
        { c'.first with system := S', schur := c'.first.schur.map fun q => q.recalculateForces S'.rhs }
        c'.solution i)
      (by rw [hops]; intro r hr; beta_reduce; rw [hu r hr, hw r hr, hc.step.1, hc.step.2]) (by rw [hops]; exact hw)
      (by rw [hops]; exact ht) (by rw [hops]; exact hp) (some c.second.timeStep) none
    unfold given at this
    have e2 : c'.second.timeStep = c.second.timeStep := hc.step'.2.trans hc.step'.1.symm
    rw [h.kind', h.ops', h.boundaries', e2] at hT'
    exact Except.ok.inj (hT.symm.trans (this.trans hT'))
  have hy : ∀ r < e.first.ops.nodesCount, e.second.solve
        { c.second with system := T, schur := c.second.schur.map fun q => q.recalculateForces T.rhs }
        c.solutionT r =
      e'.second.solve
        { c'.second with system := T', schur := c'.second.schur.map fun q => q.recalculateForces T'.rhs }
        c'.solutionT r := by
    have a1 := hb.second
      { c.second with system := T, schur := c.second.schur.map fun q => q.recalculateForces T.rhs } c.solutionT _
      (by rw [hc.step'.1]) hT
    have b1 := hb'.second
      { c'.second with system := T', schur := c'.second.schur.map fun q => q.recalculateForces T'.rhs }
      c'.solutionT _ (by rw [hc.step'.2]) hT'
    rw [h.ops] at b1
    have hP := hpos' _ T (by rw [hc.step'.1]) hT
    subst hTT
    exact solves_unique hP a1 b1
  exact ⟨hc.step, hc.step', hc.time, hc.u, hc.v, hc.t, hc.p, hw, hy⟩

include h hdim hops hpos hpos' hb hb' in
theorem loop_pair {u u' v v' t t' p p' : ℕ → ℝ} (hu : ∀ r < 2 * e.first.ops.nodesCount, u r = u' r)
    (hv : ∀ r < 2 * e.first.ops.nodesCount, v r = v' r) (ht : ∀ r < e.first.ops.nodesCount, t r = t' r)
    (hp : ∀ r < e.first.ops.nodesCount, p r = p' r) (fuel fuel' : ℕ) (fuse mn : ℤ) (large : Bool) (n : ℕ)
    (c c' : Coupled ℝ) (d d' : Coupled ℝ × ℕ)
    (hc : SameCoupled e.first.ops.nodesCount dt c c') (h1 : e.loop u v t p fuel fuse mn large n c = .ok d)
    (h1' : e'.loop u' v' t' p' fuel' fuse mn large n c' = .ok d') :
    SameCoupled e.first.ops.nodesCount dt d.1 d'.1 ∧ d.2 = d'.2 := by
  induction fuel generalizing fuel' fuse mn large n c c' with
  | zero => cases h1
  | succ fuel ih =>
    cases fuel' with
    | zero => cases h1'
    | succ fuel' =>
      unfold CoupledEngine.loop at h1 h1'
      split_ifs at h1 h1'
      · obtain ⟨b, hb1, h1⟩ := bind_inv _ _ _ h1
        obtain ⟨b', hb1', h1'⟩ := bind_inv _ _ _ h1'
        have hs := pass_pair e e' h hdim hops D dt J hpos hpos' hb hb' hu hv ht hp c c' b b' hc hb1 hb1'
        rw [h.exceeds _ _ _ _ _ _ _ _ hs.solution hc.solution hs.solutionT hc.solutionT] at h1'
        exact ih _ _ _ _ _ _ _ hs h1 h1'
      · cases h1
        cases h1'
        exact ⟨hc, rfl⟩

/-- Both runs show the same. -/
structure SameRun (N : ℕ) (dt : ℝ) (r r' : CoupledEngine.Run ℝ V) : Prop where
  coupled : SameCoupled N dt r.coupled r'.coupled
  motion : SameMotion N r.state.toSnapshot r'.state.toSnapshot
  scalar : SameScalar N r.state.scalar r'.state.scalar

theorem sameScalar_set {N : ℕ} {s s' : State ℝ} (h : SameScalar N s.scalar s'.scalar) {x x' : ℕ → ℝ}
    (hx : ∀ i < N, x i = x' i) : SameScalar N (s.setScalar x).scalar (s'.setScalar x').scalar := by
  unfold State.setScalar
  cases hs : s.scalar <;> cases hs' : s'.scalar <;> rw [hs, hs'] at h <;>
    first | exact h.elim | exact hx | (dsimp only; rw [hs, hs']; exact h)

include h hdim hops hpos hpos' hb hb' in
theorem coupled_step_pair (hN : e.first.grid.nodesCount = e.first.ops.nodesCount) (fuel fuel' : ℕ)
    (r r' q q' : CoupledEngine.Run ℝ V) (hr : SameRun e.first.ops.nodesCount dt r r')
    (h1 : e.step fuel r = .ok q) (h1' : e'.step fuel' r' = .ok q') :
    SameRun e.first.ops.nodesCount dt q q' := by
  obtain ⟨a1, a2, a3, a4, a5, a6, a7, a8, -⟩ := coupled_step e fuel r q h1
  obtain ⟨b1, b2, b3, b4, b5, b6, b7, b8, -⟩ := coupled_step e' fuel' r' q' h1'
  obtain ⟨hc, hm, hs⟩ := hr
  simp only [CoupledEngine.step, CoupledEngine.findSolutionUzawa, bind, Except.bind] at h1 h1'
  cases hl : e.loop r.coupled.first.uVector r.coupled.first.vVector r.coupled.first.tVector
      r.coupled.first.pVector fuel 10 5 true 0
      { r.coupled with
        first := { r.coupled.first with
          currentTime := r.coupled.first.currentTime + r.coupled.first.timeStep }
        second := { r.coupled.second with
          currentTime := r.coupled.second.currentTime + r.coupled.second.timeStep } } with
  | error err => rw [hl] at h1; cases h1
  | ok d =>
  cases hl' : e'.loop r'.coupled.first.uVector r'.coupled.first.vVector r'.coupled.first.tVector
      r'.coupled.first.pVector fuel' 10 5 true 0
      { r'.coupled with
        first := { r'.coupled.first with
          currentTime := r'.coupled.first.currentTime + r'.coupled.first.timeStep }
        second := { r'.coupled.second with
          currentTime := r'.coupled.second.currentTime + r'.coupled.second.timeStep } } with
  | error err => rw [hl'] at h1'; cases h1'
  | ok d' =>
  rw [hl] at h1
  rw [hl'] at h1'
  obtain ⟨hd, -⟩ := loop_pair e e' h hdim hops D dt J hpos hpos' hb hb' hc.u hc.v hc.t hc.p fuel fuel' 10 5 true 0
    { r.coupled with
      first := { r.coupled.first with
        currentTime := r.coupled.first.currentTime + r.coupled.first.timeStep }
      second := { r.coupled.second with
        currentTime := r.coupled.second.currentTime + r.coupled.second.timeStep } }
    { r'.coupled with
      first := { r'.coupled.first with
        currentTime := r'.coupled.first.currentTime + r'.coupled.first.timeStep }
      second := { r'.coupled.second with
        currentTime := r'.coupled.second.currentTime + r'.coupled.second.timeStep } }
    d d' ⟨hc.step, hc.step', by
      change r.coupled.first.currentTime + r.coupled.first.timeStep =
        r'.coupled.first.currentTime + r'.coupled.first.timeStep
      rw [hc.step.1, hc.step.2, hc.time], hc.u, hc.v, hc.t, hc.p, hc.solution, hc.solutionT⟩ hl hl'
  simp only [State.setVelocity, bind, Except.bind, pure, Except.pure] at h1 h1'
  split at h1
  · cases h1
  rename_i x hx
  split at h1'
  · cases h1'
  rename_i x' hx'
  split at hx
  · cases hx
  split at hx'
  · cases hx'
  cases hx
  cases hx'
  cases h1
  cases h1'
  have ht : r.state.time = r'.state.time := hm.1
  refine ⟨⟨hd.step, hd.step', hd.time, fun i hi => ?_, hd.solution, hd.solutionT, hd.solutionT, hd.solution,
    hd.solutionT⟩, ⟨?_, fun i hi j hj => ?_⟩, ?_⟩
  · change r.coupled.first.uVector i + d.1.first.timeStep * d.1.solution i =
      r'.coupled.first.uVector i + d'.1.first.timeStep * d'.1.solution i
    rw [hc.u i hi, hd.step.1, hd.step.2, hd.solution i hi]
  · dsimp only at a1 b1 ⊢
    rw [a1, b1, hc.time, hc.step.1, hc.step.2]
  · dsimp only at a1 b1 a6 b6 a7 b7 a8 b8 ⊢
    have hw : (State.unflatten e.first.grid (CoupledEngine.finish r.coupled.first.uVector d.1).solution) i j =
        (State.unflatten e'.first.grid (CoupledEngine.finish r'.coupled.first.uVector d'.1).solution) i j := by
      rw [h.grid]
      refine hd.solution _ ?_
      rw [hN]
      interval_cases j <;> omega
    have hdis := (hm.2 i hi j hj).1
    change r.state.displacement i j = r'.state.displacement i j at hdis
    rw [a7, b7, a6, b6, a8, b8, a1, b1, hw, h.grid, hc.time, hc.step.1, hc.step.2, ht, hdis]
    exact ⟨rfl, rfl, rfl⟩
  · exact sameScalar_set (s := State.withVelocity e.first.grid r.state
        (CoupledEngine.finish r.coupled.first.uVector d.1).solution
        (CoupledEngine.finish r.coupled.first.uVector d.1).first.currentTime true)
      (s' := State.withVelocity e'.first.grid r'.state
        (CoupledEngine.finish r'.coupled.first.uVector d'.1).solution
        (CoupledEngine.finish r'.coupled.first.uVector d'.1).first.currentTime true) hs hd.solutionT

include h hdim hops hpos hpos' hb hb' in
theorem coupled_steps_pair (hN : e.first.grid.nodesCount = e.first.ops.nodesCount) (fuel fuel' n : ℕ)
    (r r' q q' : CoupledEngine.Run ℝ V) (hr : SameRun e.first.ops.nodesCount dt r r')
    (h1 : e.steps fuel n r = .ok q) (h1' : e'.steps fuel' n r' = .ok q') :
    SameRun e.first.ops.nodesCount dt q q' := by
  induction n generalizing r r' with
  | zero => cases h1; cases h1'; exact hr
  | succ n ih =>
    obtain ⟨s, h2, h1⟩ := bind_inv _ _ _ h1
    obtain ⟨s', h2', h1'⟩ := bind_inv _ _ _ h1'
    exact ih _ _ (coupled_step_pair e e' h hdim hops D dt J hpos hpos' hb hb' hN fuel fuel' _ _ _ _ hr h2 h2')
      h1 h1'

include h hdim hops hpos hpos' hb hb' in
theorem coupled_outputs_pair (hN : e.first.grid.nodesCount = e.first.ops.nodesCount) (fuel fuel' : ℕ)
    (l : List ℤ) (r r' q q' : CoupledEngine.Run ℝ V) (rs rs' : List (State ℝ))
    (hr : SameRun e.first.ops.nodesCount dt r r')
    (h1 : e.outputs fuel l r = .ok (rs, q)) (h1' : e'.outputs fuel' l r' = .ok (rs', q')) :
    List.Forall₂ (fun s s' => SameMotion e.first.ops.nodesCount s.toSnapshot s'.toSnapshot ∧
      SameScalar e.first.ops.nodesCount s.scalar s'.scalar) rs rs' := by
  induction l generalizing r r' rs rs' with
  | nil => cases h1; cases h1'; exact .nil
  | cons n l ih =>
    obtain ⟨s, h2, h1⟩ := bind_inv _ _ _ h1
    obtain ⟨s', h2', h1'⟩ := bind_inv _ _ _ h1'
    have hs := coupled_steps_pair e e' h hdim hops D dt J hpos hpos' hb hb' hN fuel fuel' _ _ _ _ _ hr h2 h2'
    change (e.outputs fuel l { s with store := (State.copy e.first.grid s.state s.store).2 }).bind
      (fun t => .ok ((State.copy e.first.grid s.state s.store).1 :: t.1, t.2)) = _ at h1
    change (e'.outputs fuel' l { s' with store := (State.copy e'.first.grid s'.state s'.store).2 }).bind
      (fun t => .ok ((State.copy e'.first.grid s'.state s'.store).1 :: t.1, t.2)) = _ at h1'
    obtain ⟨t, h3, h1⟩ := bind_inv _ _ _ h1
    obtain ⟨t', h3', h1'⟩ := bind_inv _ _ _ h1'
    cases h1
    cases h1'
    have c1 := copy_snapshot e.first.grid s.state s.store
    have c1' := copy_snapshot e'.first.grid s'.state s'.store
    refine .cons ⟨?_, ?_⟩ (ih { s with store := (State.copy e.first.grid s.state s.store).2 }
      { s' with store := (State.copy e'.first.grid s'.state s'.store).2 } _ _
      ⟨hs.coupled, hs.motion, hs.scalar⟩ h3 h3')
    · rw [c1, c1']; exact hs.motion
    · have d1 : (State.copy e.first.grid s.state s.store).1.scalar = s.state.scalar := congrArg Snapshot.scalar c1
      have d1' : (State.copy e'.first.grid s'.state s'.store).1.scalar = s'.state.scalar :=
        congrArg Snapshot.scalar c1'
      rw [d1, d1']; exact hs.scalar

end pair

theorem start_pair {V : Type} (e e' : CoupledEngine ℝ) (h : SameProblem e e') (dt : ℝ)
    (a : Engine.Arguments ℝ) (x : ℕ → ℝ) (first second first' second' : SolverState ℝ)
    (h1 : first.timeStep = dt ∧ first'.timeStep = dt) (h2 : second.timeStep = dt ∧ second'.timeStep = dt)
    (h3 : first.currentTime = first'.currentTime) (h4 : first.tVector = first'.tVector)
    (h5 : first.pVector = first'.pVector) (store store' : ProductStore ℝ V) (c c' : Coupled ℝ × State ℝ)
    (hs : e.start a x first second = .ok c) (hs' : e'.start a x first' second' = .ok c') :
    SameRun e.first.ops.nodesCount dt ⟨c.1, c.2, store⟩ ⟨c'.1, c'.2, store'⟩ := by
  have hit : ∀ (E : Engine ℝ) (s t : SolverState ℝ), E.iterate s = .ok t → t.timeStep = s.timeStep ∧
      t.currentTime = s.currentTime ∧ t.uVector = s.uVector ∧ t.vVector = s.vVector ∧ t.tVector = s.tVector ∧
      t.pVector = s.pVector := by
    intro E s t h
    unfold Engine.iterate at h
    cases h1 : s.iterate E.cls E.kind E.ops E.boundaries with
    | error err => rw [h1] at h; cases h
    | ok s1 =>
      rw [h1] at h
      obtain rfl : s1 = t := by simpa [liftStatement] using h
      unfold SolverState.iterate at h1
      cases hi : E.cls.iterateVariables s with
      | none =>
        rw [hi] at h1
        obtain rfl : s = s1 := by simpa using h1
        exact ⟨rfl, rfl, rfl, rfl, rfl, rfl⟩
      | some var' =>
        rw [hi] at h1
        obtain ⟨S, -, rfl⟩ := updateSystem_ok _ _ _ _ _ _ h1
        exact ⟨rfl, rfl, rfl, rfl, rfl, rfl⟩
  dsimp only [CoupledEngine.start] at hs hs'
  obtain ⟨f, hf, hs⟩ := bind_inv _ _ _ hs
  obtain ⟨g, hg, hs⟩ := bind_inv _ _ _ hs
  obtain ⟨f', hf', hs'⟩ := bind_inv _ _ _ hs'
  obtain ⟨g', hg', hs'⟩ := bind_inv _ _ _ hs'
  cases hs
  cases hs'
  obtain ⟨a1, a2, a3, a4, a5, a6⟩ := hit _ _ _ hf
  obtain ⟨b1, b2, b3, b4, b5, b6⟩ := hit _ _ _ hf'
  obtain ⟨c1, -⟩ := hit _ _ _ hg
  obtain ⟨d1, -⟩ := hit _ _ _ hg'
  rw [h.state, h.grid] at b1 b2 b3 b4 b5 b6 d1
  have hsc : ∀ y : ScalarField ℝ, SameScalar e.first.ops.nodesCount y y := by
    intro y; cases y <;> simp [SameScalar]
  rw [h.state, h.grid]
  cases hst : e.stateKind <;> simp only [hst] at a1 a2 a3 a4 a5 a6 b1 b2 b3 b4 b5 b6 c1 d1 ⊢ <;>
    exact ⟨⟨⟨a1.trans h1.1, b1.trans h1.2⟩, ⟨c1.trans h2.1, d1.trans h2.2⟩, by rw [a2, b2, h3],
      fun r _ => by rw [a3, b3], fun r _ => by rw [a4, b4], fun r _ => by first | rw [a5, b5, h4] | rw [a5, b5],
      fun r _ => by first | rw [a6, b6, h5] | rw [a6, b6], fun r _ => rfl, fun r _ => rfl⟩,
      ⟨rfl, fun _ _ _ _ => ⟨rfl, rfl, rfl⟩⟩, hsc _⟩

/-- C118: two runs of a coupled problem from the same initial state, with any of the two methods, any
optimiser and any inverse meeting their contracts. The law is convex and depends on the velocity only, nothing
is exchanged on the boundary of the second field, the systems of a step are symmetric and positive. The states
returned show the same body and the same field at the same times. -/
theorem C118_methods {V : Type} (e e' : CoupledEngine ℝ) (h : SameProblem e e')
    (hk : e.first.kind ≠ .quasistaticRelaxation) (hk' : e.second.kind ≠ .quasistaticRelaxation)
    (hdim : e.first.ops.dimension = 2) (hops : e.second.ops = e.first.ops)
    (hkind : e.first.kind.dimensionIn 2 = 2) (hkind' : e.second.kind.dimensionIn 2 = 1)
    (hN : e.first.grid.nodesCount = e.first.ops.nodesCount)
    (inv inv' : ℕ → (ℕ → ℕ → ℝ) → ℕ → ℕ → ℝ) (hinv : InvContract inv) (hinv' : InvContract inv')
    (m m₁ m₂ : ContactSetting ℝ) (hsqrt : m.sqrt = Real.sqrt)
    (j : ℝ → ℝ → ℝ → ℝ) (hj : ∀ a b c b' c', j a b c = j a b' c')
    (hconv : ∀ b c, Convex1 fun x => j x b c) (hcond : m.conditions = frictionless j)
    (hin : Inert m₁.conditions) (hin' : Inert m₂.conditions)
    (D D' : ℕ → Prop) [DecidablePred D] [DecidablePred D'] (g : ℕ → ℝ)
    (hv : ValidBoundaries e.first.ops.nodesCount e.first.boundaries)
    (hd : DirichletData e.first.ops.nodesCount 2 e.first.boundaries D fun _ => 0)
    (hv' : ValidBoundaries e.first.ops.nodesCount e.second.boundaries)
    (hd' : DirichletData e.first.ops.nodesCount 1 e.second.boundaries D' g)
    (he : CoupledOptimising e m m₁ D) (he' : CoupledOptimising e' m m₂ D) (C : ℕ)
    (hC : C ≤ e.first.ops.nodesCount) (hap : SupportsApart e.first.ops.nodesCount C 2 D m.surfaces)
    (hlhs : ∀ dt, 0 < dt → ∀ var lhs, var.timeStep = some dt →
      updateLhs e.first.ops var e.first.kind = .ok lhs →
      (∀ r < 2 * e.first.ops.nodesCount, ∀ s < 2 * e.first.ops.nodesCount, lhs r s = lhs s r) ∧
      ∀ x : ℕ → ℝ, Still (2 * e.first.ops.nodesCount) D x → (∃ r < 2 * e.first.ops.nodesCount, x r ≠ 0) →
        0 < quad (2 * e.first.ops.nodesCount) lhs x)
    (hlhs' : ∀ dt, 0 < dt → ∀ var lhs, var.timeStep = some dt →
      updateLhs e.first.ops var e.second.kind = .ok lhs →
      (∀ r < e.first.ops.nodesCount, ∀ s < e.first.ops.nodesCount, lhs r s = lhs s r) ∧
      ∀ x : ℕ → ℝ, Still e.first.ops.nodesCount D' x → (∃ r < e.first.ops.nodesCount, x r ≠ 0) →
        0 < quad e.first.ops.nodesCount lhs x)
    (dt : ℝ) (hdt : 0 < dt) (a : Engine.Arguments ℝ) (x : ℕ → ℝ)
    (ha : HeldOnContact e.first.ops.nodesCount 2 D (fun _ => 0) m.surfaces
      (State.flatten e.first.grid a.initialVelocity))
    (first second first' second' : SolverState ℝ)
    (hi : solverInit inv e.first.cls e.first.kind e.first.ops e.first.boundaries C false dt = .ok first)
    (hi2 : solverInit inv e.second.cls e.second.kind e.second.ops e.second.boundaries C false dt = .ok second)
    (hi' : solverInit inv' e'.first.cls e.first.kind e.first.ops e.first.boundaries C false dt = .ok first')
    (hi2' : solverInit inv' e'.second.cls e.second.kind e.second.ops e.second.boundaries C false dt =
      .ok second')
    (store store' : ProductStore ℝ V) (fuel fuel' : ℕ) (rs rs' : List (State ℝ))
    (r r' : CoupledEngine.Run ℝ V)
    (hrun : e.solve fuel a x first second store = .ok (rs, r))
    (hrun' : e'.solve fuel' a x first' second' store' = .ok (rs', r')) :
    List.Forall₂ (fun s s' => SameMotion e.first.ops.nodesCount s.toSnapshot s'.toSnapshot ∧
      SameScalar e.first.ops.nodesCount s.scalar s'.scalar) rs rs' := by
  obtain ⟨s₁, s₂, p1, p2, p3⟩ := C118_balanced (V := V) e hk hk' hdim hops hkind hkind' inv hinv m m₁ hsqrt j hj
    hconv hcond hin D D' g hv hd hv' hd' he C hC hap hlhs hlhs'
  obtain ⟨t₁, t₂, q1, q2, q3⟩ := C118_balanced (V := V) e' (by rw [h.kind]; exact hk) (by rw [h.kind']; exact hk')
    (by rw [h.ops]; exact hdim) (by rw [h.ops, h.ops', hops]) (by rw [h.kind]; exact hkind)
    (by rw [h.kind']; exact hkind') inv' hinv' m m₂ hsqrt j hj hconv hcond hin' D D' g
    (by rw [h.ops, h.boundaries]; exact hv) (by rw [h.ops, h.boundaries]; exact hd)
    (by rw [h.ops, h.boundaries']; exact hv') (by rw [h.ops, h.boundaries']; exact hd') he' C
    (by rw [h.ops]; exact hC) (by rw [h.ops]; exact hap) (by rw [h.ops, h.kind]; exact hlhs)
    (by rw [h.ops, h.kind']; exact hlhs')
  rw [p3 fuel dt a x first second store hi hi2 ha] at hrun
  rw [q3 fuel' dt a x first' second' store' (by rw [h.kind, h.ops, h.boundaries]; exact hi')
    (by rw [h.kind', h.ops', h.boundaries']; exact hi2') (by rw [h.ops, h.grid]; exact ha)] at hrun'
  have hsame : SameProblem (e.withSolve s₁ s₂) (e'.withSolve t₁ t₂) :=
    ⟨h.grid, h.kind, h.ops, h.boundaries, h.kind', h.ops', h.boundaries', h.state, h.exceeds⟩
  unfold CoupledEngine.solve at hrun hrun'
  obtain ⟨c, hs, hrun⟩ := bind_inv _ _ _ hrun
  obtain ⟨c', hs', hrun'⟩ := bind_inv _ _ _ hrun'
  have hpos : ∀ var S, var.timeStep = some dt →
      e.first.kind.update e.first.ops e.first.boundaries var = .ok S →
      PositiveForm (2 * e.first.ops.nodesCount) S.lhs := by
    intro var S hvar hu
    obtain ⟨lhs, rhs, h2, -, h3⟩ := update_eliminated _ _ _ _ _ hu
    rw [hdim, hkind] at h3
    rw [h3]
    exact C13_positive _ 2 e.first.boundaries ⟨lhs, rhs⟩ D (fun _ => 0) hv hd (hlhs dt hdt var lhs hvar h2).2
  have hpos' : ∀ var S, var.timeStep = some dt →
      e.second.kind.update e.second.ops e.second.boundaries var = .ok S →
      PositiveForm e.first.ops.nodesCount S.lhs := by
    intro var S hvar hu
    rw [hops] at hu
    obtain ⟨lhs, rhs, h2, -, h3⟩ := update_eliminated _ _ _ _ _ hu
    rw [hdim, hkind'] at h3
    rw [h3]
    have := C13_positive _ 1 e.second.boundaries ⟨lhs, rhs⟩ D' g hv' hd'
      (by rw [Nat.one_mul]; exact (hlhs' dt hdt var lhs hvar h2).2)
    rw [Nat.one_mul] at this
    exact this
  have q1' := q1 dt hdt
  rw [h.ops] at q1'
  have q2' := q2 dt hdt
  rw [h.ops] at q2'
  have hinit : ∀ (inv : ℕ → (ℕ → ℕ → ℝ) → ℕ → ℕ → ℝ) (cls : SolverClass) (kind : StatementKind)
      (ops : Operators ℝ) (bs : List (CondBoundary ℝ)) (s : SolverState ℝ),
      solverInit inv cls kind ops bs C false dt = .ok s →
      s.timeStep = dt ∧ s.currentTime = 0 ∧ s.tVector = (fun _ => 0) ∧ s.pVector = fun _ => 0 := by
    intro inv cls kind ops bs s h
    unfold solverInit at h
    obtain ⟨S, hS, h⟩ := ok_of_bind _ _ _ h
    cases h
    exact ⟨rfl, rfl, rfl, rfl⟩
  obtain ⟨i1, i2, i3, i4⟩ := hinit _ _ _ _ _ _ hi
  obtain ⟨j1, j2, j3, j4⟩ := hinit _ _ _ _ _ _ hi'
  obtain ⟨k1, -⟩ := hinit _ _ _ _ _ _ hi2
  obtain ⟨l1, -⟩ := hinit _ _ _ _ _ _ hi2'
  have hst := start_pair (V := V) (e.withSolve s₁ s₂) (e'.withSolve t₁ t₂) hsame dt a x first second first' second'
    ⟨i1, j1⟩ ⟨k1, l1⟩ (by rw [i2, j2]) (by rw [i3, j3]) (by rw [i4, j4]) store store' c c' hs hs'
  refine coupled_outputs_pair (e.withSolve s₁ s₂) (e'.withSolve t₁ t₂) hsame hdim hops D dt _ hpos hpos'
    ⟨p1 dt hdt, p2 dt hdt⟩ ⟨?_, ?_⟩ hN fuel fuel' _ _ _ r r' rs rs' hst hrun hrun'
  · change ContactSolve (e'.withSolve t₁ t₂).first (2 * e'.first.ops.nodesCount) D dt _
    rw [h.ops]
    exact q1'
  · change ExactSolve (e'.withSolve t₁ t₂).second e'.first.ops.nodesCount dt
    rw [h.ops]
    exact q2'

/-- C118 for thermoelastic bodies on triangular meshes, in contact with an obstacle of the slope law and
insulated. -/
theorem C118_thermoelastic_methods {V : Type} (e e' : CoupledEngine ℝ) (h : SameProblem e e') (D D' : ℕ → Prop)
    [DecidablePred D] [DecidablePred D'] (he : Thermoelastic e D D')
    (hN : e.first.grid.nodesCount = e.first.ops.nodesCount) {elements : List (List ℕ)} {nodes : ℕ → ℕ → ℝ}
    (hve : ValidElements 2 e.first.ops.nodesCount elements) (hnd : Nondegenerate2 elements nodes)
    (hall : ∀ p < e.first.ops.nodesCount, ∃ t ∈ elements, p ∈ t)
    (density mu lam theta zeta : ℝ) (hdensity : 0 < density) (hmu : 0 ≤ mu) (hlam : 0 ≤ lam)
    (htheta : 0 ≤ theta) (hzeta : 0 ≤ zeta)
    (hacc : e.first.ops.acceleration =
      Plane.acceleration e.first.ops.nodesCount (basicMatrices2 elements nodes).U density)
    (hel : e.first.ops.elasticity =
      Plane.constitutive e.first.ops.nodesCount (basicMatrices2 elements nodes).W mu lam)
    (hvis : e.first.ops.viscosity =
      Plane.constitutive e.first.ops.nodesCount (basicMatrices2 elements nodes).W theta zeta)
    (κ : ℕ → ℕ → ℝ) (hsym : κ 0 1 = κ 1 0)
    (hκ : ∀ z : ℕ → ℝ, 0 ≤ ∑ k ∈ Finset.range 2, ∑ l ∈ Finset.range 2, κ k l * (z k * z l))
    (hcond : e.first.ops.thermalConductivity = Plane.conductivity (basicMatrices2 elements nodes).W κ)
    (inv inv' : ℕ → (ℕ → ℕ → ℝ) → ℕ → ℕ → ℝ) (hinv : InvContract inv) (hinv' : InvContract inv')
    (slope : ℝ) (hslope : 0 ≤ slope) (surfaces : List (Surface ℝ))
    (C : ℕ) (hC : C ≤ e.first.ops.nodesCount) (hap : SupportsApart e.first.ops.nodesCount C 2 D surfaces)
    (m₁ m₂ : ContactSetting ℝ) (hin : Inert m₁.conditions) (hin' : Inert m₂.conditions)
    (hopt : CoupledOptimising e ⟨Real.sqrt, frictionless (slopePotential slope), nodes, surfaces⟩ m₁ D)
    (hopt' : CoupledOptimising e' ⟨Real.sqrt, frictionless (slopePotential slope), nodes, surfaces⟩ m₂ D)
    (dt : ℝ) (hdt : 0 < dt) (a : Engine.Arguments ℝ) (x : ℕ → ℝ)
    (ha : HeldOnContact e.first.ops.nodesCount 2 D (fun _ => 0) surfaces
      (State.flatten e.first.grid a.initialVelocity))
    (first second first' second' : SolverState ℝ)
    (hi : solverInit inv e.first.cls e.first.kind e.first.ops e.first.boundaries C false dt = .ok first)
    (hi2 : solverInit inv e.second.cls e.second.kind e.second.ops e.second.boundaries C false dt = .ok second)
    (hi' : solverInit inv' e'.first.cls e.first.kind e.first.ops e.first.boundaries C false dt = .ok first')
    (hi2' : solverInit inv' e'.second.cls e.second.kind e.second.ops e.second.boundaries C false dt =
      .ok second')
    (store store' : ProductStore ℝ V) (fuel fuel' : ℕ) (rs rs' : List (State ℝ))
    (r r' : CoupledEngine.Run ℝ V)
    (hrun : e.solve fuel a x first second store = .ok (rs, r))
    (hrun' : e'.solve fuel' a x first' second' store' = .ok (rs', r')) :
    List.Forall₂ (fun s s' => SameMotion e.first.ops.nodesCount s.toSnapshot s'.toSnapshot ∧
      SameScalar e.first.ops.nodesCount s.scalar s'.scalar) rs rs' := by
  obtain ⟨o1, o2, o3, o4, -⟩ := C71_operators2 hve hnd density mu lam theta zeta 0 hdensity.le hmu hlam
    htheta hzeta
  rw [← hacc] at o1 o4
  rw [← hel] at o2
  rw [← hvis] at o3
  have hdef : DefiniteOn (2 * e.first.ops.nodesCount) D e.first.ops.acceleration := by
    rw [hacc]; exact (C74_mass2 hve hnd density hdensity hall D).1
  have hdef' : DefiniteOn e.first.ops.nodesCount D' e.first.ops.acceleration := by
    rw [hacc]; exact (C74_mass2 hve hnd density hdensity hall D').2
  have hAs : ∀ r < 2 * e.first.ops.nodesCount, ∀ s < 2 * e.first.ops.nodesCount,
      e.first.ops.viscosity r s = e.first.ops.viscosity s r := by
    rw [hvis]; exact C26_symmetric hve hnd theta zeta
  have hcon : StoresEnergy e.first.ops.nodesCount e.first.ops.thermalConductivity := by
    obtain ⟨-, c2, c3, -⟩ := C28_conduction2 hve hnd κ
    rw [hcond]
    refine ⟨c2 fun k hk l hl => ?_, fun x => by rw [quad_eq_form]; exact c3 hκ x⟩
    interval_cases k <;> interval_cases l <;> simp [hsym]
  exact C118_methods e e' h (by rw [he.first]; nofun) (by rw [he.second]; nofun) he.dimension he.ops
    (by rw [he.first]; rfl) (by rw [he.second]; rfl) hN inv inv' hinv hinv'
    ⟨Real.sqrt, frictionless (slopePotential slope), nodes, surfaces⟩ m₁ m₂ rfl (slopePotential slope)
    (fun _ _ _ _ _ => rfl) (fun b c => C47_convex slope b c hslope) rfl hin hin' D D' (fun _ => 0) he.boundaries
    he.supports he.boundaries' he.kept hopt hopt' C hC hap
    (by
      rw [he.first]
      exact fun dt hdt var lhs hvar h => dynamic_lhs e.first.ops var lhs dt hdt hvar h o1 hdef o3 hAs o2)
    (by
      rw [he.second]
      exact fun dt hdt var lhs hvar h => heat_lhs e.first.ops var lhs dt hdt hvar h o4 hdef' hcon)
    dt hdt a x ha first second first' second' hi hi2 hi' hi2' store store' fuel fuel' rs rs' r r' hrun hrun'

/-- C118 for piezoelectric bodies without inertia on triangular meshes, in contact with an obstacle of the
slope law and without surface charges. -/
theorem C118_piezoelectric_methods {V : Type} (e e' : CoupledEngine ℝ) (h : SameProblem e e')
    (D D' : ℕ → Prop) [DecidablePred D] [DecidablePred D'] (g : ℕ → ℝ) (he : Piezoelectric e D D' g)
    (hN : e.first.grid.nodesCount = e.first.ops.nodesCount) {elements : List (List ℕ)} {nodes : ℕ → ℕ → ℝ}
    (hve : ValidElements 2 e.first.ops.nodesCount elements) (hnd : Nondegenerate2 elements nodes)
    (mu lam theta zeta : ℝ) (hmu : 0 ≤ mu) (hlam : 0 ≤ lam) (htheta : 0 < theta) (hzeta : 0 ≤ zeta)
    (hel : e.first.ops.elasticity =
      Plane.constitutive e.first.ops.nodesCount (basicMatrices2 elements nodes).W mu lam)
    (hvis : e.first.ops.viscosity =
      Plane.constitutive e.first.ops.nodesCount (basicMatrices2 elements nodes).W theta zeta)
    (hh : ∀ p < e.first.ops.nodesCount,
      Held elements (fun q => q < e.first.ops.nodesCount ∧ D q ∧ D (e.first.ops.nodesCount + q)) p)
    (κ : ℕ → ℕ → ℝ) (hsym : κ 0 1 = κ 1 0) (p : ℝ) (hp : 0 < p)
    (hκ : ∀ z : ℕ → ℝ, p * (z 0 ^ 2 + z 1 ^ 2) ≤
      ∑ k ∈ Finset.range 2, ∑ l ∈ Finset.range 2, κ k l * (z k * z l))
    (hper : e.first.ops.permittivity = Plane.conductivity (basicMatrices2 elements nodes).W κ)
    (hj : ∀ p < e.first.ops.nodesCount, Joined 3 elements (fun q => q < e.first.ops.nodesCount ∧ D' q) p)
    (inv inv' : ℕ → (ℕ → ℕ → ℝ) → ℕ → ℕ → ℝ) (hinv : InvContract inv) (hinv' : InvContract inv')
    (slope : ℝ) (hslope : 0 ≤ slope) (surfaces : List (Surface ℝ))
    (C : ℕ) (hC : C ≤ e.first.ops.nodesCount) (hap : SupportsApart e.first.ops.nodesCount C 2 D surfaces)
    (m₁ m₂ : ContactSetting ℝ) (hin : Inert m₁.conditions) (hin' : Inert m₂.conditions)
    (hopt : CoupledOptimising e ⟨Real.sqrt, frictionless (slopePotential slope), nodes, surfaces⟩ m₁ D)
    (hopt' : CoupledOptimising e' ⟨Real.sqrt, frictionless (slopePotential slope), nodes, surfaces⟩ m₂ D)
    (dt : ℝ) (hdt : 0 < dt) (a : Engine.Arguments ℝ) (x : ℕ → ℝ)
    (ha : HeldOnContact e.first.ops.nodesCount 2 D (fun _ => 0) surfaces
      (State.flatten e.first.grid a.initialVelocity))
    (first second first' second' : SolverState ℝ)
    (hi : solverInit inv e.first.cls e.first.kind e.first.ops e.first.boundaries C false dt = .ok first)
    (hi2 : solverInit inv e.second.cls e.second.kind e.second.ops e.second.boundaries C false dt = .ok second)
    (hi' : solverInit inv' e'.first.cls e.first.kind e.first.ops e.first.boundaries C false dt = .ok first')
    (hi2' : solverInit inv' e'.second.cls e.second.kind e.second.ops e.second.boundaries C false dt =
      .ok second')
    (store store' : ProductStore ℝ V) (fuel fuel' : ℕ) (rs rs' : List (State ℝ))
    (r r' : CoupledEngine.Run ℝ V)
    (hrun : e.solve fuel a x first second store = .ok (rs, r))
    (hrun' : e'.solve fuel' a x first' second' store' = .ok (rs', r')) :
    List.Forall₂ (fun s s' => SameMotion e.first.ops.nodesCount s.toSnapshot s'.toSnapshot ∧
      SameScalar e.first.ops.nodesCount s.scalar s'.scalar) rs rs' := by
  obtain ⟨-, o2, -, -, -⟩ := C71_operators2 hve hnd 0 mu lam theta zeta 0 le_rfl hmu hlam
    htheta.le hzeta
  obtain ⟨-, o3, -, -, -⟩ := C71_operators2 hve hnd 0 theta zeta mu lam 0 le_rfl htheta.le hzeta hmu hlam
  rw [← hel] at o2
  rw [← hvis] at o3
  have hdef : DefiniteOn (2 * e.first.ops.nodesCount) D e.first.ops.viscosity := by
    rw [hvis]; exact C74_elastic2 hve hnd theta zeta htheta hzeta D hh
  obtain ⟨-, c2, c3, -⟩ := C63_permittivity hve hnd κ
  have o4 : StoresEnergy e.first.ops.nodesCount e.first.ops.permittivity := by
    rw [hper]
    refine ⟨c2 fun k hk l hl => ?_, fun x => ?_⟩
    · interval_cases k <;> interval_cases l <;> simp [hsym]
    · rw [quad_eq_form]
      exact c3 (fun z => le_trans (by positivity) (hκ z)) x
  have hdef' : DefiniteOn e.first.ops.nodesCount D' e.first.ops.permittivity := by
    rw [hper]; exact permittivity_definite hve hnd κ p hp hκ D' hj
  exact C118_methods e e' h (by rw [he.first]; nofun) (by rw [he.second]; nofun) he.dimension he.ops
    (by rw [he.first]; rfl) (by rw [he.second]; rfl) hN inv inv' hinv hinv'
    ⟨Real.sqrt, frictionless (slopePotential slope), nodes, surfaces⟩ m₁ m₂ rfl (slopePotential slope)
    (fun _ _ _ _ _ => rfl) (fun b c => C47_convex slope b c hslope) rfl hin hin' D D' g he.boundaries
    he.supports he.boundaries' he.electrodes hopt hopt' C hC hap
    (by
      rw [he.first]
      exact fun dt hdt var lhs hvar h => quasistatic_lhs e.first.ops var lhs dt hdt hvar h o3 hdef o2)
    (by
      rw [he.second]
      exact fun dt hdt var lhs hvar h => charge_lhs e.first.ops var lhs h o4 hdef')
    dt hdt a x ha first second first' second' hi hi2 hi' hi2' store store' fuel fuel' rs rs' r r' hrun hrun'

/-! ### The heated triangle and the charged square -/

/-- The law of the second field in the examples. -/
noncomputable def nothingExchanged : ContactSetting ℝ := ⟨Real.sqrt, ⟨fun _ _ _ => 0, fun _ _ _ => -1,
  fun _ _ _ => 0, fun _ _ _ => -1⟩, fun _ _ => 0, []⟩

theorem nothing_inert : Inert nothingExchanged.conditions := ⟨fun _ _ _ => rfl, fun _ _ _ => rfl⟩

theorem no_boundaries : ValidBoundaries 3 ([] : List (CondBoundary ℝ)) ∧
    DirichletData 3 1 ([] : List (CondBoundary ℝ)) (fun _ => False) fun _ => 0 := by
  refine ⟨fun b hb => by simp at hb, ⟨fun x => ⟨fun h => h.elim, ?_⟩, ?_⟩⟩
  · rintro ⟨v, b, hb, -⟩; simp at hb
  · rintro x v ⟨b, hb, -⟩; simp at hb

/-- All hypotheses of `C118_thermoelastic` and `C118_thermoelastic_methods` are met by the heated triangle,
simulated once with the condensed and once with the global method: the runs return, what they return is the
same, and it follows the motion. -/
example {V : Type} (store store' : ProductStore ℝ V) : ∃ (e e' : CoupledEngine ℝ)
      (inv : ℕ → (ℕ → ℕ → ℝ) → ℕ → ℕ → ℝ),
    e.first.cls = .dynamicSchur ∧ e'.first.cls = .dynamicGlobal ∧ SameProblem e e' ∧
    e.first.ops = heatedOps ∧ Thermoelastic e (fun r => r < 2 * 3 ∧ r % 3 = 2) (fun _ => False) ∧
    ∃ (u v θ : ℝ → ℕ → ℝ) (B : ℝ), ∀ (dt : ℝ) (a : Engine.Arguments ℝ), 0 < dt →
      a.initialDisplacement = (fun _ _ => 0) → a.initialVelocity = (fun _ _ => 0) →
      ∃ (first second first' second' : SolverState ℝ) (rs rs' : List (State ℝ)) (r r' : CoupledEngine.Run ℝ V),
        solverInit inv .dynamicSchur e.first.kind heatedOps hangingBoundaries 2 false dt = .ok first ∧
        solverInit inv .dynamicGlobal e.first.kind heatedOps hangingBoundaries 2 false dt = .ok first' ∧
        e.solve 11 a (fun _ => 1 / 4) first second store = .ok (rs, r) ∧
        e'.solve 11 a (fun _ => 1 / 4) first' second' store' = .ok (rs', r') ∧
        List.Forall₂ (fun s s' => SameMotion 3 s.toSnapshot s'.toSnapshot ∧ SameScalar 3 s.scalar s'.scalar)
          rs rs' ∧
        ∀ s ∈ rs, s.time ≤ 1 → ∃ ϑ, s.scalar = .temperature ϑ ∧
          (thermalBody e (fun r => r < 2 * 3 ∧ r % 3 = 2) (fun _ => False) (fun y =>
            contactCostFunctional Real.sqrt (frictionless (slopePotential 10))
              (contactOf 3 hangingNodes (segmentData 2).surfaces 0 (fun _ => 0) fun _ => 0) ⟨2 * 3, y⟩)
            fun _ => 0).distance (State.flatten e.first.grid s.displacement)
            (State.flatten e.first.grid s.velocity) ϑ (u s.time) (v s.time) (θ s.time) ≤ s.time * dt * B := by
  obtain ⟨⟨inv, hinv⟩, ⟨minimise, hm⟩⟩ := contracts_met
  have hall : ∀ p < heatedOps.nodesCount, ∃ t ∈ [[0, 1, 2]], p ∈ t := by
    simp only [heatedOps, hangingOps]; decide
  have hκ : ∀ z : ℕ → ℝ, 0 ≤ ∑ k ∈ Finset.range 2, ∑ l ∈ Finset.range 2,
      (fun k l => if k = l then (1 : ℝ) / 10 else 0) k l * (z k * z l) := by
    intro z
    simp [Finset.sum_range_succ]
    nlinarith [mul_self_nonneg (z 0), mul_self_nonneg (z 1)]
  let e : SolverClass → CoupledEngine ℝ := fun cls =>
    { first := { grid := ⟨3, 2, hangingNodes⟩, cls := cls, kind := .dynamicVelocityWithTemperature
                 ops := heatedOps, boundaries := hangingBoundaries
                 solve := optimisedSolve minimise ⟨Real.sqrt, frictionless (slopePotential 10), hangingNodes,
                   (segmentData 2).surfaces⟩ .dynamicVelocityWithTemperature heatedOps hangingBoundaries 6 }
      second := { grid := ⟨3, 2, hangingNodes⟩, cls := cls, kind := .temperature
                  ops := heatedOps, boundaries := []
                  solve := optimisedSolve minimise nothingExchanged .temperature heatedOps [] 3 }
      stateKind := .temperature, exceeds := fun _ _ _ _ => true }
  have he : ∀ cls, Thermoelastic (e cls) (fun r => r < 2 * 3 ∧ r % 3 = 2) (fun _ => False) := fun cls =>
    ⟨rfl, rfl, rfl, rfl, rfl, hanging_boundaries.1, hanging_boundaries.2, no_boundaries.1, no_boundaries.2⟩
  have hap : ∀ s ∈ (segmentData 2).surfaces, ∀ node ∈ s.edge, node < 2 ∧ ∀ i < 2,
      ¬ (i * 3 + node < 2 * 3 ∧ (i * 3 + node) % 3 = 2) := by
    intro s hs node hn
    simp only [segmentData, List.mem_singleton] at hs
    subst hs
    rcases List.mem_pair.1 hn with h | h <;> exact ⟨by omega, fun i hi => by omega⟩
  have hopt : ∀ cls, CoupledOptimising (e cls) ⟨Real.sqrt, frictionless (slopePotential 10), hangingNodes,
      (segmentData 2).surfaces⟩ nothingExchanged (fun r => r < 2 * 3 ∧ r % 3 = 2) := fun cls =>
    ⟨⟨minimise, hm, rfl⟩, ⟨minimise, hm, rfl⟩, fun _ s hs node hn => (hap s hs node hn).2⟩
  have hsame : SameProblem (e .dynamicSchur) (e .dynamicGlobal) :=
    ⟨rfl, rfl, rfl, rfl, rfl, rfl, rfl, rfl, fun _ _ _ _ _ _ _ _ _ _ _ _ => rfl⟩
  obtain ⟨u, v, -, θ, -, B, -, -, hB⟩ := C118_thermoelastic (V := V) (e .dynamicSchur) _ _ (he _) hanging_mesh.1
    hanging_mesh.2 hall 1 4 5 2 3 (by norm_num) (by norm_num) (by norm_num) (by norm_num) (by norm_num)
    rfl rfl rfl (fun k l => if k = l then 1 / 10 else 0) (by norm_num) hκ rfl inv hinv 10 (by norm_num)
    (segmentData 2).surfaces (by simp [segmentData]) 2 (by change 2 ≤ 3; norm_num)
    (fun s hs node hn => Or.inl (hap s hs node hn)) nothingExchanged nothing_inert (hopt _) 11 1 6
    (by norm_num) (by norm_num)
    (by
      intro s _ t _ r hr
      have hr' : (r : ℝ) + 1 ≤ 6 := by
        have : r < 6 := hr
        have : r + 1 ≤ 6 := this
        exact_mod_cast this
      change |s * ((r : ℝ) + 1) - t * (r + 1)| ≤ 6 * |s - t|
      rw [← sub_mul, abs_mul, abs_of_nonneg (by positivity : (0 : ℝ) ≤ r + 1), mul_comm]
      exact mul_le_mul_of_nonneg_right hr' (abs_nonneg _))
    (fun _ _ => 0) (fun _ _ => 0) (fun _ => 1 / 4) (fun _ _ _ => rfl) (fun _ _ h => h.elim)
  refine ⟨e .dynamicSchur, e .dynamicGlobal, inv, rfl, rfl, hsame, rfl, he _, u, v, θ, B, fun dt a hdt h1 h2 => ?_⟩
  have hinit : ∀ cls, (∃ s, solverInit inv cls .dynamicVelocityWithTemperature heatedOps hangingBoundaries 2
      false dt = .ok s) ∧ ∃ s, solverInit inv cls .temperature heatedOps [] 2 false dt = .ok s :=
    fun cls => ⟨⟨_, rfl⟩, ⟨_, rfl⟩⟩
  obtain ⟨⟨first, hi⟩, second, hi2⟩ := hinit .dynamicSchur
  obtain ⟨⟨first', hi'⟩, second', hi2'⟩ := hinit .dynamicGlobal
  obtain ⟨rs, r, h⟩ := C116_runs (e .dynamicSchur) rfl rfl (Or.inr rfl) (Or.inr rfl) 11 le_rfl a (fun _ => 1 / 4)
    first second store
  obtain ⟨rs', r', h'⟩ := C116_runs (e .dynamicGlobal) rfl rfl (Or.inl rfl) (Or.inl rfl) 11 le_rfl a
    (fun _ => 1 / 4) first' second' store'
  refine ⟨first, second, first', second', rs, rs', r, r', hi, hi', h, h', ?_,
    hB dt a first second store rs r hdt hi hi2 h1 h2 h⟩
  exact C118_thermoelastic_methods (e .dynamicSchur) (e .dynamicGlobal) hsame _ _ (he _) rfl hanging_mesh.1
    hanging_mesh.2 hall 1 4 5 2 3 (by norm_num) (by norm_num) (by norm_num) (by norm_num) (by norm_num)
    rfl rfl rfl (fun k l => if k = l then 1 / 10 else 0) (by norm_num) hκ rfl inv inv hinv hinv 10 (by norm_num)
    (segmentData 2).surfaces 2 (by change 2 ≤ 3; norm_num)
    (fun s hs node hn => Or.inl (hap s hs node hn)) nothingExchanged nothingExchanged nothing_inert nothing_inert
    (hopt _) (hopt _) dt hdt a (fun _ => 1 / 4)
    (fun s hs node hn i hi hD => absurd hD ((hap s hs node hn).2 i hi)) first second first' second' hi hi2 hi'
    hi2' store store' 11 11 rs rs' r r' h h'

/-- All hypotheses of `C118_piezoelectric` and `C118_piezoelectric_methods` are met by the charged square. -/
example {V : Type} (store store' : ProductStore ℝ V) : ∃ (e e' : CoupledEngine ℝ)
      (inv : ℕ → (ℕ → ℕ → ℝ) → ℕ → ℕ → ℝ),
    e.first.cls = .quasistaticSchur ∧ e'.first.cls = .quasistaticGlobal ∧ SameProblem e e' ∧
    e.first.ops = chargedSquareOps ∧ Piezoelectric e (fun r => r < 2 * 4 ∧ 2 ≤ r % 4)
      (fun r => r = 3 ∨ r = 1) (fun r => if r = 1 then 20 else 0) ∧
    ∃ (u φ : ℝ → ℕ → ℝ) (B : ℝ), ∀ (dt : ℝ) (a : Engine.Arguments ℝ), 0 < dt →
      a.initialDisplacement = (fun _ _ => 0) →
      ∃ (first second first' second' : SolverState ℝ) (rs rs' : List (State ℝ)) (r r' : CoupledEngine.Run ℝ V),
        solverInit inv .quasistaticSchur e.first.kind chargedSquareOps heldSquareBoundaries 2 false dt =
          .ok first ∧
        solverInit inv .quasistaticGlobal e.first.kind chargedSquareOps heldSquareBoundaries 2 false dt =
          .ok first' ∧
        e.solve 11 a (fun _ => 0) first second store = .ok (rs, r) ∧
        e'.solve 11 a (fun _ => 0) first' second' store' = .ok (rs', r') ∧
        List.Forall₂ (fun s s' => SameMotion 4 s.toSnapshot s'.toSnapshot ∧ SameScalar 4 s.scalar s'.scalar)
          rs rs' ∧
        ∀ s ∈ rs, s.time ≤ 1 → 0 < s.time → ∃ ϕ, s.scalar = .potential ϕ ∧
          (piezoBody e (fun r => r < 2 * 4 ∧ 2 ≤ r % 4) (fun r => r = 3 ∨ r = 1)
            (fun r => if r = 1 then 20 else 0) fun y =>
            contactCostFunctional Real.sqrt (frictionless (slopePotential 10))
              (contactOf 4 heldSquareNodes lowerSide 0 (fun _ => 0) fun _ => 0) ⟨2 * 4, y⟩).distance
            (State.flatten e.first.grid s.displacement) ϕ (u s.time) (φ s.time) ≤ dt * B := by
  obtain ⟨⟨inv, hinv⟩, ⟨minimise, hm⟩⟩ := contracts_met
  let e : SolverClass → CoupledEngine ℝ := fun cls =>
    { first := { grid := ⟨4, 2, heldSquareNodes⟩, cls := cls, kind := .quasistaticVelocityWithPiezoelectric
                 ops := chargedSquareOps, boundaries := heldSquareBoundaries
                 solve := optimisedSolve minimise ⟨Real.sqrt, frictionless (slopePotential 10), heldSquareNodes,
                   lowerSide⟩ .quasistaticVelocityWithPiezoelectric chargedSquareOps heldSquareBoundaries 8 }
      second := { grid := ⟨4, 2, heldSquareNodes⟩, cls := cls, kind := .piezoelectric
                  ops := chargedSquareOps, boundaries := electrodes
                  solve := optimisedSolve minimise nothingExchanged .piezoelectric chargedSquareOps electrodes 4 }
      stateKind := .piezoelectric, exceeds := fun _ _ _ _ => true }
  have he : ∀ cls, Piezoelectric (e cls) (fun r => r < 2 * 4 ∧ 2 ≤ r % 4) (fun r => r = 3 ∨ r = 1)
      (fun r => if r = 1 then 20 else 0) := fun cls =>
    ⟨rfl, rfl, rfl, rfl, rfl, heldSquare_boundaries.1, heldSquare_boundaries.2, electrodes_data.1,
      electrodes_data.2⟩
  have hap := lowerSide_apart
  have hopt : ∀ cls, CoupledOptimising (e cls) ⟨Real.sqrt, frictionless (slopePotential 10), heldSquareNodes,
      lowerSide⟩ nothingExchanged (fun r => r < 2 * 4 ∧ 2 ≤ r % 4) := fun cls =>
    ⟨⟨minimise, hm, rfl⟩, ⟨minimise, hm, rfl⟩, fun _ s hs node hn => (hap s hs node hn).2⟩
  have hsame : SameProblem (e .quasistaticSchur) (e .quasistaticGlobal) :=
    ⟨rfl, rfl, rfl, rfl, rfl, rfl, rfl, rfl, fun _ _ _ _ _ _ _ _ _ _ _ _ => rfl⟩
  obtain ⟨u, v, φ, B, -, -, hB⟩ := C118_piezoelectric (V := V) (e .quasistaticSchur) _ _ _ (he _)
    heldSquare_mesh.1 heldSquare_mesh.2 4 5 2 3 (by norm_num) (by norm_num) (by norm_num) (by norm_num) rfl rfl
    heldSquare_held _ (by norm_num) 8.3 (by norm_num) charged_permittivity rfl charged_joined inv hinv 10
    (by norm_num) lowerSide 2 (by change 2 ≤ 4; norm_num) (fun s hs node hn => Or.inl (hap s hs node hn))
    nothingExchanged nothing_inert (hopt _) 11 1 8 (by norm_num) (by norm_num)
    (by
      intro s _ t _ r hr
      have hr' : (r : ℝ) + 1 ≤ 8 := by
        have : r < 8 := hr
        have : r + 1 ≤ 8 := this
        exact_mod_cast this
      change |s * ((r : ℝ) + 1) - t * (r + 1)| ≤ 8 * |s - t|
      rw [← sub_mul, abs_mul, abs_of_nonneg (by positivity : (0 : ℝ) ≤ r + 1), mul_comm]
      exact mul_le_mul_of_nonneg_right hr' (abs_nonneg _))
    (fun _ _ => 0) fun _ => 0
  refine ⟨e .quasistaticSchur, e .quasistaticGlobal, inv, rfl, rfl, hsame, rfl, he _, u, φ, B,
    fun dt a hdt h1 => ?_⟩
  have hinit : ∀ cls, (∃ s, solverInit inv cls .quasistaticVelocityWithPiezoelectric chargedSquareOps
      heldSquareBoundaries 2 false dt = .ok s) ∧
      ∃ s, solverInit inv cls .piezoelectric chargedSquareOps electrodes 2 false dt = .ok s :=
    fun cls => ⟨⟨_, rfl⟩, ⟨_, rfl⟩⟩
  obtain ⟨⟨first, hi⟩, second, hi2⟩ := hinit .quasistaticSchur
  obtain ⟨⟨first', hi'⟩, second', hi2'⟩ := hinit .quasistaticGlobal
  obtain ⟨rs, r, h⟩ := C117_runs (e .quasistaticSchur) rfl rfl (Or.inr rfl) (Or.inr rfl) 11 le_rfl a (fun _ => 0)
    first second store
  obtain ⟨rs', r', h'⟩ := C117_runs (e .quasistaticGlobal) rfl rfl (Or.inl rfl) (Or.inl rfl) 11 le_rfl a
    (fun _ => 0) first' second' store'
  have ha : HeldOnContact 4 2 (fun r => r < 2 * 4 ∧ 2 ≤ r % 4) (fun _ => (0 : ℝ)) lowerSide
      (State.flatten (e .quasistaticSchur).first.grid a.initialVelocity) :=
    fun s hs node hn i hi hD => absurd hD ((hap s hs node hn).2 i hi)
  refine ⟨first, second, first', second', rs, rs', r, r', hi, hi', h, h', ?_, fun s hs hT =>
    (hB dt a first second store rs r hdt hi hi2 h1 ha h s hs hT).2⟩
  exact C118_piezoelectric_methods (e .quasistaticSchur) (e .quasistaticGlobal) hsame _ _ _ (he _) rfl
    heldSquare_mesh.1 heldSquare_mesh.2 4 5 2 3 (by norm_num) (by norm_num) (by norm_num) (by norm_num) rfl rfl
    heldSquare_held _ (by norm_num) 8.3 (by norm_num) charged_permittivity rfl charged_joined inv inv hinv hinv 10
    (by norm_num) lowerSide 2 (by change 2 ≤ 4; norm_num) (fun s hs node hn => Or.inl (hap s hs node hn))
    nothingExchanged nothingExchanged nothing_inert nothing_inert
    (hopt _) (hopt _) dt hdt a (fun _ => 0) ha first second first' second' hi hi2 hi'
    hi2' store store' 11 11 rs rs' r r' h h'

end Conmech
