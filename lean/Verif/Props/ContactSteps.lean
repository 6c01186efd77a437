import Verif.Model.OptimisedStep
import Verif.Spec.ContactSteps
import Verif.Lemmas.FreeBlock
import Verif.Props.Motions
/-!
C111: what is computed in a step of a contact problem whose supports touch the contact surfaces.
-/
namespace Conmech
open Spec

section algebra
variable {K : Type} [Field K] [LinearOrder K] [IsStrictOrderedRing K] (N dim : ℕ)
  (bs : List (CondBoundary K)) (S : System K) (D : ℕ → Prop) [DecidablePred D] (g : ℕ → K)

omit [LinearOrder K] [IsStrictOrderedRing K] in
theorem energy_same (n : ℕ) (S : System K) {x y : ℕ → K} (h : ∀ r < n, x r = y r) :
    energy n S x = energy n S y := by
  unfold energy quad
  congr 1
  · congr 1
    refine Finset.sum_congr rfl fun r hr => ?_
    rw [h r (Finset.mem_range.1 hr), Finset.sum_congr rfl fun s hs => by rw [h s (Finset.mem_range.1 hs)]]
  · exact Finset.sum_congr rfl fun r hr => by rw [h r (Finset.mem_range.1 hr)]

/-- A minimiser of the energy of the eliminated system and of a function that does not see the unknowns of
the supports: with the supports at their places it has the least energy among all such fields. -/
theorem held_of_minimises (hv : ValidBoundaries N bs) (hd : DirichletData N dim bs D g)
    (hA : ∀ r < dim * N, ∀ s < dim * N, S.lhs r s = S.lhs s r) (Φ : (ℕ → K) → K)
    (hΦ : ∀ y, Φ (heldAt D g y) = Φ y) (x : ℕ → K)
    (hx : ∀ y, energy (dim * N) (applyDirichlet N dim bs S) x + Φ x ≤
      energy (dim * N) (applyDirichlet N dim bs S) y + Φ y) :
    HeldMinimiser (dim * N) D g (fun y => energy (dim * N) S y + Φ y) (heldAt D g x) ∧
    ∀ r < dim * N, heldAt D g x r = x r := by
  obtain ⟨k, hk⟩ := C101_springs N dim bs S D g hv hd hA
  have hidem : ∀ y, heldAt D g (heldAt D g y) = heldAt D g y := fun y => by
    funext r; by_cases h : D r <;> simp [heldAt, h]
  have hzero : ∀ y, (∑ r ∈ Finset.range (dim * N), if D r then (heldAt D g y r - g r) ^ 2 else 0) = 0 := by
    intro y
    refine Finset.sum_eq_zero fun r _ => ?_
    by_cases h : D r <;> simp [heldAt, h]
  have hnn : ∀ y : ℕ → K, 0 ≤ ∑ r ∈ Finset.range (dim * N), if D r then (y r - g r) ^ 2 else 0 := fun y =>
    Finset.sum_nonneg fun r _ => by split_ifs <;> positivity
  have hmin : ∀ y, energy (dim * N) S (heldAt D g x) +
      1 / 2 * (∑ r ∈ Finset.range (dim * N), if D r then (x r - g r) ^ 2 else 0) + Φ x ≤
      energy (dim * N) S (heldAt D g y) + Φ y := by
    intro y
    have h := hx (heldAt D g y)
    simp only [hk, hidem, hzero, hΦ] at h
    linarith
  refine ⟨⟨fun r hr hD => by simp [heldAt, hD], fun v hvg => ?_⟩, fun r hr => ?_⟩
  · have hvv : ∀ r < dim * N, heldAt D g v r = v r := fun r hr => by
      by_cases h : D r
      · simp [heldAt, h, hvg r hr h]
      · simp [heldAt, h]
    have h1 := hmin v
    have h2 := hnn x
    rw [energy_same (dim * N) S hvv] at h1
    beta_reduce
    rw [hΦ]
    linarith
  · by_cases hD : D r
    · have h1 := hmin x
      have h2 := hnn x
      have h3 : (∑ r ∈ Finset.range (dim * N), if D r then (x r - g r) ^ 2 else 0) = 0 := by linarith
      rw [Finset.sum_eq_zero_iff_of_nonneg (fun r _ => by split_ifs <;> positivity)] at h3
      have h4 := h3 r (Finset.mem_range.2 hr)
      rw [if_pos hD] at h4
      have h5 : x r - g r = 0 := by simpa using h4
      simp only [heldAt, hD, if_true]
      linarith
    · simp [heldAt, hD]

omit [LinearOrder K] [IsStrictOrderedRing K] in
/-- What the condensed method takes for the contact cost is the contact cost of the field with the supports
at their places. -/
theorem condensed_cost (C : ℕ) (hC : C ≤ N) (h0 : 0 < dim) (sqrt : K → K) (c : Conditions K)
    (d : ContactData K) (hdim : d.variableDimension = dim) (hold : d.old.size = dim * N)
    (hap : SupportsApart N C dim D d.surfaces) (hg : HeldOnContact N dim D g d.surfaces d.old.get)
    (xc x : ℕ → K) (hx : IsContactPart N C dim xc x) :
    contactCostFunctional sqrt c d ⟨dim * C, xc⟩ =
      contactCostFunctional sqrt c d ⟨dim * N, heldAt D g x⟩ := by
  rw [contactCostFunctional_eq, contactCostFunctional_eq]
  congr 1
  refine List.map_congr_left fun s hs => ?_
  unfold surfaceCost
  rw [hdim]
  refine quadrature_congr c h0 _ _ _ _ _ _ fun node hnode i hi => ?_
  unfold nodeValue
  simp only [Nat.mul_div_cancel_left _ h0, hold]
  rcases hap s hs node hnode with ⟨h1, h2⟩ | ⟨h1, h2, h3⟩
  · rw [if_pos h1, if_pos (by omega)]
    simp only [heldAt, if_neg (h2 i hi)]
    exact hx i hi node h1
  · rw [if_neg (by omega), if_pos h2]
    simp only [heldAt, if_pos (h3 i hi)]
    exact hg s hs node hnode i hi (h3 i hi)

/-- C111. The condensed method on a body whose supports touch the contact surfaces. If the old values are
the prescribed ones at the supports that touch a contact surface, and the backend minimises the condensed
cost, then what is handed back has the least energy, contact included, among all fields with the prescribed
values. It is what the method found, nothing is overwritten by a different value. -/
theorem C111_condensed (inv : ℕ → (ℕ → ℕ → K) → ℕ → ℕ → K) (hinv : InvContract inv) (C : ℕ) (hC : C ≤ N)
    (h0 : dim = 1 ∨ dim = 2) (hv : ValidBoundaries N bs) (hd : DirichletData N dim bs D g)
    (hA : ∀ r < dim * N, ∀ s < dim * N, S.lhs r s = S.lhs s r)
    (hpos : ∀ x : ℕ → K, (∀ r < dim * N, D r → x r = 0) → (∃ r < dim * N, x r ≠ 0) →
      0 < quad (dim * N) S.lhs x)
    (sqrt : K → K) (c : Conditions K) (d : ContactData K) (hdim : d.variableDimension = dim)
    (hold : d.old.size = dim * N) (hap : SupportsApart N C dim D d.surfaces)
    (hg : HeldOnContact N dim D g d.surfaces d.old.get)
    (minimise : (ℕ → ℕ → K) → (ℕ → K) → (ℕ → K) → ℕ → K) (len : ℕ) (guess : ℕ → K) :
    let s := SchurSolver.init inv N C dim false (applyDirichlet N dim bs S)
    Minimises (fun yc => costFunctional sqrt c d (dim * C) s.matrices.boundary s.nodeForces ⟨dim * C, yc⟩)
      (minimise s.matrices.boundary s.nodeForces (s.truncateFreeNodes len guess)) →
    HeldMinimiser (dim * N) D g (fun y => costFunctional sqrt c d (dim * N) S.lhs S.rhs ⟨dim * N, y⟩)
      (solverSolve (s.solveImpl minimise len) N dim bs guess) ∧
    ∀ r < dim * N, solverSolve (s.solveImpl minimise len) N dim bs guess r = s.solveImpl minimise len guess r := by
  intro s hmin
  have hdpos : 0 < dim := by omega
  have hA' := C13_symmetric N dim bs S D g hv hd hA
  have hpos' : PositiveForm (dim * N) (applyDirichlet N dim bs S).lhs :=
    C13_positive N dim bs S D g hv hd hpos
  obtain ⟨B, hB⟩ := freeBlock_exists N C dim hC _ hpos'
  have e1 : ∀ xc : ℕ → K, costFunctional sqrt c d (dim * C) s.matrices.boundary s.nodeForces
      ⟨dim * C, xc⟩ = energy (dim * C) ⟨s.matrices.boundary, s.nodeForces⟩ xc +
        contactCostFunctional sqrt c d ⟨dim * C, xc⟩ := fun xc =>
    C48_energy sqrt c d (dim * C) ⟨s.matrices.boundary, s.nodeForces⟩ ⟨dim * C, xc⟩
  have hu : solverSolve (s.solveImpl minimise len) N dim bs guess =
      heldAt D g (s.solveImpl minimise len guess) := by
    funext r
    rw [C16_solution_satisfies_dirichlet N dim bs D g _ guess hv hd]
    rfl
  have hidem : ∀ y, heldAt D g (heldAt D g y) = heldAt D g y := fun y => by
    funext r; by_cases h : D r <;> simp [heldAt, h]
  have key := C19_recovered_minimises inv hinv _ N C dim hC h0 B hB hA'
    (fun x _ => by
      by_cases hx : ∃ r < dim * N, x r ≠ 0
      · exact (hpos' x hx).le
      · push Not at hx
        unfold quad
        exact (Finset.sum_eq_zero fun r hr => by rw [hx r (Finset.mem_range.1 hr), zero_mul]).ge)
    (fun x => contactCostFunctional sqrt c d ⟨dim * N, heldAt D g x⟩)
    (fun x => contactCostFunctional sqrt c d ⟨dim * C, x⟩)
    (condensed_cost N dim D g C hC hdpos sqrt c d hdim hold hap hg) minimise len guess
  simp only [Minimises, e1] at hmin
  obtain ⟨k1, k2⟩ := held_of_minimises N dim bs S D g hv hd hA
    (fun x => contactCostFunctional sqrt c d ⟨dim * N, heldAt D g x⟩)
    (fun y => by beta_reduce; rw [hidem]) _ (key hmin)
  rw [hu]
  refine ⟨⟨k1.1, fun v hvg => ?_⟩, k2⟩
  have h1 := k1.2 v hvg
  have e2 : ∀ x : ℕ → K, costFunctional sqrt c d (dim * N) S.lhs S.rhs ⟨dim * N, x⟩ =
      energy (dim * N) S x + contactCostFunctional sqrt c d ⟨dim * N, x⟩ := fun x =>
    C48_energy sqrt c d (dim * N) S ⟨dim * N, x⟩
  have hvv : contactCostFunctional sqrt c d ⟨dim * N, heldAt D g v⟩ =
      contactCostFunctional sqrt c d ⟨dim * N, v⟩ := by
    rw [contactCostFunctional_eq, contactCostFunctional_eq]
    congr 1
    refine List.map_congr_left fun s hs => ?_
    unfold surfaceCost
    rw [hdim]
    refine quadrature_congr c hdpos _ _ _ _ _ _ fun node hnode i hi => ?_
    have hlt : node < N := by rcases hap s hs node hnode with h | h <;> omega
    unfold nodeValue
    simp only [Nat.mul_div_cancel_left _ hdpos, if_pos hlt]
    by_cases hD : D (i * N + node)
    · simp only [heldAt, if_pos hD]
      refine (hvg _ ?_ hD).symm
      calc i * N + node < i * N + N := by omega
        _ = (i + 1) * N := by ring
        _ ≤ dim * N := Nat.mul_le_mul_right _ hi
    · simp only [heldAt, if_neg hD]
  beta_reduce at h1 ⊢
  rw [e2, e2]
  rw [hidem, hvv] at h1
  exact h1

end algebra

section condensed
variable {K : Type} [Field K] [DecidableEq K]

/-- `iterate` keeps the condensed matrices those of the system. -/
theorem iterate_condensed (e : Engine K) (hk : e.kind ≠ .quasistaticRelaxation)
    (inv : ℕ → (ℕ → ℕ → K) → ℕ → ℕ → K) (C dim : ℕ) (dv : Bool) (s s' : SolverState K)
    (h : e.iterate s = .ok s')
    (hs : s.schur = some (SchurSolver.init inv e.ops.nodesCount C dim dv s.system))
    (hvar : ∃ var, var.timeStep = some s.timeStep ∧ e.kind.update e.ops e.boundaries var = .ok s.system) :
    s'.schur = some (SchurSolver.init inv e.ops.nodesCount C dim dv s'.system) ∧
    ∃ var, var.timeStep = some s'.timeStep ∧ e.kind.update e.ops e.boundaries var = .ok s'.system := by
  have hit := e.iterate_ok _ _ h
  have hts : s'.timeStep = s.timeStep := by rw [hit]
  obtain ⟨var, hvt, hu⟩ := hvar
  unfold Engine.iterate at h
  cases h1 : s.iterate e.cls e.kind e.ops e.boundaries with
  | error err => rw [h1] at h; cases h
  | ok s1 =>
    rw [h1] at h
    obtain rfl : s1 = s' := by simpa [liftStatement] using h
    unfold SolverState.iterate at h1
    cases hi : e.cls.iterateVariables s with
    | none =>
      rw [hi] at h1
      obtain rfl : s = s1 := by simpa using h1
      exact ⟨hs, var, hvt, hu⟩
    | some var' =>
      rw [hi] at h1
      obtain ⟨S, hS, h5⟩ := updateSystem_ok _ _ _ _ _ _ h1
      have hvt' : var'.timeStep = some s.timeStep := by
        cases hcls : e.cls <;> rw [hcls] at hi <;>
          simp only [SolverClass.iterateVariables, Option.some.injEq, reduceCtorEq] at hi <;>
          rw [← hi]
      have hl := update_lhs_eq e.kind hk e.ops e.boundaries var var' _ S hu hS (by rw [hvt, hvt'])
      subst h5
      refine ⟨?_, var', hvt', hS⟩
      simp only [hs, Option.map_some]
      congr 1
      simp only [SchurSolver.init, SchurSolver.recalculateForces, hl]

end condensed

section steps
variable {V : Type}

/-- The solver object is up to date: the condensed matrices are those of its system, and the old velocities
at supports that touch a contact surface are the prescribed ones. -/
structure Healthy (inv : ℕ → (ℕ → ℕ → ℝ) → ℕ → ℕ → ℝ) (N C dim : ℕ) (D : ℕ → Prop) (g : ℕ → ℝ)
    (surfaces : List (Surface ℝ)) (s : SolverState ℝ) : Prop where
  condensed : s.schur = some (SchurSolver.init inv N C dim false s.system)
  held : HeldOnContact N dim D g surfaces s.vVector

/-- C111. One call of `solve` of the condensed method for a convex contact law: the result has the least
energy, contact included, among all fields with the prescribed values. -/
theorem C111_solve (inv : ℕ → (ℕ → ℕ → ℝ) → ℕ → ℕ → ℝ) (hinv : InvContract inv)
    (minimise : ℕ → ((ℕ → ℝ) → ℝ) → (ℕ → ℝ) → ℕ → ℝ) (hm : MinimiseContract minimise)
    (m : ContactSetting ℝ) (hsqrt : m.sqrt = Real.sqrt) (kind : StatementKind) (ops : Operators ℝ)
    (hdim : ops.dimension = 2) (hkind : kind.dimensionIn 2 = 2) (bs : List (CondBoundary ℝ)) (D : ℕ → Prop)
    [DecidablePred D] (g : ℕ → ℝ) (hv : ValidBoundaries ops.nodesCount bs)
    (hd : DirichletData ops.nodesCount 2 bs D g) (C : ℕ) (hC : C ≤ ops.nodesCount)
    (hap : SupportsApart ops.nodesCount C 2 D m.surfaces) (s : SolverState ℝ)
    (hconv : ∀ σ ∈ m.surfaces, ∀ sn st, ConvexVec (density m.conditions 2 σ.normal sn st s.timeStep))
    (hs : Healthy inv ops.nodesCount C 2 D g m.surfaces s) (S : System ℝ)
    (hS : s.system = applyDirichlet ops.nodesCount 2 bs S)
    (hA : ∀ r < 2 * ops.nodesCount, ∀ s < 2 * ops.nodesCount, S.lhs r s = S.lhs s r)
    (hpos : ∀ x : ℕ → ℝ, (∀ r < 2 * ops.nodesCount, D r → x r = 0) → (∃ r < 2 * ops.nodesCount, x r ≠ 0) →
      0 < quad (2 * ops.nodesCount) S.lhs x) (len : ℕ) (guess : ℕ → ℝ) :
    HeldMinimiser (2 * ops.nodesCount) D g
      (fun y => costFunctional m.sqrt m.conditions (contactArguments m kind ops s) (2 * ops.nodesCount)
        S.lhs S.rhs ⟨2 * ops.nodesCount, y⟩)
      (optimisedSolve minimise m kind ops bs len s guess) := by
  have hout : kind.dimensionOut 2 = 2 := by cases kind <;> first | rfl | (exact absurd hkind (by decide))
  have hd1 : (contactArguments m kind ops s).variableDimension = 2 := by
    simp only [contactArguments, hdim, hout]
  have hold : (contactArguments m kind ops s).old.size = 2 * ops.nodesCount := by
    simp only [contactArguments, hdim, Nat.mul_comm]
  have hpos' : PositiveForm (2 * ops.nodesCount) (applyDirichlet ops.nodesCount 2 bs S).lhs :=
    C13_positive ops.nodesCount 2 bs S D g hv hd hpos
  have hbp := boundary_positive inv hinv (applyDirichlet ops.nodesCount 2 bs S) ops.nodesCount C 2 hC
    (by norm_num) (C13_symmetric ops.nodesCount 2 bs S D g hv hd hA) hpos'
  set c := SchurSolver.init inv ops.nodesCount C 2 false (applyDirichlet ops.nodesCount 2 bs S) with hc
  have e1 : optimisedSolve minimise m kind ops bs len s guess = solverSolve (c.solveImpl (fun lhs rhs guess =>
      minimise (2 * C) (fun x => costFunctional m.sqrt m.conditions (contactArguments m kind ops s) (2 * C)
        lhs rhs ⟨2 * C, x⟩) guess) len) ops.nodesCount 2 bs guess := by
    unfold optimisedSolve
    rw [hdim, hkind]
    congr 1
    funext guess
    unfold optimisedImpl
    rw [hs.condensed, hS]
    rfl
  rw [e1]
  refine (C111_condensed ops.nodesCount 2 bs S D g inv hinv C hC (Or.inr rfl) hv hd hA hpos m.sqrt
    m.conditions (contactArguments m kind ops s) hd1 hold hap hs.held _ len guess ?_).1
  obtain ⟨x, hx, -⟩ := C89_unique_minimiser m.conditions (contactArguments m kind ops s)
    (by rw [hd1]; norm_num) (fun σ hσ sn st => by rw [hd1]; exact hconv σ hσ sn st) (2 * C)
    ⟨c.matrices.boundary, c.nodeForces⟩ hbp
  exact hm (2 * C) (fun x => costFunctional m.sqrt m.conditions (contactArguments m kind ops s) (2 * C)
    c.matrices.boundary c.nodeForces ⟨2 * C, x⟩) _ ⟨x, by rw [hsqrt]; exact hx⟩

/-- C111. The solver object stays up to date during a run in velocities. -/
theorem C111_healthy (e : Engine ℝ) (hk : e.kind ≠ .quasistaticRelaxation)
    (D : ℕ → Prop) [DecidablePred D] (g : ℕ → ℝ) (hv : ValidBoundaries e.ops.nodesCount e.boundaries)
    (hd : DirichletData e.ops.nodesCount 2 e.boundaries D g)
    (inv : ℕ → (ℕ → ℕ → ℝ) → ℕ → ℕ → ℝ) (C : ℕ) (surfaces : List (Surface ℝ))
    (impl : SolverState ℝ → (ℕ → ℝ) → ℕ → ℝ)
    (hsolve : ∀ S guess, e.solve S guess = solverSolve (impl S) e.ops.nodesCount 2 e.boundaries guess)
    (sim sim' : Simulation ℝ V) (h : e.step .velocity sim = .ok sim')
    (hvar : ∃ var, var.timeStep = some sim.solver.timeStep ∧
      e.kind.update e.ops e.boundaries var = .ok sim.solver.system)
    (hs : Healthy inv e.ops.nodesCount C 2 D g surfaces sim.solver) :
    Healthy inv e.ops.nodesCount C 2 D g surfaces sim'.solver ∧
    ∃ var, var.timeStep = some sim'.solver.timeStep ∧
      e.kind.update e.ops e.boundaries var = .ok sim'.solver.system := by
  obtain ⟨solver, h1, _, h3⟩ := (e.step_ok_iff _ _ _).1 h
  simp only [Engine.advance, Option.some.injEq, Prod.mk.injEq] at h1
  have hit := e.iterate_ok _ _ h3
  have hvel := (velocity_step e _ _ h).2.2.2.2.2.2.1
  obtain ⟨h1, rfl⟩ := h1
  have hheld : HeldOnContact e.ops.nodesCount 2 D g surfaces sim'.solver.vVector := by
    rw [hvel]
    intro σ _ node _ i _ hD
    rw [← h1]
    change State.flatten e.grid (State.unflatten e.grid (e.solve _ _)) _ = _
    rw [flatten_unflatten, hsolve, C16_solution_satisfies_dirichlet e.ops.nodesCount 2 e.boundaries D g _ _ hv hd,
      if_pos hD]
  obtain ⟨k1, k2⟩ := iterate_condensed e hk inv C 2 false _ _ h3 hs.condensed hvar
  exact ⟨⟨k1, hheld⟩, k2⟩

/-- C111. In every statement the field that is found has as many components as the field the system is for. -/
theorem C111_dimensions (kind : StatementKind) (d : ℕ) : kind.dimensionOut d = kind.dimensionIn d := by
  cases kind <;> rfl

theorem contactArguments_eq (m : ContactSetting ℝ) (kind : StatementKind) (ops : Operators ℝ)
    (hdim : ops.dimension = 2) (hkind : kind.dimensionIn 2 = 2) (s : SolverState ℝ) :
    contactArguments m kind ops s =
      contactOf ops.nodesCount m.nodes m.surfaces s.timeStep s.uVector s.vVector := by
  have hout : kind.dimensionOut 2 = 2 := by cases kind <;> first | rfl | (exact absurd hkind (by decide))
  simp only [contactArguments, contactOf, hdim, hout, hkind, Nat.mul_comm]

/-- What stays true during a run. -/
theorem run_healthy {c : ProblemClass} (e : Engine ℝ) (hr : Registered c e.cls e.kind)
    (hne : e.cls ≠ .direct) (hst : e.kind ≠ .staticDisplacement ∧ e.kind ≠ .staticPoisson)
    (hk : e.kind ≠ .quasistaticRelaxation)
    (inv : ℕ → (ℕ → ℕ → ℝ) → ℕ → ℕ → ℝ) (impl : SolverState ℝ → (ℕ → ℝ) → ℕ → ℝ)
    (hfun : ∀ S guess, e.solve S guess = solverSolve (impl S) e.ops.nodesCount 2 e.boundaries guess)
    (D : ℕ → Prop) [DecidablePred D] (g : ℕ → ℝ) (hv : ValidBoundaries e.ops.nodesCount e.boundaries)
    (hd : DirichletData e.ops.nodesCount 2 e.boundaries D g) (C : ℕ) (surfaces : List (Surface ℝ)) (dt : ℝ)
    (n : ℕ) (traj : ℕ → Simulation ℝ V) (h : Follows (e.step .velocity) n traj) (h0 : Ready e (traj 0))
    (hvel : (traj 0).solver.vVector = State.flatten e.grid (traj 0).state.velocity)
    (hdt : (traj 0).solver.timeStep = dt)
    (hs : Healthy inv e.ops.nodesCount C 2 D g surfaces (traj 0).solver) :
    ∀ k ≤ n, Ready e (traj k) ∧
      (traj k).solver.vVector = State.flatten e.grid (traj k).state.velocity ∧
      (traj k).solver.timeStep = dt ∧
      (traj k).solver.bVector = (traj 0).solver.bVector ∧
      (traj k).solver.tVector = (traj 0).solver.tVector ∧
      (traj k).solver.pVector = (traj 0).solver.pVector ∧
      (traj k).solver.currentTime = (traj 0).solver.currentTime + k * dt ∧
      Healthy inv e.ops.nodesCount C 2 D g surfaces (traj k).solver := by
  intro k
  induction k with
  | zero => intro _; exact ⟨h0, hvel, hdt, rfl, rfl, rfl, by simp, hs⟩
  | succ k ih =>
    intro hk'
    obtain ⟨⟨⟨s, hits⟩, -⟩, _, i3, i4, i5, i6, i7, i8⟩ := ih (by omega)
    have hstep := h k (by omega)
    obtain ⟨_, s2, s3, _, _, _, s7, _⟩ := velocity_step e _ _ hstep
    obtain ⟨solver, h1, _, h3⟩ := (e.step_ok_iff _ _ _).1 hstep
    have hit := e.iterate_ok _ _ h3
    simp only [Engine.advance, Option.some.injEq, Prod.mk.injEq] at h1
    have hb : (traj (k + 1)).solver.bVector = (traj k).solver.bVector ∧
        (traj (k + 1)).solver.tVector = (traj k).solver.tVector ∧
        (traj (k + 1)).solver.pVector = (traj k).solver.pVector := by
      rw [hit, ← h1.2]; exact ⟨rfl, rfl, rfl⟩
    refine ⟨ready_step e _ _ _ hstep, s7, s3.trans i3, hb.1.trans i4, hb.2.1.trans i5,
      hb.2.2.trans i6, ?_, ?_⟩
    · rw [s2, i7, i3]; push_cast; ring
    · exact (C111_healthy e hk D g hv hd inv C surfaces _ hfun _ _ hstep
        ⟨_, rfl, iterate_current e hr hne hst s _ hits⟩ i8).1

/-- What is solved in a step. -/
theorem step_solves (e : Engine ℝ) (sim sim' : Simulation ℝ V) (h : e.step .velocity sim = .ok sim') :
    ∃ S : SolverState ℝ, S.schur = sim.solver.schur ∧ S.system = sim.solver.system ∧
      S.uVector = sim.solver.uVector ∧ S.vVector = sim.solver.vVector ∧
      S.timeStep = sim.solver.timeStep ∧
      State.flatten e.grid sim'.state.velocity = e.solve S (State.flatten e.grid sim.state.velocity) := by
  obtain ⟨solver, h1, _, h3⟩ := (e.step_ok_iff _ _ _).1 h
  simp only [Engine.advance, Option.some.injEq, Prod.mk.injEq] at h1
  refine ⟨{ sim.solver with currentTime := sim.solver.currentTime + sim.solver.timeStep },
    rfl, rfl, rfl, rfl, rfl, ?_⟩
  rw [← h1.1]
  change State.flatten e.grid (State.unflatten e.grid _) = _
  rw [flatten_unflatten]

/-- C111. A run in velocities with the condensed method and a convex contact law. The velocities after each
step have the least energy, contact included, among all fields with the prescribed values. The system and
the contact law are those of the displacements and velocities of the state before the step. -/
theorem C111_run {c : ProblemClass} (e : Engine ℝ) (hr : Registered c e.cls e.kind)
    (hne : e.cls ≠ .direct) (hst : e.kind ≠ .staticDisplacement ∧ e.kind ≠ .staticPoisson)
    (hk : e.kind ≠ .quasistaticRelaxation) (hdim : e.ops.dimension = 2) (hkind : e.kind.dimensionIn 2 = 2)
    (inv : ℕ → (ℕ → ℕ → ℝ) → ℕ → ℕ → ℝ) (hinv : InvContract inv)
    (minimise : ℕ → ((ℕ → ℝ) → ℝ) → (ℕ → ℝ) → ℕ → ℝ) (hm : MinimiseContract minimise)
    (m : ContactSetting ℝ) (hsqrt : m.sqrt = Real.sqrt) (len : ℕ)
    (hsolve : e.solve = optimisedSolve minimise m e.kind e.ops e.boundaries len)
    (D : ℕ → Prop) [DecidablePred D] (g : ℕ → ℝ) (hv : ValidBoundaries e.ops.nodesCount e.boundaries)
    (hd : DirichletData e.ops.nodesCount 2 e.boundaries D g) (C : ℕ) (hC : C ≤ e.ops.nodesCount)
    (hap : SupportsApart e.ops.nodesCount C 2 D m.surfaces)
    (dt : ℝ) (hconv : ∀ σ ∈ m.surfaces, ∀ sn st, ConvexVec (density m.conditions 2 σ.normal sn st dt))
    (hlhs : ∀ var lhs, var.timeStep = some dt → updateLhs e.ops var e.kind = .ok lhs →
      (∀ r < 2 * e.ops.nodesCount, ∀ s < 2 * e.ops.nodesCount, lhs r s = lhs s r) ∧
      ∀ x : ℕ → ℝ, Still (2 * e.ops.nodesCount) D x → (∃ r < 2 * e.ops.nodesCount, x r ≠ 0) →
        0 < quad (2 * e.ops.nodesCount) lhs x)
    (n : ℕ) (traj : ℕ → Simulation ℝ V) (h : Follows (e.step .velocity) n traj) (h0 : Ready e (traj 0))
    (hvel : (traj 0).solver.vVector = State.flatten e.grid (traj 0).state.velocity)
    (hdt : (traj 0).solver.timeStep = dt)
    (hs : Healthy inv e.ops.nodesCount C 2 D g m.surfaces (traj 0).solver) (k : ℕ) (hkn : k < n) :
    let u := State.flatten e.grid (traj k).state.displacement
    let v := State.flatten e.grid (traj k).state.velocity
    let var : Variables ℝ :=
      { absement := some (traj 0).solver.bVector
        displacement := some u
        velocity := some v
        temperature := some (traj 0).solver.tVector
        electricPotential := some (traj 0).solver.pVector
        timeStep := some dt
        time := some ((traj 0).solver.currentTime + k * dt) }
    ∃ lhs rhs, updateLhs e.ops var e.kind = .ok lhs ∧ updateRhs e.ops var e.kind = .ok rhs ∧
      HeldMinimiser (2 * e.ops.nodesCount) D g
        (fun y => costFunctional Real.sqrt m.conditions
          (contactOf e.ops.nodesCount m.nodes m.surfaces dt u v) (2 * e.ops.nodesCount) lhs rhs
          ⟨2 * e.ops.nodesCount, y⟩)
        (State.flatten e.grid (traj (k + 1)).state.velocity) := by
  have hfun : ∀ S guess, e.solve S guess = solverSolve (optimisedImpl minimise m e.kind e.ops len S)
      e.ops.nodesCount 2 e.boundaries guess := fun S guess => by
    rw [hsolve]; unfold optimisedSolve; rw [hdim, hkind]
  have invar := run_healthy e hr hne hst hk inv _ hfun D g hv hd C m.surfaces dt n traj h h0 hvel hdt hs
  obtain ⟨⟨⟨s, hits⟩, hdisp⟩, i2, i3, i4, i5, i6, i7, i8⟩ := invar k (by omega)
  obtain ⟨S, j1, j2, j3, j4, j5, j6⟩ := step_solves e _ _ (h k hkn)
  intro u v var
  have hvar : var = currentVariables (traj k).solver := by
    simp only [var, u, v, currentVariables, i2, i3, i4, i5, i6, i7, hdisp]
  have hup := iterate_current e hr hne hst s _ hits
  rw [← hvar] at hup
  clear_value var
  obtain ⟨lhs, rhs, h4, h5, h6⟩ := update_eliminated _ _ _ _ _ hup
  rw [hdim, hkind, ← j2] at h6
  refine ⟨lhs, rhs, h4, h5, ?_⟩
  obtain ⟨hA, hpos⟩ := hlhs var lhs (by rw [hvar, ← i3]; rfl) h4
  rw [j6, hsolve]
  have hS1 : Healthy inv e.ops.nodesCount C 2 D g m.surfaces S :=
    ⟨by rw [j1, j2]; exact i8.condensed, by rw [j4]; exact i8.held⟩
  have key := C111_solve inv hinv minimise hm m hsqrt e.kind e.ops hdim hkind e.boundaries D g hv hd C hC hap S
    (by rw [j5, i3]; exact hconv) hS1 ⟨lhs, rhs⟩ h6 hA hpos len v
  rw [contactArguments_eq m e.kind e.ops hdim hkind, hsqrt, j3, j4, j5, i2, i3, hdisp] at key
  exact key

/-- C111. `solve` of time-dependent problems starts the loop with an up-to-date solver object, if the
initial velocities are the prescribed ones at the supports that touch a contact surface. -/
theorem C111_start (e : Engine ℝ) (hk : e.kind ≠ .quasistaticRelaxation) (hdim : e.ops.dimension = 2)
    (hkind : e.kind.dimensionIn 2 = 2) (hcls : e.cls.isSchur = true)
    (inv : ℕ → (ℕ → ℕ → ℝ) → ℕ → ℕ → ℝ) (C : ℕ) (dt : ℝ) (D : ℕ → Prop) (g : ℕ → ℝ)
    (surfaces : List (Surface ℝ)) (a : Engine.Arguments ℝ) (solver : SolverState ℝ)
    (hi : solverInit inv e.cls e.kind e.ops e.boundaries C false dt = .ok solver)
    (store : ProductStore ℝ V) (sim : Simulation ℝ V) (h : e.timeDependentStart a solver store = .ok sim)
    (ha : HeldOnContact e.ops.nodesCount 2 D g surfaces (State.flatten e.grid a.initialVelocity)) :
    Ready e sim ∧ sim.solver.vVector = State.flatten e.grid sim.state.velocity ∧
    sim.solver.timeStep = dt ∧ sim.solver.currentTime = 0 ∧
    Healthy inv e.ops.nodesCount C 2 D g surfaces sim.solver := by
  obtain ⟨r1, r2, r3, r4⟩ := (C60_ready e a solver store sim).1 h
  unfold solverInit at hi
  obtain ⟨S, hS, hi⟩ := ok_of_bind _ _ _ hi
  cases hi
  obtain ⟨s, h1, rfl⟩ := ok_of_bind _ _ _ h
  refine ⟨r1, r2, r4, r3, ?_, ?_⟩
  · refine (iterate_condensed e hk inv C 2 false _ _ h1 ?_ ⟨_, rfl, hS⟩).1
    simp only [hcls, if_true, hdim, hkind]
  · rw [r2]; exact ha

/-- Scalar problems, such as temperatures, on a plane mesh. The condensed method takes an entry of the velocities
for the temperature of every node of a contact surface that is not among the first `C` ones,
whatever temperature is prescribed there. -/
theorem C111_scalar_wrong (sqrt : ℝ → ℝ) (m : ContactSetting ℝ) (kind : StatementKind) (ops : Operators ℝ)
    (hkind : kind.dimensionOut ops.dimension = 1) (hdim : ops.dimension = 2) (s : SolverState ℝ) (C : ℕ)
    (hn : ∀ σ ∈ m.surfaces, ∀ node ∈ σ.edge, node < ops.nodesCount) (x : ℕ → ℝ) :
    contactCostFunctional sqrt m.conditions (contactArguments m kind ops s) ⟨C, x⟩ =
      contactCostFunctional sqrt m.conditions (contactArguments m kind ops s)
        ⟨ops.nodesCount, fun node => if node < C then x node else s.vVector node⟩ := by
  rw [contactCostFunctional_eq, contactCostFunctional_eq]
  congr 1
  refine List.map_congr_left fun σ hσ => ?_
  unfold surfaceCost
  have h1 : (contactArguments m kind ops s).variableDimension = 1 := hkind
  rw [h1]
  refine quadrature_congr _ one_pos _ _ _ _ _ _ fun node hnode i hi => ?_
  obtain rfl : i = 0 := by omega
  have := hn σ hσ node hnode
  simp only [nodeValue, Nat.div_one, zero_mul, zero_add, contactArguments, hdim]
  rw [if_pos this]

/-- A temperature on the square, whose right lower corner is held at 1 and moves with velocity 3: the
condensed method sees the temperature 3. -/
example : (StatementKind.temperature).dimensionOut 2 = 1 ∧
    nodeValue 1 ⟨1, fun _ => 7⟩ ⟨8, fun r => if r = 1 then (3 : ℝ) else 0⟩ 1 0 = 3 := by
  refine ⟨rfl, ?_⟩
  simp [nodeValue]

end steps
end Conmech
