import Verif.Model.Solvers
import Verif.Lemmas.Problems
/-!
Lemmas on the time step of a solver.
-/
namespace Conmech
variable {K : Type _} [Field K]

theorem applyBlock_lhs (c : ℕ → K) (S T : System K) (h : S.lhs = T.lhs)
    (ij : (ℕ × ℕ) × (ℕ × ℕ)) : (applyBlock c S ij).lhs = (applyBlock c T ij).lhs := by
  simp only [applyBlock, h]

/-- The matrix after elimination does not depend on the right-hand side. -/
theorem applyDirichlet_lhs (N dim : ℕ) (bs : List (CondBoundary K)) (S T : System K)
    (h : S.lhs = T.lhs) : (applyDirichlet N dim bs S).lhs = (applyDirichlet N dim bs T).lhs := by
  unfold applyDirichlet
  induction bs generalizing S T with
  | nil => exact h
  | cons b bs ih =>
    simp only [List.foldl_cons]
    apply ih
    generalize getAllBoundaryIndices b.indices N dim = l
    induction l generalizing S T with
    | nil => exact h
    | cons ij l ih2 => exact ih2 _ _ (applyBlock_lhs b.condition S T h ij)

/-- Only the relaxation statement has a left-hand side that depends on more than the time step. -/
theorem updateLhs_timeStep (ops : Operators K) (kind : StatementKind)
    (hk : kind ≠ .quasistaticRelaxation) (var var' : Variables K)
    (h : var.timeStep = var'.timeStep) : updateLhs ops var kind = updateLhs ops var' kind := by
  cases kind <;> first | contradiction | simp only [updateLhs, dynamicLhs, quasistaticLhs, h]

theorem update_ok (kind : StatementKind) (ops : Operators K) (bs : List (CondBoundary K))
    (var : Variables K) (S : System K) (h : kind.update ops bs var = .ok S) :
    ∃ lhs rhs, updateLhs ops var kind = .ok lhs ∧ updateRhs ops var kind = .ok rhs ∧
      S = applyDirichlet ops.nodesCount (kind.dimensionIn ops.dimension) bs ⟨lhs, rhs⟩ := by
  unfold StatementKind.update at h
  cases hl : updateLhs ops var kind with
  | error e => simp [hl, bind, Except.bind] at h
  | ok lhs =>
    cases hr : updateRhs ops var kind with
    | error e => simp [hl, hr, bind, Except.bind] at h
    | ok rhs =>
      simp only [hl, hr, bind, Except.bind, pure, Except.pure, Except.ok.injEq] at h
      exact ⟨lhs, rhs, rfl, rfl, h.symm⟩

theorem update_lhs_eq (kind : StatementKind) (hk : kind ≠ .quasistaticRelaxation)
    (ops : Operators K) (bs : List (CondBoundary K)) (var var' : Variables K) (S S' : System K)
    (h : kind.update ops bs var = .ok S) (h' : kind.update ops bs var' = .ok S')
    (ht : var.timeStep = var'.timeStep) : S.lhs = S'.lhs := by
  obtain ⟨l, r, h1, _, rfl⟩ := update_ok _ _ _ _ _ h
  obtain ⟨l', r', h2, _, rfl⟩ := update_ok _ _ _ _ _ h'
  rw [updateLhs_timeStep ops kind hk var var' ht, h2] at h1
  apply applyDirichlet_lhs
  simpa using h1.symm

theorem updateSystem_ok (s : SolverState K) (kind : StatementKind) (ops : Operators K)
    (bs : List (CondBoundary K)) (var : Variables K) (s' : SolverState K)
    (h : s.updateSystem kind ops bs var = .ok s') :
    ∃ S, kind.update ops bs var = .ok S ∧ s' =
      { s with system := S, schur := s.schur.map fun c => c.recalculateForces S.rhs } := by
  unfold SolverState.updateSystem at h
  cases hu : kind.update ops bs var with
  | error e => simp [hu, bind, Except.bind] at h
  | ok S =>
    simp only [hu, bind, Except.bind, pure, Except.pure, Except.ok.injEq] at h
    exact ⟨S, rfl, h.symm⟩

end Conmech
