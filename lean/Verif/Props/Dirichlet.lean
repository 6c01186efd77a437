import Verif.Lemmas.Dirichlet
import Verif.Lemmas.Quadratic
import Mathlib.Algebra.Field.Rat
import Mathlib.Algebra.Order.Ring.Rat
import Mathlib.Tactic.NormNum

/-!
Properties C12, C13, C14, C16: imposing Dirichlet conditions.
-/
namespace Conmech
open Spec

section
variable {K : Type} [Field K] (N dim : ℕ) (bs : List (CondBoundary K)) (S : System K)
  (D : ℕ → Prop) [DecidablePred D] (g : ℕ → K)

/-- First and last value agree with the data. -/
theorem vals_of_data (hv : ValidBoundaries N bs) (hd : DirichletData N dim bs D g) (x : ℕ) :
    firstVal (allPairs N dim bs) x = (if D x then some (g x) else none) ∧
    lastVal (allPairs N dim bs) x = (if D x then some (g x) else none) := by
  have hne : ∀ b ∈ bs, ∀ i, b.indices = .list i → i ≠ [] := fun b hb => (hv b hb).2
  by_cases hx : D x
  · obtain ⟨v, hp⟩ := (hd.dofs x).1 hx
    have hmem := (mem_allPairs N dim bs hne x v).2 hp
    have hsome : (firstVal (allPairs N dim bs) x).isSome := by
      unfold firstVal; rw [lookup_isSome_iff]; exact List.mem_map.2 ⟨_, hmem, rfl⟩
    obtain ⟨w, hw⟩ := Option.isSome_iff_exists.1 hsome
    have hsome' : (lastVal (allPairs N dim bs) x).isSome := by rw [lastVal_isSome]; exact hsome
    obtain ⟨w', hw'⟩ := Option.isSome_iff_exists.1 hsome'
    have h1 := hd.values x w ((mem_allPairs N dim bs hne x w).1 (mem_of_lookup hw))
    have h2 := hd.values x w' ((mem_allPairs N dim bs hne x w').1 (lastVal_mem hw'))
    rw [hw, hw', h1, h2]; simp [hx]
  · have hnone : firstVal (allPairs N dim bs) x = none := by
      cases h : firstVal (allPairs N dim bs) x with
      | none => rfl
      | some w =>
        exact absurd ((hd.dofs x).2 ⟨w, (mem_allPairs N dim bs hne x w).1 (mem_of_lookup h)⟩) hx
    rw [(lastVal_eq_none _ x).2 hnone, hnone]; simp [hx]

/-- C14 (partial: the boundaries must agree where they overlap, which is part of `DirichletData`, see
`C14_conflict_wrong`). Imposing all boundaries one after the other, block by block, gives the
system in which all of them are eliminated at once. -/
theorem C14_all_at_once_partial (hv : ValidBoundaries N bs) (hd : DirichletData N dim bs D g)
    (r : ℕ) :
    (∀ s, (applyDirichlet N dim bs S).lhs r s =
      if D r ∨ D s then (if r = s then 1 else 0) else S.lhs r s) ∧
    (applyDirichlet N dim bs S).rhs r =
      if D r then g r else
        S.rhs r - ∑ s ∈ Finset.range (dim * N), if D s then S.lhs r s * g s else 0 := by
  have hvals := vals_of_data N dim bs D g hv hd
  rw [applyDirichlet_elim (dim * N) N dim S bs (slices_bound N dim bs hv)]
  refine ⟨?_, ?_⟩
  · intro s
    simp only [elimL, (hvals r).1, (hvals s).1]
    by_cases h1 : D r <;> by_cases h2 : D s <;> simp [h1, h2]
  · simp only [elimR, (hvals r).2]
    by_cases h1 : D r
    · simp [h1]
    · simp only [h1, if_false]
      congr 1
      refine Finset.sum_congr rfl fun s _ => ?_
      rw [(hvals s).1]
      by_cases h2 : D s <;> simp [h2]

/-- C12. A vector solves the system after imposing the Dirichlet conditions if and only if it takes
the prescribed values and satisfies all other original equations. -/
theorem C12_elimination_equivalent (hv : ValidBoundaries N bs) (hd : DirichletData N dim bs D g)
    (x : ℕ → K) :
    Solves (dim * N) (applyDirichlet N dim bs S) x ↔
      (∀ r < dim * N, D r → x r = g r) ∧ ∀ r < dim * N, ¬ D r → Row (dim * N) S x r := by
  have hc := C14_all_at_once_partial N dim bs S D g hv hd
  have hrowD : ∀ r < dim * N, D r →
      (Row (dim * N) (applyDirichlet N dim bs S) x r ↔ x r = g r) := by
    intro r hr hD
    unfold Row
    rw [(hc r).2, if_pos hD, Finset.sum_eq_single r]
    · rw [(hc r).1 r]; simp [hD]
    · intro s _ hs; rw [(hc r).1 s]; simp [hD, hs.symm]
    · intro h; exact absurd (Finset.mem_range.2 hr) h
  have hrowF : ∀ r < dim * N, ¬ D r → (∀ s < dim * N, D s → x s = g s) →
      (Row (dim * N) (applyDirichlet N dim bs S) x r ↔ Row (dim * N) S x r) := by
    intro r hr hD hg
    unfold Row
    rw [(hc r).2, if_neg hD]
    have : ∑ s ∈ Finset.range (dim * N), (applyDirichlet N dim bs S).lhs r s * x s +
        (∑ s ∈ Finset.range (dim * N), if D s then S.lhs r s * g s else 0) =
        ∑ s ∈ Finset.range (dim * N), S.lhs r s * x s := by
      rw [← Finset.sum_add_distrib]
      refine Finset.sum_congr rfl fun s hs => ?_
      rw [(hc r).1 s]
      by_cases h2 : D s
      · have hrs : r ≠ s := by rintro rfl; exact hD h2
        simp [hD, h2, hrs, hg s (Finset.mem_range.1 hs) h2]
      · simp [hD, h2]
    rw [eq_sub_iff_add_eq, this]
  constructor
  · intro h
    have hg : ∀ r < dim * N, D r → x r = g r := fun r hr hD => (hrowD r hr hD).1 (h r hr)
    exact ⟨hg, fun r hr hD => (hrowF r hr hD hg).1 (h r hr)⟩
  · rintro ⟨hg, hf⟩ r hr
    by_cases hD : D r
    · exact (hrowD r hr hD).2 (hg r hr hD)
    · exact (hrowF r hr hD hg).2 (hf r hr hD)

/-- C13. Imposing Dirichlet conditions keeps the matrix symmetric. -/
theorem C13_symmetric (hv : ValidBoundaries N bs) (hd : DirichletData N dim bs D g)
    (hA : ∀ r < dim * N, ∀ s < dim * N, S.lhs r s = S.lhs s r) :
    ∀ r < dim * N, ∀ s < dim * N,
      (applyDirichlet N dim bs S).lhs r s = (applyDirichlet N dim bs S).lhs s r := by
  intro r hr s hs
  rw [(C14_all_at_once_partial N dim bs S D g hv hd r).1 s,
    (C14_all_at_once_partial N dim bs S D g hv hd s).1 r, hA r hr s hs]
  simp only [or_comm (a := D s), eq_comm (a := s)]

/-- The quadratic form after elimination. -/
theorem quad_elim (hv : ValidBoundaries N bs) (hd : DirichletData N dim bs D g) (x : ℕ → K) :
    quad (dim * N) (applyDirichlet N dim bs S).lhs x =
      quad (dim * N) S.lhs (fun r => if D r then 0 else x r) +
      ∑ r ∈ Finset.range (dim * N), if D r then x r * x r else 0 := by
  unfold quad
  rw [← Finset.sum_add_distrib]
  refine Finset.sum_congr rfl fun r hr => ?_
  by_cases hD : D r
  · simp only [hD, if_true, zero_mul, zero_add]
    congr 1
    rw [Finset.sum_eq_single r]
    · rw [(C14_all_at_once_partial N dim bs S D g hv hd r).1 r]; simp [hD]
    · intro s _ hs
      rw [(C14_all_at_once_partial N dim bs S D g hv hd r).1 s]; simp [hD, hs.symm]
    · intro h; exact absurd hr h
  · simp only [hD, if_false, add_zero]
    congr 1
    refine Finset.sum_congr rfl fun s _ => ?_
    rw [(C14_all_at_once_partial N dim bs S D g hv hd r).1 s]
    by_cases h2 : D s
    · have hrs : r ≠ s := by rintro rfl; exact hD h2
      simp [h2, hrs]
    · simp [hD, h2]

/-- C16. Whatever the backend returns, the solution takes the prescribed values at the Dirichlet
degrees of freedom and the backend's values everywhere else. -/
theorem C16_solution_satisfies_dirichlet (solveImpl : (ℕ → K) → ℕ → K) (guess : ℕ → K)
    (hv : ValidBoundaries N bs) (hd : DirichletData N dim bs D g) (r : ℕ) :
    solverSolve solveImpl N dim bs guess r = if D r then g r else solveImpl guess r := by
  rw [solverSolve_lastVal solveImpl N dim bs guess
    (fun b hb ij hij => (slices_bound N dim bs hv b hb ij hij).1)]
  rw [(vals_of_data N dim bs D g hv hd r).2]
  by_cases h : D r <;> simp [h]

/-- C16. If the backend solves the constrained system exactly, overwriting changes nothing. -/
theorem C16_exact_solution_kept (solveImpl : (ℕ → K) → ℕ → K) (guess : ℕ → K)
    (hv : ValidBoundaries N bs) (hd : DirichletData N dim bs D g)
    (hs : Solves (dim * N) (applyDirichlet N dim bs S) (solveImpl guess)) (r : ℕ)
    (hr : r < dim * N) :
    solverSolve solveImpl N dim bs guess r = solveImpl guess r := by
  rw [C16_solution_satisfies_dirichlet N dim bs D g solveImpl guess hv hd]
  split_ifs with h
  · exact (((C12_elimination_equivalent N dim bs S D g hv hd _).1 hs).1 r hr h).symm
  · rfl

end

section
variable {K : Type} [Field K] [LinearOrder K] [IsStrictOrderedRing K] (N dim : ℕ)
  (bs : List (CondBoundary K)) (S : System K) (D : ℕ → Prop) [DecidablePred D] (g : ℕ → K)

/-- C13. Imposing Dirichlet conditions keeps the quadratic form nonnegative. -/
theorem C13_nonneg (hv : ValidBoundaries N bs) (hd : DirichletData N dim bs D g)
    (hpos : ∀ x, 0 ≤ quad (dim * N) S.lhs x) (x : ℕ → K) :
    0 ≤ quad (dim * N) (applyDirichlet N dim bs S).lhs x := by
  rw [quad_elim N dim bs S D g hv hd]
  refine add_nonneg (hpos _) (Finset.sum_nonneg fun r _ => ?_)
  split_ifs
  · exact mul_self_nonneg _
  · exact le_rfl

/-- C13. If the quadratic form is positive on all fields which vanish on the Dirichlet part, it is
positive definite after imposing the conditions: the eliminated system has at most one solution. -/
theorem C13_positive (hv : ValidBoundaries N bs) (hd : DirichletData N dim bs D g)
    (hpos : ∀ x : ℕ → K, (∀ r < dim * N, D r → x r = 0) → (∃ r < dim * N, x r ≠ 0) →
      0 < quad (dim * N) S.lhs x) (x : ℕ → K) (hx : ∃ r < dim * N, x r ≠ 0) :
    0 < quad (dim * N) (applyDirichlet N dim bs S).lhs x := by
  rw [quad_elim N dim bs S D g hv hd]
  have hsum : 0 ≤ ∑ r ∈ Finset.range (dim * N), if D r then x r * x r else 0 :=
    Finset.sum_nonneg fun r _ => by split_ifs; exacts [mul_self_nonneg _, le_rfl]
  by_cases hfree : ∃ r < dim * N, (if D r then 0 else x r) ≠ 0
  · have := hpos (fun r => if D r then 0 else x r) (fun r _ h => by simp [h]) hfree
    linarith
  · push Not at hfree
    obtain ⟨r, hr, hxr⟩ := hx
    have hDr : D r := by
      by_contra h
      have := hfree r hr
      simp [h] at this
      exact hxr this
    have hz : quad (dim * N) S.lhs (fun r => if D r then 0 else x r) = 0 := by
      unfold quad
      refine Finset.sum_eq_zero fun i hi => ?_
      simp only [hfree i (Finset.mem_range.1 hi), zero_mul]
    rw [hz, zero_add]
    refine Finset.sum_pos' (fun i _ => by split_ifs; exacts [mul_self_nonneg _, le_rfl]) ?_
    exact ⟨r, Finset.mem_range.2 hr, by simp only [hDr, if_true]; exact mul_self_pos.2 hxr⟩

/-- C13. For a symmetric nonnegative matrix, a vector minimises the energy of the eliminated system
(which is what the optimisation solvers are given) if and only if it takes the prescribed values and
satisfies the remaining original equations. -/
theorem C13_energy_minimisers (hv : ValidBoundaries N bs) (hd : DirichletData N dim bs D g)
    (hA : ∀ r < dim * N, ∀ s < dim * N, S.lhs r s = S.lhs s r)
    (hpos : ∀ x, 0 ≤ quad (dim * N) S.lhs x) (x : ℕ → K) :
    (∀ y, energy (dim * N) (applyDirichlet N dim bs S) x ≤
      energy (dim * N) (applyDirichlet N dim bs S) y) ↔
      (∀ r < dim * N, D r → x r = g r) ∧ ∀ r < dim * N, ¬ D r → Row (dim * N) S x r := by
  rw [← C12_elimination_equivalent N dim bs S D g hv hd,
    solves_iff_minimises (dim * N) _ (C13_symmetric N dim bs S D g hv hd hA)
      (C13_nonneg N dim bs S D g hv hd hpos)]

end

/-- C14, negation of the full statement: two boundaries share node 1 and give it the values 1 and 2.
The only solution of the resulting system gives node 1 the value 2, but violates the free equation
`x₀ + x₁ = 0`, which was reduced with the value 1. -/
theorem C14_conflict_wrong :
    let S : System ℚ := { lhs := fun _ _ => 1, rhs := fun _ => 0 }
    let bs : List (CondBoundary ℚ) :=
      [{ indices := .list [1], condition := fun _ => 1 },
       { indices := .list [1], condition := fun _ => 2 }]
    ∀ x, Solves 2 (applyDirichlet 2 1 bs S) x → x 1 = 2 ∧ ¬ Row 2 S x 0 := by
  intro S bs x hx
  have h0 := hx 0 (by norm_num)
  have h1 := hx 1 (by norm_num)
  simp [Row, applyDirichlet, bs, S, getAllBoundaryIndices, runs, discontinuities, yieldRuns,
    applyBlock, inSlice, Finset.sum_range_succ] at h0 h1
  refine ⟨h1, ?_⟩
  simp only [Row, S, Finset.sum_range_succ, Finset.sum_range_zero, h0, h1]
  norm_num

-- two nodes, two coordinates, node 1 fixed in both coordinates with value 5
example : ValidBoundaries 2 [({ indices := .slice 1 2, condition := fun _ => 5 } : CondBoundary ℚ)] ∧
    DirichletData 2 2 [({ indices := .slice 1 2, condition := fun _ => 5 } : CondBoundary ℚ)]
      (fun x => x = 1 ∨ x = 3) (fun _ => 5) := by
  refine ⟨by simp [ValidBoundaries, nodesOf, List.mem_range'], ?_, ?_⟩
  · intro x
    simp only [Prescribed, List.mem_singleton, exists_eq_left, nodesOf]
    constructor
    · rintro (rfl | rfl)
      · exact ⟨5, 0, by omega, 0, 1, by simp, by simp, rfl⟩
      · exact ⟨5, 1, by omega, 0, 1, by simp, by simp, rfl⟩
    · rintro ⟨v, d, hd, j, node, h, rfl, rfl⟩
      have : node = 1 := by
        have := List.mem_of_getElem? h
        simp [List.mem_range'] at this; omega
      subst this
      have : d = 0 ∨ d = 1 := by omega
      rcases this with rfl | rfl <;> simp
  · rintro x v ⟨b, hb, d, hd, j, node, h, rfl, rfl⟩
    simp at hb; simp [hb]

end Conmech
