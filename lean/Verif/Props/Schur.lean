import Verif.Lemmas.SchurModel
/-!
C18, C19: the Schur complement solver.
-/
namespace Conmech
open Spec

section
variable {K : Type _} [Field K]

/-- If the backend solves the condensed system, then the vector returned by `_solve_impl` solves the
full system. -/
theorem C18_recovered_solves (inv : ℕ → (ℕ → ℕ → K) → ℕ → ℕ → K) (hinv : InvContract inv)
    (S : System K) (N C dim : ℕ) (hC : C ≤ N) (hd : dim = 1 ∨ dim = 2) (B : ℕ → ℕ → K)
    (hB : FreeBlockInverse N C dim S.lhs B)
    (minimise : (ℕ → ℕ → K) → (ℕ → K) → (ℕ → K) → ℕ → K) (len : ℕ) (guess : ℕ → K) :
    let s := SchurSolver.init inv N C dim false S
    Solves (dim * C) ⟨s.matrices.boundary, s.nodeForces⟩
      (minimise s.matrices.boundary s.nodeForces (s.truncateFreeNodes len guess)) →
    Solves (dim * N) S (s.solveImpl minimise len guess) := by
  intro s hs
  have h0 : 0 < dim := by omega
  refine condensed_solves (split_nodes K N C dim hC) S (schurInverse inv N C dim S.lhs)
    (schurInverse_isInverse inv hinv _ B N C dim hB) _
    (minimise s.matrices.boundary s.nodeForces (s.truncateFreeNodes len guess))
    (fun i hi => solveImpl_contact inv S N C dim hC hd minimise len guess i hi)
    (fun j hj => solveImpl_free inv S N C dim hC hd minimise len guess j hj) ?_
  have hm : s.matrices.boundary = _ := congrArg (fun s => s.matrices.boundary)
    (init_eq inv S N C dim h0 false)
  have hf : s.nodeForces = _ := congrArg (fun s => s.nodeForces) (init_eq inv S N C dim h0 false)
  rw [hm, hf] at hs ⊢
  exact hs

/-- Every solution of the full system restricts to a solution of the condensed system, and if the
backend finds that one, then `_solve_impl` returns the full solution. -/
theorem C18_solution_restricts (inv : ℕ → (ℕ → ℕ → K) → ℕ → ℕ → K) (hinv : InvContract inv)
    (S : System K) (N C dim : ℕ) (hC : C ≤ N) (hd : dim = 1 ∨ dim = 2) (B : ℕ → ℕ → K)
    (hB : FreeBlockInverse N C dim S.lhs B) (x xc : ℕ → K) (hx : Solves (dim * N) S x)
    (hxc : IsContactPart N C dim xc x) (len : ℕ) (guess : ℕ → K) :
    let s := SchurSolver.init inv N C dim false S
    Solves (dim * C) ⟨s.matrices.boundary, s.nodeForces⟩ xc ∧
      ∀ k < dim * N, s.solveImpl (fun _ _ _ => xc) len guess k = x k := by
  intro s
  have h0 : 0 < dim := by omega
  have hsp := split_nodes K N C dim hC
  obtain ⟨h1, h2⟩ := solves_recovered hsp S (schurInverse inv N C dim S.lhs)
    (schurInverse_isInverse inv hinv _ B N C dim hB) x xc (contactPart_iff.1 hxc) hx
  constructor
  · have hm : s.matrices.boundary = _ := congrArg (fun s => s.matrices.boundary)
      (init_eq inv S N C dim h0 false)
    have hf : s.nodeForces = _ := congrArg (fun s => s.nodeForces) (init_eq inv S N C dim h0 false)
    rw [hm, hf]
    exact h2
  · intro k hk
    rcases hsp.cover k hk with ⟨i, hi, rfl⟩ | ⟨j, hj, rfl⟩
    · rw [solveImpl_contact inv S N C dim hC hd _ len guess i hi]
      exact (contactPart_iff.1 hxc i hi).symm
    · rw [solveImpl_free inv S N C dim hC hd _ len guess j hj]
      exact (h1 j hj).symm

/-- In one and two dimensions the initial guess handed to the backend is the contact part of the
given initial guess. -/
theorem C18_initial_guess (inv : ℕ → (ℕ → ℕ → K) → ℕ → ℕ → K) (S : System K) (N C dim : ℕ)
    (hd : dim = 1 ∨ dim = 2) (guess : ℕ → K) :
    IsContactPart N C dim
      ((SchurSolver.init inv N C dim false S).truncateFreeNodes (dim * N) guess) guess := by
  rcases hd with rfl | rfl
  · intro d hd i hi
    have : d = 0 := by omega
    subst this
    simp [SchurSolver.truncateFreeNodes, SchurSolver.init, SchurSolver.recalculateForces]
  · intro d hd i hi
    simp [SchurSolver.truncateFreeNodes, SchurSolver.init, SchurSolver.recalculateForces, flattenC,
      reshapeC, block_div d hi, block_mod d hi]

/-- With a driving vector (one unknown per node, vectors of two coordinates) the first coordinate of
the result solves the system and the second one is zero. -/
theorem C18_driving_vector (inv : ℕ → (ℕ → ℕ → K) → ℕ → ℕ → K) (hinv : InvContract inv)
    (S : System K) (N C : ℕ) (hC : C ≤ N) (B : ℕ → ℕ → K) (hB : FreeBlockInverse N C 1 S.lhs B)
    (minimise : (ℕ → ℕ → K) → (ℕ → K) → (ℕ → K) → ℕ → K) (guess : ℕ → K) :
    let s := SchurSolver.init inv N C 1 true S
    (∀ i < C, s.truncateFreeNodes (2 * N) guess i = guess i) ∧
    (Solves C ⟨s.matrices.boundary, s.nodeForces⟩
      (minimise s.matrices.boundary s.nodeForces (s.truncateFreeNodes (2 * N) guess)) →
      Solves N S (s.solveImpl minimise (2 * N) guess)) ∧
    ∀ k, N ≤ k → k < 2 * N → s.solveImpl minimise (2 * N) guess k = 0 := by
  intro s
  have hi := init_eq inv S N C 1 (by omega) true
  have hm : s.matrices.boundary = _ := congrArg (fun s => s.matrices.boundary) hi
  have hf : s.nodeForces = _ := congrArg (fun s => s.nodeForces) hi
  refine ⟨?_, ?_, ?_⟩
  · intro i hi
    simp [s, SchurSolver.truncateFreeNodes, SchurSolver.init, SchurSolver.recalculateForces,
      flattenC, reshapeC, Nat.div_eq_of_lt hi, Nat.mod_eq_of_lt hi]
  · intro hs
    set xc := minimise s.matrices.boundary s.nodeForces (s.truncateFreeNodes (2 * N) guess) with hxc
    have hsp := split_nodes K N C 1 hC
    simp only [Nat.one_mul] at hsp
    have hG := schurInverse_isInverse inv hinv _ B N C 1 hB
    rw [Nat.one_mul] at hG
    have hfree : s.complementFreeNodes xc = _ := complement_eq inv S N C 1 (by omega) true xc
    simp only [Nat.one_mul] at hfree
    have hval : ∀ k < N, s.solveImpl minimise (2 * N) guess k =
        if k < C then xc k else s.complementFreeNodes xc (k - C) := by
      intro k hk
      have e1 : C * 2 / 2 = C := by omega
      have e2 : (N - C) * 2 / 2 = N - C := by omega
      have e3 : C + (N - C) = N := by omega
      have : s.solveImpl minimise (2 * N) guess k = (if k < C then
          SchurSolver.extend C xc (0 * C + k)
          else SchurSolver.extend (N - C) (s.complementFreeNodes xc) (0 * (N - C) + (k - C))) := by
        have e4 : s.dimension = 1 := rfl
        have e5 : s.contactCount = C := rfl
        have e6 : s.nodesCount = N := rfl
        have e7 : s.drivingVector = true := rfl
        simp only [SchurSolver.solveImpl, ← hxc, e7, if_true, SchurSolver.merge, or_true, e4, e5, e6,
          Nat.one_mul, e1, e2, e3, flattenC, reshapeC, SchurSolver.concatColumns,
          Nat.div_eq_of_lt hk, Nat.mod_eq_of_lt hk]
      rw [this]
      by_cases hkC : k < C
      · simp [hkC, SchurSolver.extend]
      · simp only [hkC, if_false, SchurSolver.extend, Nat.zero_mul, Nat.zero_add]
        rw [if_pos (by omega)]
    refine condensed_solves hsp S (schurInverse inv N C 1 S.lhs) hG _ xc ?_ ?_ ?_
    · intro i hi
      have e : cIdx N C i = i := by simp [cIdx, Nat.div_eq_of_lt hi, Nat.mod_eq_of_lt hi]
      rw [e, hval i (by omega), if_pos hi]
    · intro j hj
      have e : fIdx N C j = C + j := by simp [fIdx, Nat.div_eq_of_lt hj, Nat.mod_eq_of_lt hj]
      rw [e, hval _ (by omega), if_neg (by omega), hfree]
      simp
    · have hm' : s.matrices.boundary = (condensed (N - C) (cIdx N C) (fIdx N C)
          (schurInverse inv N C 1 S.lhs) S).lhs := by rw [hm]; simp only [Nat.one_mul]
      have hf' : s.nodeForces = (condensed (N - C) (cIdx N C) (fIdx N C)
          (schurInverse inv N C 1 S.lhs) S).rhs := by rw [hf]; simp only [Nat.one_mul]
      intro r hr
      have := hs r hr
      rw [hm', hf'] at this
      exact this
  · intro k hk1 hk2
    have e1 : C * 2 / 2 = C := by omega
    have e2 : (N - C) * 2 / 2 = N - C := by omega
    have e3 : C + (N - C) = N := by omega
    have e4 : s.dimension = 1 := rfl
    have e5 : s.contactCount = C := rfl
    have e6 : s.nodesCount = N := rfl
    have e7 : s.drivingVector = true := rfl
    have hk : k / N = 1 := by
      rw [Nat.div_eq_iff (by omega)]; omega
    simp only [SchurSolver.solveImpl, e7, if_true, SchurSolver.merge, or_true, e4, e5, e6,
          Nat.one_mul, e1, e2, e3, flattenC, reshapeC, SchurSolver.concatColumns, hk,
          SchurSolver.extend]
    split_ifs <;> first | rfl | omega

/-- In three dimensions `merge` concatenates contact and free values, which is not the layout of the
solution: with the identity matrix, two nodes, one of them in contact, the result for the forces
0, 1, ..., 5 is 0, 2, 4, 1, 3, 5. -/
theorem C18_three_dim_wrong :
    ∃ (S : System ℚ) (inv : ℕ → (ℕ → ℕ → ℚ) → ℕ → ℕ → ℚ) (xc : ℕ → ℚ),
      IsInverse 3 (fun i j => S.lhs (2 * i + 1) (2 * j + 1)) (inv 3 fun i j =>
        S.lhs (2 * i + 1) (2 * j + 1)) ∧
      Solves 3 ⟨(SchurSolver.init inv 2 1 3 false S).matrices.boundary,
        (SchurSolver.init inv 2 1 3 false S).nodeForces⟩ xc ∧
      (List.range 6).map ((SchurSolver.init inv 2 1 3 false S).solveImpl (fun _ _ _ => xc) 6 xc) =
        [0, 2, 4, 1, 3, 5] ∧
      ¬ Solves 6 S ((SchurSolver.init inv 2 1 3 false S).solveImpl (fun _ _ _ => xc) 6 xc) := by
  refine ⟨⟨fun i j => if i = j then 1 else 0, fun i => i⟩, fun _ A => A, fun i => 2 * i, ?_, ?_, ?_, ?_⟩
  · constructor <;> decide +kernel
  · unfold Solves Row; decide +kernel
  · decide +kernel
  · unfold Solves Row; decide +kernel

/-- Non-trivial instance of the hypotheses: a coupled system with two nodes, one of them in contact,
two unknowns per node. -/
example : ∃ (S : System ℚ) (B : ℕ → ℕ → ℚ) (x xc : ℕ → ℚ),
    FreeBlockInverse 2 1 2 S.lhs B ∧ Solves 4 S x ∧ IsContactPart 2 1 2 xc x ∧
    (∃ r < 4, ∃ s < 4, r ≠ s ∧ S.lhs r s ≠ 0) := by
  refine ⟨⟨fun i j => if i = j then 2 else 1, fun _ => 5⟩,
    fun i j => if i = j then 2 / 3 else -1 / 3, fun _ => 1, fun _ => 1, ?_, ?_, ?_, ?_⟩
  · constructor <;>
    · intro d hd i hi1 hi2 e he j hj1 hj2
      have h1 : i = 1 := by omega
      have h2 : j = 1 := by omega
      subst h1 h2
      revert d e
      decide +kernel
  · unfold Solves Row; decide +kernel
  · intro d _ i _; rfl
  · exact ⟨0, by omega, 1, by omega, by omega, by decide +kernel⟩

/-- The contract of `np.linalg.inv` can be met. -/
example : ∃ inv : ℕ → (ℕ → ℕ → ℚ) → ℕ → ℕ → ℚ, InvContract inv := by
  classical
  refine ⟨fun n A => if h : ∃ B, IsInverse n A B then h.choose else A, fun n A h => ?_⟩
  simp only [h, dif_pos]
  exact h.choose_spec

end

section
variable {K : Type _} [Field K] [LinearOrder K] [IsStrictOrderedRing K]

/-- If the backend minimises the condensed energy plus the contact functional, then the vector
returned by `_solve_impl` minimises the full energy plus the contact functional. -/
theorem C19_recovered_minimises (inv : ℕ → (ℕ → ℕ → K) → ℕ → ℕ → K) (hinv : InvContract inv)
    (S : System K) (N C dim : ℕ) (hC : C ≤ N) (hd : dim = 1 ∨ dim = 2) (B : ℕ → ℕ → K)
    (hB : FreeBlockInverse N C dim S.lhs B)
    (hA : ∀ r < dim * N, ∀ s < dim * N, S.lhs r s = S.lhs s r)
    (hpos : ∀ x : ℕ → K, (∀ d < dim, ∀ i < C, x (d * N + i) = 0) → 0 ≤ quad (dim * N) S.lhs x)
    (Φ φ : (ℕ → K) → K) (hφ : ∀ xc x, IsContactPart N C dim xc x → φ xc = Φ x)
    (minimise : (ℕ → ℕ → K) → (ℕ → K) → (ℕ → K) → ℕ → K) (len : ℕ) (guess : ℕ → K) :
    let s := SchurSolver.init inv N C dim false S
    let J := fun xc => energy (dim * C) ⟨s.matrices.boundary, s.nodeForces⟩ xc + φ xc
    (∀ yc, J (minimise s.matrices.boundary s.nodeForces (s.truncateFreeNodes len guess)) ≤ J yc) →
    ∀ y, energy (dim * N) S (s.solveImpl minimise len guess) + Φ (s.solveImpl minimise len guess) ≤
      energy (dim * N) S y + Φ y := by
  intro s J hmin y
  have h0 : 0 < dim := by omega
  have hsp := split_nodes K N C dim hC
  have hG := schurInverse_isInverse inv hinv _ B N C dim hB
  have hsys : (⟨s.matrices.boundary, s.nodeForces⟩ : System K) =
      condensed (dim * (N - C)) (cIdx N C) (fIdx N C) (schurInverse inv N C dim S.lhs) S := by
    have hi := init_eq inv S N C dim h0 false
    rw [show s.matrices.boundary = _ from congrArg (fun s => s.matrices.boundary) hi,
      show s.nodeForces = _ from congrArg (fun s => s.nodeForces) hi]
  set xc := minimise s.matrices.boundary s.nodeForces (s.truncateFreeNodes len guess) with hxc
  have hc : ∀ i < dim * C, s.solveImpl minimise len guess (cIdx N C i) = xc i :=
    fun i hi => solveImpl_contact inv S N C dim hC hd minimise len guess i hi
  have hf : ∀ j < dim * (N - C), s.solveImpl minimise len guess (fIdx N C j) = _ :=
    fun j hj => solveImpl_free inv S N C dim hC hd minimise len guess j hj
  have e1 := energy_recovered hsp S _ hA hG _ xc hc hf
  -- the given competitor
  let yc : ℕ → K := fun i => y (cIdx N C i)
  let ys : ℕ → K := s.solveImpl (fun _ _ _ => yc) len guess
  have hyc : ∀ i < dim * C, ys (cIdx N C i) = yc i :=
    fun i hi => solveImpl_contact inv S N C dim hC hd _ len guess i hi
  have hyf : ∀ j < dim * (N - C), ys (fIdx N C j) = _ :=
    fun j hj => solveImpl_free inv S N C dim hC hd _ len guess j hj
  have e2 := energy_split hsp S _ hA hG y ys yc (fun _ _ => rfl) hyc hyf
  have e3 : 0 ≤ quad (dim * N) S.lhs (fun k => y k - ys k) := by
    apply hpos
    intro d hdd i hi
    have h1 := contactPart_iff.2 hyc d hdd i hi
    have h2 : yc (d * C + i) = y (d * N + i) :=
      contactPart_iff.2 (fun _ _ => rfl : ∀ i < dim * C, y (cIdx N C i) = yc i) d hdd i hi
    rw [← h2, h1]; ring
  have e4 := hmin yc
  simp only [J] at e4
  rw [hsys] at e4
  rw [← hφ xc _ (contactPart_iff.2 hc), ← hφ yc y (contactPart_iff.2 fun _ _ => rfl), e1, e2]
  linarith

/-- Conversely the contact part of a minimiser of the full energy minimises the condensed one. -/
theorem C19_minimiser_restricts (inv : ℕ → (ℕ → ℕ → K) → ℕ → ℕ → K) (hinv : InvContract inv)
    (S : System K) (N C dim : ℕ) (hC : C ≤ N) (hd : dim = 1 ∨ dim = 2) (B : ℕ → ℕ → K)
    (hB : FreeBlockInverse N C dim S.lhs B)
    (hA : ∀ r < dim * N, ∀ s < dim * N, S.lhs r s = S.lhs s r)
    (hpos : ∀ x : ℕ → K, (∀ d < dim, ∀ i < C, x (d * N + i) = 0) → 0 ≤ quad (dim * N) S.lhs x)
    (Φ φ : (ℕ → K) → K) (hφ : ∀ xc x, IsContactPart N C dim xc x → φ xc = Φ x)
    (x xc : ℕ → K) (hxc : IsContactPart N C dim xc x)
    (hmin : ∀ y, energy (dim * N) S x + Φ x ≤ energy (dim * N) S y + Φ y) :
    let s := SchurSolver.init inv N C dim false S
    ∀ yc, energy (dim * C) ⟨s.matrices.boundary, s.nodeForces⟩ xc + φ xc ≤
      energy (dim * C) ⟨s.matrices.boundary, s.nodeForces⟩ yc + φ yc := by
  intro s yc
  have h0 : 0 < dim := by omega
  have hsp := split_nodes K N C dim hC
  have hG := schurInverse_isInverse inv hinv _ B N C dim hB
  have hsys : (⟨s.matrices.boundary, s.nodeForces⟩ : System K) =
      condensed (dim * (N - C)) (cIdx N C) (fIdx N C) (schurInverse inv N C dim S.lhs) S := by
    have hi := init_eq inv S N C dim h0 false
    rw [show s.matrices.boundary = _ from congrArg (fun s => s.matrices.boundary) hi,
      show s.nodeForces = _ from congrArg (fun s => s.nodeForces) hi]
  let zero : ℕ → K := fun _ => 0
  have hc : ∀ zc : ℕ → K, ∀ i < dim * C,
      s.solveImpl (fun _ _ _ => zc) 0 zero (cIdx N C i) = zc i :=
    fun zc i hi => solveImpl_contact inv S N C dim hC hd _ 0 zero i hi
  have hf : ∀ zc : ℕ → K, ∀ j < dim * (N - C),
      s.solveImpl (fun _ _ _ => zc) 0 zero (fIdx N C j) = _ :=
    fun zc j hj => solveImpl_free inv S N C dim hC hd _ 0 zero j hj
  have e1 := energy_recovered hsp S _ hA hG _ yc (hc yc) (hf yc)
  have e2 := energy_split hsp S _ hA hG x _ xc (contactPart_iff.1 hxc) (hc xc) (hf xc)
  have e3 : 0 ≤ quad (dim * N) S.lhs (fun k => x k - s.solveImpl (fun _ _ _ => xc) 0 zero k) := by
    apply hpos
    intro d hdd i hi
    have h1 := contactPart_iff.2 (hc xc) d hdd i hi
    rw [← hxc d hdd i hi, h1]; ring
  have e4 := hmin (s.solveImpl (fun _ _ _ => yc) 0 zero)
  rw [← hφ yc _ (contactPart_iff.2 (hc yc)), ← hφ xc x hxc, e1, e2] at e4
  rw [hsys]
  linarith

/-- Non-trivial instance of the hypotheses of C19: a coupled symmetric matrix which is positive and a
contact functional that is not differentiable. -/
example : ∃ (A : ℕ → ℕ → ℚ) (Φ φ : (ℕ → ℚ) → ℚ),
    (∀ r < 1 * 2, ∀ s < 1 * 2, A r s = A s r) ∧ (∃ r < 2, ∃ s < 2, r ≠ s ∧ A r s ≠ 0) ∧
    (∀ x : ℕ → ℚ, (∀ d < 1, ∀ i < 1, x (d * 2 + i) = 0) → 0 ≤ quad (1 * 2) A x) ∧
    ∀ xc x, IsContactPart 2 1 1 xc x → φ xc = Φ x := by
  refine ⟨fun r s => if r = s then 2 else 1, fun x => |x 0|, fun x => |x 0|, ?_, ?_, ?_, ?_⟩
  · intro r _ s _; simp only [eq_comm]
  · exact ⟨0, by omega, 1, by omega, by omega, by decide +kernel⟩
  · intro x _
    simp only [quad, Finset.sum_range_succ, Finset.sum_range_zero]
    norm_num
    nlinarith [sq_nonneg (x 0 + x 1), sq_nonneg (x 0), sq_nonneg (x 1)]
  · intro xc x h
    have := h 0 (by omega) 0 (by omega)
    simp only [Nat.zero_mul, Nat.zero_add] at this
    simp only [this]

end
end Conmech
