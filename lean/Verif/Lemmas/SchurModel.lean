import Verif.Lemmas.Schur

/-!
The model of the Schur complement solver computes the block elimination of `Verif.Lemmas.Schur`.
-/
namespace Conmech
open Spec

section
variable {K : Type _} [Field K]

theorem getSliced_eq (A : ℕ → ℕ → K) (N dim : ℕ) (hd : 0 < dim) (h w : ℕ × ℕ) (i j : ℕ) :
    getSliced (matrixSplit dim (dim * N) A) h w i j =
      A (i / (h.2 - h.1) * N + (h.1 + i % (h.2 - h.1)))
        (j / (w.2 - w.1) * N + (w.1 + j % (w.2 - w.1))) := by
  simp only [getSliced, matrixSplit, splitAxis1, splitLast, Nat.mul_div_cancel_left N hd]

/-- The inverse used by the solver. -/
def schurInverse (inv : ℕ → (ℕ → ℕ → K) → ℕ → ℕ → K) (N C dim : ℕ) (A : ℕ → ℕ → K) : ℕ → ℕ → K :=
  inv (dim * (N - C)) fun i j => A (fIdx N C i) (fIdx N C j)

theorem free_block (A : ℕ → ℕ → K) (N C dim : ℕ) (hd : 0 < dim) :
    getSliced (matrixSplit dim (dim * N) A) (SchurSolver.freeIds N C) (SchurSolver.freeIds N C) =
      fun i j => A (fIdx N C i) (fIdx N C j) := by
  funext i j; rw [getSliced_eq A N dim hd]; rfl

theorem free_contact_block (A : ℕ → ℕ → K) (N C dim : ℕ) (hd : 0 < dim) :
    getSliced (matrixSplit dim (dim * N) A) (SchurSolver.freeIds N C) (SchurSolver.contactIds C) =
      fun i j => A (fIdx N C i) (cIdx N C j) := by
  funext i j; rw [getSliced_eq A N dim hd]; simp [SchurSolver.freeIds, SchurSolver.contactIds, fIdx, cIdx]

theorem contact_free_block (A : ℕ → ℕ → K) (N C dim : ℕ) (hd : 0 < dim) :
    getSliced (matrixSplit dim (dim * N) A) (SchurSolver.contactIds C) (SchurSolver.freeIds N C) =
      fun i j => A (cIdx N C i) (fIdx N C j) := by
  funext i j; rw [getSliced_eq A N dim hd]; simp [SchurSolver.freeIds, SchurSolver.contactIds, fIdx, cIdx]

theorem contact_block (A : ℕ → ℕ → K) (N C dim : ℕ) (hd : 0 < dim) :
    getSliced (matrixSplit dim (dim * N) A) (SchurSolver.contactIds C) (SchurSolver.contactIds C) =
      fun i j => A (cIdx N C i) (cIdx N C j) := by
  funext i j; rw [getSliced_eq A N dim hd]; simp [SchurSolver.contactIds, cIdx]

theorem matrices_eq (inv : ℕ → (ℕ → ℕ → K) → ℕ → ℕ → K) (S : System K) (N C dim : ℕ)
    (hd : 0 < dim) :
    calculateSchurComplementMatrices inv S.lhs (dim * N) dim (SchurSolver.contactIds C)
      (SchurSolver.freeIds N C) =
    { boundary := (condensed (dim * (N - C)) (cIdx N C) (fIdx N C) (schurInverse inv N C dim S.lhs)
        S).lhs
      freeXContact := fun i j => S.lhs (fIdx N C i) (cIdx N C j)
      contactXFree := fun i j => S.lhs (cIdx N C i) (fIdx N C j)
      freeXFreeInverted := schurInverse inv N C dim S.lhs } := by
  simp only [calculateSchurComplementMatrices, free_block _ _ _ _ hd, free_contact_block _ _ _ _ hd,
    contact_free_block _ _ _ _ hd, contact_block _ _ _ _ hd]
  rfl

theorem vector_contact (v : ℕ → K) (N C dim : ℕ) (hd : 0 < dim) :
    stackColumn C (fun i j => unstack (dim * N) dim v (0 + i) j) = fun i => v (cIdx N C i) := by
  funext i
  simp only [stackColumn, flattenC, transposed, unstack, reshapeF, Nat.mul_div_cancel_left N hd, cIdx]
  congr 1; ring

theorem vector_free (v : ℕ → K) (N C dim : ℕ) (hd : 0 < dim) :
    stackColumn (N - C) (fun i j => unstack (dim * N) dim v (C + i) j) = fun i => v (fIdx N C i) := by
  funext i
  simp only [stackColumn, flattenC, transposed, unstack, reshapeF, Nat.mul_div_cancel_left N hd, fIdx]
  congr 1; ring

theorem vector_eq (v : ℕ → K) (N C dim : ℕ) (hd : 0 < dim) (m : SchurMatrices K) :
    calculateSchurComplementVector v (dim * N) dim (SchurSolver.contactIds C)
      (SchurSolver.freeIds N C) m =
    (fun i => v (cIdx N C i) - matVec (dim * (N - C)) m.contactXFree
      (matVec (dim * (N - C)) m.freeXFreeInverted fun i => v (fIdx N C i)) i,
      fun i => v (fIdx N C i)) := by
  have h1 := vector_contact v N C dim hd
  have h2 := vector_free v N C dim hd
  simp only [calculateSchurComplementVector, SchurSolver.contactIds, SchurSolver.freeIds,
    Nat.sub_zero, h1, h2]

/-- The fields of the solver after construction. -/
theorem init_eq (inv : ℕ → (ℕ → ℕ → K) → ℕ → ℕ → K) (S : System K) (N C dim : ℕ) (hd : 0 < dim)
    (drv : Bool) :
    SchurSolver.init inv N C dim drv S =
    let G := schurInverse inv N C dim S.lhs
    { nodesCount := N, contactCount := C, dimension := dim, drivingVector := drv
      matrices :=
        { boundary := (condensed (dim * (N - C)) (cIdx N C) (fIdx N C) G S).lhs
          freeXContact := fun i j => S.lhs (fIdx N C i) (cIdx N C j)
          contactXFree := fun i j => S.lhs (cIdx N C i) (fIdx N C j)
          freeXFreeInverted := G }
      nodeForces := (condensed (dim * (N - C)) (cIdx N C) (fIdx N C) G S).rhs
      forcesFree := fun i => S.rhs (fIdx N C i) } := by
  simp only [SchurSolver.init, SchurSolver.recalculateForces, matrices_eq inv S N C dim hd,
    vector_eq _ N C dim hd]
  rfl

theorem complement_eq (inv : ℕ → (ℕ → ℕ → K) → ℕ → ℕ → K) (S : System K) (N C dim : ℕ)
    (hd : 0 < dim) (drv : Bool) (xc : ℕ → K) :
    (SchurSolver.init inv N C dim drv S).complementFreeNodes xc =
      recovered (dim * C) (dim * (N - C)) (cIdx N C) (fIdx N C) (schurInverse inv N C dim S.lhs) S
        xc := by
  rw [init_eq inv S N C dim hd drv]; rfl

theorem schurInverse_isInverse (inv : ℕ → (ℕ → ℕ → K) → ℕ → ℕ → K) (hinv : InvContract inv)
    (A B : ℕ → ℕ → K) (N C dim : ℕ) (h : FreeBlockInverse N C dim A B) :
    IsInverse (dim * (N - C)) (fun i j => A (fIdx N C i) (fIdx N C j))
      (schurInverse inv N C dim A) := by
  refine hinv _ _ ⟨fun i j => B (fIdx N C i) (fIdx N C j), ?_, ?_⟩
  all_goals
    intro i hi j hj
    obtain ⟨i1, i2, i3⟩ := div_mod_block hi
    obtain ⟨j1, j2, j3⟩ := div_mod_block hj
    rw [sum_range_mul]
  · have e := h.1 _ i1 (C + i % (N - C)) (by omega) (by omega) _ j1 (C + j % (N - C)) (by omega)
      (by omega)
    simp only [Finset.sum_Ico_eq_sum_range] at e
    convert e using 1
    · refine Finset.sum_congr rfl fun d _ => Finset.sum_congr rfl fun k hk => ?_
      have hk := Finset.mem_range.1 hk
      simp only [fIdx, block_div _ hk, block_mod _ hk]
    · congr 1
      apply propext
      constructor
      · rintro rfl; simp
      · rintro ⟨h1, h2⟩
        rw [← i3, ← j3, h1]; omega
  · have e := h.2 _ i1 (C + i % (N - C)) (by omega) (by omega) _ j1 (C + j % (N - C)) (by omega)
      (by omega)
    simp only [Finset.sum_Ico_eq_sum_range] at e
    convert e using 1
    · refine Finset.sum_congr rfl fun d _ => Finset.sum_congr rfl fun k hk => ?_
      have hk := Finset.mem_range.1 hk
      simp only [fIdx, block_div _ hk, block_mod _ hk]
    · congr 1
      apply propext
      constructor
      · rintro rfl; simp
      · rintro ⟨h1, h2⟩
        rw [← i3, ← j3, h1]; omega

/-- `merge` puts the entries where they belong in one and two dimensions. -/
theorem merge_contact (s : SchurSolver K) (hC : s.contactCount ≤ s.nodesCount)
    (hd : s.dimension = 1 ∨ s.dimension = 2) (hdrv : s.drivingVector = false) (xc xf : ℕ → K)
    (i : ℕ) (hi : i < s.dimension * s.contactCount) :
    s.merge (s.dimension * s.contactCount) (s.dimension * (s.nodesCount - s.contactCount)) xc xf
      (cIdx s.nodesCount s.contactCount i) = xc i := by
  obtain ⟨N, C, dim, drv, m, nf, ff⟩ := s
  simp only at *
  subst hdrv
  obtain ⟨h1, h2, h3⟩ := div_mod_block hi
  rcases hd with hd | hd <;> subst hd
  · have : i / C = 0 := Nat.lt_one_iff.1 h1
    rw [this, Nat.zero_mul, Nat.zero_add] at h3
    simp only [SchurSolver.merge, cIdx, this, h3]
    simp only [Nat.zero_mul, Nat.zero_add]
    simp
    omega
  · have hN : i % C < N := by omega
    have e : 2 * C / 2 = C := by omega
    have e' : C + 2 * (N - C) / 2 = N := by omega
    simp only [SchurSolver.merge, true_or, if_true, flattenC, SchurSolver.concatColumns,
      reshapeC, cIdx, e, e', block_div _ hN, block_mod _ hN, h2, h3]

theorem merge_free (s : SchurSolver K) (hC : s.contactCount ≤ s.nodesCount)
    (hd : s.dimension = 1 ∨ s.dimension = 2) (hdrv : s.drivingVector = false) (xc xf : ℕ → K)
    (j : ℕ) (hj : j < s.dimension * (s.nodesCount - s.contactCount)) :
    s.merge (s.dimension * s.contactCount) (s.dimension * (s.nodesCount - s.contactCount)) xc xf
      (fIdx s.nodesCount s.contactCount j) = xf j := by
  obtain ⟨N, C, dim, drv, m, nf, ff⟩ := s
  simp only at *
  subst hdrv
  obtain ⟨h1, h2, h3⟩ := div_mod_block hj
  rcases hd with hd | hd <;> subst hd
  · have : j / (N - C) = 0 := Nat.lt_one_iff.1 h1
    rw [this, Nat.zero_mul, Nat.zero_add] at h3
    simp [SchurSolver.merge, fIdx, this, h3]
  · have hN : C + j % (N - C) < N := by omega
    have e : 2 * C / 2 = C := by omega
    have e'' : 2 * (N - C) / 2 = N - C := by omega
    have e' : C + (N - C) = N := by omega
    have hn : ¬ (C + j % (N - C) < C) := by omega
    simp only [SchurSolver.merge, true_or, if_true, flattenC, SchurSolver.concatColumns,
      reshapeC, fIdx, e, e'', e', block_div _ hN, block_mod _ hN, if_neg hn,
      Nat.add_sub_cancel_left, h3]

theorem solveImpl_contact (inv : ℕ → (ℕ → ℕ → K) → ℕ → ℕ → K) (S : System K) (N C dim : ℕ)
    (hC : C ≤ N) (hd : dim = 1 ∨ dim = 2)
    (minimise : (ℕ → ℕ → K) → (ℕ → K) → (ℕ → K) → ℕ → K) (len : ℕ) (guess : ℕ → K)
    (i : ℕ) (hi : i < dim * C) :
    (SchurSolver.init inv N C dim false S).solveImpl minimise len guess (cIdx N C i) =
      minimise (SchurSolver.init inv N C dim false S).matrices.boundary
        (SchurSolver.init inv N C dim false S).nodeForces
        ((SchurSolver.init inv N C dim false S).truncateFreeNodes len guess) i := by
  unfold SchurSolver.solveImpl
  exact merge_contact (SchurSolver.init inv N C dim false S) hC hd rfl _ _ i hi

theorem solveImpl_free (inv : ℕ → (ℕ → ℕ → K) → ℕ → ℕ → K) (S : System K) (N C dim : ℕ)
    (hC : C ≤ N) (hd : dim = 1 ∨ dim = 2)
    (minimise : (ℕ → ℕ → K) → (ℕ → K) → (ℕ → K) → ℕ → K) (len : ℕ) (guess : ℕ → K)
    (j : ℕ) (hj : j < dim * (N - C)) :
    (SchurSolver.init inv N C dim false S).solveImpl minimise len guess (fIdx N C j) =
      recovered (dim * C) (dim * (N - C)) (cIdx N C) (fIdx N C) (schurInverse inv N C dim S.lhs) S
      (minimise (SchurSolver.init inv N C dim false S).matrices.boundary
        (SchurSolver.init inv N C dim false S).nodeForces
        ((SchurSolver.init inv N C dim false S).truncateFreeNodes len guess)) j := by
  unfold SchurSolver.solveImpl
  rw [← complement_eq inv S N C dim (by omega) false]
  exact merge_free (SchurSolver.init inv N C dim false S) hC hd rfl _ _ j hj

theorem contactPart_iff {N C dim : ℕ} {xc x : ℕ → K} :
    IsContactPart N C dim xc x ↔ ∀ i < dim * C, x (cIdx N C i) = xc i := by
  constructor
  · intro h i hi
    obtain ⟨h1, h2, h3⟩ := div_mod_block hi
    have := h _ h1 _ h2
    rw [h3] at this
    exact this.symm
  · intro h d hd i hi
    have := h (d * C + i) (block_lt hd hi)
    rw [cIdx, block_div _ hi, block_mod _ hi] at this
    exact this.symm

end
end Conmech
