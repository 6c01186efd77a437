import Verif.Lemmas.SchurModel
import Mathlib.LinearAlgebra.Matrix.NonsingularInverse
import Mathlib.LinearAlgebra.Matrix.ToLin
/-!
The block that the condensed method inverts: for definite matrices it is invertible, and the condensed
matrix is definite.
-/
namespace Conmech
open Spec

section
variable {K : Type} [Field K]

theorem exists_isInverse (n : ℕ) (A : ℕ → ℕ → K)
    (h : ∀ x : ℕ → K, (∀ r < n, ∑ s ∈ Finset.range n, A r s * x s = 0) → ∀ r < n, x r = 0) :
    ∃ B, IsInverse n A B := by
  let M : Matrix (Fin n) (Fin n) K := fun i j => A i j
  have hinj : Function.Injective M.mulVec := by
    intro x y hxy
    funext s
    have hz := h (fun r => if hr : r < n then x ⟨r, hr⟩ - y ⟨r, hr⟩ else 0) (fun r hr => by
      have e := congrFun hxy ⟨r, hr⟩
      simp only [Matrix.mulVec, dotProduct] at e
      rw [Finset.sum_range]
      simp only [Fin.is_lt, dif_pos, mul_sub, Finset.sum_sub_distrib]
      exact sub_eq_zero.2 e) s s.2
    simp only [Fin.is_lt, dif_pos] at hz
    exact sub_eq_zero.1 hz
  have hu : IsUnit M.det := (Matrix.isUnit_iff_isUnit_det M).1 (Matrix.mulVec_injective_iff_isUnit.1 hinj)
  have h1 := Matrix.mul_nonsing_inv M hu
  have h2 := Matrix.nonsing_inv_mul M hu
  refine ⟨fun i j => if hi : i < n then if hj : j < n then M⁻¹ ⟨i, hi⟩ ⟨j, hj⟩ else 0 else 0, ?_, ?_⟩
  · intro i hi j hj
    have e := congrFun (congrFun h1 ⟨i, hi⟩) ⟨j, hj⟩
    rw [Matrix.mul_apply, Matrix.one_apply] at e
    simp only [Fin.mk.injEq] at e
    rw [← e, Finset.sum_range]
    refine Finset.sum_congr rfl fun k _ => ?_
    simp [M, hj]
  · intro i hi j hj
    have e := congrFun (congrFun h2 ⟨i, hi⟩) ⟨j, hj⟩
    rw [Matrix.mul_apply, Matrix.one_apply] at e
    simp only [Fin.mk.injEq] at e
    rw [← e, Finset.sum_range]
    refine Finset.sum_congr rfl fun k _ => ?_
    simp [M, hi]

end

section
variable {K : Type} [Field K] [LinearOrder K]

/-- The quadratic form is positive. -/
def PositiveForm (n : ℕ) (A : ℕ → ℕ → K) : Prop :=
  ∀ x : ℕ → K, (∃ r < n, x r ≠ 0) → 0 < quad n A x

/-- The block of a definite matrix that belongs to the free nodes has an inverse. -/
theorem freeBlock_exists (N C dim : ℕ) (hC : C ≤ N) (A : ℕ → ℕ → K) (hpos : PositiveForm (dim * N) A) :
    ∃ B, FreeBlockInverse N C dim A B := by
  have hsp := split_nodes K N C dim hC
  obtain ⟨G, hG⟩ := exists_isInverse (dim * (N - C)) (fun i j => A (fIdx N C i) (fIdx N C j)) (by
    intro v hv
    -- the vector with these free values
    let x : ℕ → K := fun r => if C ≤ r % N then v (r / N * (N - C) + (r % N - C)) else 0
    have hf : ∀ j < dim * (N - C), x (fIdx N C j) = v j := by
      intro j hj
      obtain ⟨j1, j2, j3⟩ := div_mod_block hj
      have hlt : C + j % (N - C) < N := by omega
      simp only [x, fIdx, block_mod _ hlt, block_div _ hlt]
      rw [if_pos (by omega), Nat.add_sub_cancel_left, j3]
    have hc : ∀ i < dim * C, x (cIdx N C i) = 0 := by
      intro i hi
      obtain ⟨i1, i2, i3⟩ := div_mod_block hi
      have hlt : i % C < N := by omega
      simp only [x, cIdx, block_mod _ hlt]
      rw [if_neg (by omega)]
    have hq : quad (dim * N) A x = 0 := by
      unfold quad
      rw [hsp.sum]
      refine (congrArg₂ (· + ·) (Finset.sum_eq_zero fun i hi => ?_)
        (Finset.sum_eq_zero fun j hj => ?_)).trans (add_zero _)
      · rw [hc i (Finset.mem_range.1 hi), zero_mul]
      · have hj := Finset.mem_range.1 hj
        rw [hsp.sum, Finset.sum_eq_zero fun i hi => by rw [hc i (Finset.mem_range.1 hi), mul_zero],
          zero_add, Finset.sum_congr rfl fun k hk => by rw [hf k (Finset.mem_range.1 hk)], hv j hj,
          mul_zero]
    intro j hj
    by_contra hne
    exact (hpos x ⟨fIdx N C j, hsp.flt j hj, by rw [hf j hj]; exact hne⟩).ne' hq)
  refine ⟨fun r s => G (r / N * (N - C) + (r % N - C)) (s / N * (N - C) + (s % N - C)), ?_, ?_⟩
  · intro d hd i hi1 hi2 e he j hj1 hj2
    have key := hG.1 (d * (N - C) + (i - C)) (block_lt hd (by omega)) (e * (N - C) + (j - C))
      (block_lt he (by omega))
    rw [sum_range_mul] at key
    simp only [block_div _ hi2, block_mod _ hi2, block_div _ hj2, block_mod _ hj2]
    simp only [Finset.sum_Ico_eq_sum_range]
    convert key using 1
    · refine Finset.sum_congr rfl fun h _ => Finset.sum_congr rfl fun k hk => ?_
      have hk := Finset.mem_range.1 hk
      have hi' : i - C < N - C := by omega
      simp only [fIdx, block_div _ hk, block_mod _ hk, block_div _ hi', block_mod _ hi']
      rw [block_div _ (by omega : C + k < N), block_mod _ (by omega : C + k < N), Nat.add_sub_cancel_left,
        Nat.add_sub_cancel' hi1]
    · congr 1
      apply propext
      constructor
      · rintro ⟨rfl, rfl⟩; rfl
      · intro h
        have h1 := congrArg (· / (N - C)) h
        have h2 := congrArg (· % (N - C)) h
        simp only [block_div _ (show i - C < N - C by omega), block_div _ (show j - C < N - C by omega),
          block_mod _ (show i - C < N - C by omega), block_mod _ (show j - C < N - C by omega)] at h1 h2
        exact ⟨h1, by omega⟩
  · intro d hd i hi1 hi2 e he j hj1 hj2
    have key := hG.2 (d * (N - C) + (i - C)) (block_lt hd (by omega)) (e * (N - C) + (j - C))
      (block_lt he (by omega))
    rw [sum_range_mul] at key
    simp only [block_div _ hi2, block_mod _ hi2, block_div _ hj2, block_mod _ hj2]
    simp only [Finset.sum_Ico_eq_sum_range]
    convert key using 1
    · refine Finset.sum_congr rfl fun h _ => Finset.sum_congr rfl fun k hk => ?_
      have hk := Finset.mem_range.1 hk
      have hj' : j - C < N - C := by omega
      simp only [fIdx, block_div _ hk, block_mod _ hk, block_div _ hj', block_mod _ hj']
      rw [block_div _ (by omega : C + k < N), block_mod _ (by omega : C + k < N), Nat.add_sub_cancel_left,
        Nat.add_sub_cancel' hj1]
    · congr 1
      apply propext
      constructor
      · rintro ⟨rfl, rfl⟩; rfl
      · intro h
        have h1 := congrArg (· / (N - C)) h
        have h2 := congrArg (· % (N - C)) h
        simp only [block_div _ (show i - C < N - C by omega), block_div _ (show j - C < N - C by omega),
          block_mod _ (show i - C < N - C by omega), block_mod _ (show j - C < N - C by omega)] at h1 h2
        exact ⟨h1, by omega⟩

variable [IsStrictOrderedRing K]

/-- The condensed matrix of a definite matrix is definite. -/
theorem condensed_positive {n a b : ℕ} {c f : ℕ → ℕ} (h : Split K n a b c f)
    (hdisj : ∀ i < a, ∀ j < b, c i ≠ f j) (hcinj : ∀ i < a, ∀ j < a, c i = c j → i = j)
    (hfinj : ∀ i < b, ∀ j < b, f i = f j → i = j) (A : ℕ → ℕ → K) (G : ℕ → ℕ → K)
    (hA : ∀ r < n, ∀ s < n, A r s = A s r) (hG : IsInverse b (fun i j => A (f i) (f j)) G)
    (hpos : PositiveForm n A) (rhs : ℕ → K) :
    PositiveForm a (condensed b c f G ⟨A, rhs⟩).lhs := by
  classical
  intro xc hne
  let S : System K := ⟨A, fun _ => 0⟩
  let x : ℕ → K := fun r => if h : ∃ i < a, r = c i then xc h.choose else
    if h : ∃ j < b, r = f j then recovered a b c f G S xc h.choose else 0
  have hxc : ∀ i < a, x (c i) = xc i := by
    intro i hi
    have hex : ∃ i' < a, c i = c i' := ⟨i, hi, rfl⟩
    simp only [x, dif_pos hex]
    rw [← hcinj i hi _ hex.choose_spec.1 hex.choose_spec.2]
  have hxf : ∀ j < b, x (f j) = recovered a b c f G S xc j := by
    intro j hj
    have hno : ¬ ∃ i < a, f j = c i := fun ⟨i, hi, e⟩ => hdisj i hi j hj e.symm
    have hex : ∃ j' < b, f j = f j' := ⟨j, hj, rfl⟩
    simp only [x, dif_neg hno, dif_pos hex]
    rw [← hfinj j hj _ hex.choose_spec.1 hex.choose_spec.2]
  have key := energy_recovered h S G hA hG x xc hxc hxf
  have hm : ∀ m (B : ℕ → ℕ → K) i, matVec m B (fun _ => (0 : K)) i = 0 := fun m B i => by
    unfold matVec; simp
  have hr : ∀ i, (condensed b c f G S).rhs i = 0 := fun i => by
    simp only [condensed, S]
    rw [matVec_congr (y := fun _ => (0 : K)) (fun k _ => hm b G k), hm, sub_zero]
  have hgap : energyGap b f G S = 0 := by
    unfold energyGap
    simp [S]
  have hl : (condensed b c f G ⟨A, rhs⟩).lhs = (condensed b c f G S).lhs := rfl
  rw [hgap, add_zero] at key
  unfold energy at key
  simp only [hr, zero_mul, Finset.sum_const_zero, sub_zero] at key
  have hs : ∑ r ∈ Finset.range n, S.rhs r * x r = 0 := Finset.sum_eq_zero fun r _ => by simp [S]
  rw [hs, sub_zero] at key
  obtain ⟨r, hr', hxr⟩ := hne
  have hp := hpos x ⟨c r, h.clt r hr', by rw [hxc r hr']; exact hxr⟩
  rw [hl]
  have e : quad a (condensed b c f G S).lhs xc = quad n A x := by linarith
  rw [e]
  exact hp

/-- The matrix the condensed method works with is definite, if the one of the system is. -/
theorem boundary_positive (inv : ℕ → (ℕ → ℕ → K) → ℕ → ℕ → K) (hinv : InvContract inv) (S : System K)
    (N C dim : ℕ) (hC : C ≤ N) (hd : 0 < dim) (hA : ∀ r < dim * N, ∀ s < dim * N, S.lhs r s = S.lhs s r)
    (hpos : PositiveForm (dim * N) S.lhs) :
    PositiveForm (dim * C) (SchurSolver.init inv N C dim false S).matrices.boundary := by
  obtain ⟨B, hB⟩ := freeBlock_exists N C dim hC S.lhs hpos
  have e : (SchurSolver.init inv N C dim false S).matrices.boundary =
      (condensed (dim * (N - C)) (cIdx N C) (fIdx N C) (schurInverse inv N C dim S.lhs) S).lhs :=
    congrArg (fun s => s.matrices.boundary) (init_eq inv S N C dim hd false)
  rw [e]
  have hci : ∀ i < dim * C, cIdx N C i % N = i % C ∧ cIdx N C i / N = i / C := fun i hi => by
    obtain ⟨i1, i2, i3⟩ := div_mod_block hi
    exact ⟨block_mod _ (by omega), block_div _ (by omega)⟩
  have hfi : ∀ j < dim * (N - C), fIdx N C j % N = C + j % (N - C) ∧ fIdx N C j / N = j / (N - C) :=
    fun j hj => by
      obtain ⟨i1, i2, i3⟩ := div_mod_block hj
      exact ⟨block_mod _ (by omega), block_div _ (by omega)⟩
  refine condensed_positive (split_nodes K N C dim hC) ?_ ?_ ?_ S.lhs _ hA
    (schurInverse_isInverse inv hinv _ B N C dim hB) hpos S.rhs
  · intro i hi j hj h
    have h1 := (hci i hi).1
    have h2 := (hfi j hj).1
    rw [h, h2] at h1
    have := (div_mod_block hi).2.1
    omega
  · intro i hi j hj h
    have h1 := hci i hi
    have h2 := hci j hj
    rw [h] at h1
    rw [← (div_mod_block hi).2.2, ← (div_mod_block hj).2.2, ← h1.1, ← h1.2, ← h2.1, ← h2.2]
  · intro i hi j hj h
    have h1 := hfi i hi
    have h2 := hfi j hj
    rw [h] at h1
    have e1 : i % (N - C) = j % (N - C) := by omega
    have e2 : i / (N - C) = j / (N - C) := by rw [← h1.2, h2.2]
    rw [← (div_mod_block hi).2.2, ← (div_mod_block hj).2.2, e1, e2]

end
end Conmech
