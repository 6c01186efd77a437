import Verif.Model.Schur
import Verif.Spec.Schur
import Verif.Lemmas.Quadratic
import Mathlib.Algebra.BigOperators.Intervals

/-!
Block elimination for a splitting of an index range into two parts.
-/
namespace Conmech
open Spec

theorem sum_range_mul {M : Type _} [AddCommMonoid M] (d n : ℕ) (g : ℕ → M) :
    ∑ k ∈ Finset.range (d * n), g k =
      ∑ a ∈ Finset.range d, ∑ i ∈ Finset.range n, g (a * n + i) := by
  induction d with
  | zero => simp
  | succ d ih => rw [Nat.succ_mul, Finset.sum_range_add, ih, Finset.sum_range_succ]

theorem div_mod_block {n d k : ℕ} (h : k < d * n) :
    k / n < d ∧ k % n < n ∧ k / n * n + k % n = k := by
  have hn : 0 < n := by
    rcases Nat.eq_zero_or_pos n with h0 | h0
    · subst h0; simp at h
    · exact h0
  refine ⟨(Nat.div_lt_iff_lt_mul hn).2 h, Nat.mod_lt _ hn, ?_⟩
  rw [Nat.mul_comm]; exact Nat.div_add_mod k n

theorem block_div {n i : ℕ} (d : ℕ) (h : i < n) : (d * n + i) / n = d := by
  rw [Nat.mul_comm, Nat.mul_add_div (by omega), Nat.div_eq_of_lt h, Nat.add_zero]

theorem block_mod {n i : ℕ} (d : ℕ) (h : i < n) : (d * n + i) % n = i := by
  rw [Nat.mul_comm, Nat.mul_add_mod, Nat.mod_eq_of_lt h]

theorem block_lt {n i d e : ℕ} (hd : d < e) (h : i < n) : d * n + i < e * n := by
  calc d * n + i < d * n + n := by omega
    _ = (d + 1) * n := by ring
    _ ≤ e * n := Nat.mul_le_mul_right n hd

/-- The index range `n` is split by `c` and `f` into parts of size `a` and `b`. -/
structure Split (K : Type _) [AddCommMonoid K] (n a b : ℕ) (c f : ℕ → ℕ) : Prop where
  sum : ∀ (g : ℕ → K), ∑ k ∈ Finset.range n, g k =
    ∑ i ∈ Finset.range a, g (c i) + ∑ j ∈ Finset.range b, g (f j)
  cover : ∀ k < n, (∃ i < a, k = c i) ∨ ∃ j < b, k = f j
  clt : ∀ i < a, c i < n
  flt : ∀ j < b, f j < n

/-- Degree of freedom of the `i`-th entry of a vector of contact values. -/
def cIdx (N C : ℕ) (i : ℕ) : ℕ := i / C * N + i % C

/-- Degree of freedom of the `j`-th entry of a vector of free values. -/
def fIdx (N C : ℕ) (j : ℕ) : ℕ := j / (N - C) * N + (C + j % (N - C))

theorem split_nodes (K : Type _) [AddCommMonoid K] (N C dim : ℕ) (h : C ≤ N) :
    Split K (dim * N) (dim * C) (dim * (N - C)) (cIdx N C) (fIdx N C) where
  sum g := by
    rw [sum_range_mul, sum_range_mul, sum_range_mul, ← Finset.sum_add_distrib]
    refine Finset.sum_congr rfl fun d _ => ?_
    have : N = C + (N - C) := by omega
    conv_lhs => rw [this, Finset.sum_range_add]
    congr 1
    · refine Finset.sum_congr rfl fun i hi => ?_
      have hi := Finset.mem_range.1 hi
      rw [cIdx, block_div d hi, block_mod d hi, ← this]
    · refine Finset.sum_congr rfl fun i hi => ?_
      have hi := Finset.mem_range.1 hi
      rw [fIdx, block_div d hi, block_mod d hi, ← this]
  cover k hk := by
    obtain ⟨h1, h2, h3⟩ := div_mod_block hk
    by_cases hc : k % N < C
    · left
      refine ⟨k / N * C + k % N, block_lt h1 hc, ?_⟩
      rw [cIdx, block_div _ hc, block_mod _ hc, h3]
    · right
      have hf : k % N - C < N - C := by omega
      refine ⟨k / N * (N - C) + (k % N - C), block_lt h1 hf, ?_⟩
      rw [fIdx, block_div _ hf, block_mod _ hf]; omega
  clt i hi := by
    obtain ⟨h1, h2, -⟩ := div_mod_block hi
    exact block_lt h1 (by omega)
  flt i hi := by
    obtain ⟨h1, h2, -⟩ := div_mod_block hi
    exact block_lt h1 (by omega)

section algebra
variable {K : Type _} [Field K]

theorem matVec_congr {m : ℕ} {A : ℕ → ℕ → K} {x y : ℕ → K} (h : ∀ k < m, x k = y k) (i : ℕ) :
    matVec m A x i = matVec m A y i :=
  Finset.sum_congr rfl fun k hk => by rw [h k (Finset.mem_range.1 hk)]

theorem matVec_congr_left {m : ℕ} {A B : ℕ → ℕ → K} {x : ℕ → K} {i : ℕ}
    (h : ∀ k < m, A i k = B i k) : matVec m A x i = matVec m B x i :=
  Finset.sum_congr rfl fun k hk => by rw [h k (Finset.mem_range.1 hk)]

theorem matVec_matMul (m n : ℕ) (A B : ℕ → ℕ → K) (x : ℕ → K) (i : ℕ) :
    matVec n (matMul m A B) x i = matVec m A (matVec n B x) i := by
  unfold matVec matMul
  simp only [Finset.sum_mul, Finset.mul_sum]
  rw [Finset.sum_comm]
  exact Finset.sum_congr rfl fun k _ => Finset.sum_congr rfl fun j _ => by ring

theorem matVec_sub (m : ℕ) (A : ℕ → ℕ → K) (x y : ℕ → K) (i : ℕ) :
    matVec m A (fun k => x k - y k) i = matVec m A x i - matVec m A y i := by
  unfold matVec; rw [← Finset.sum_sub_distrib]
  exact Finset.sum_congr rfl fun k _ => by ring

theorem matVec_sub_left (m : ℕ) (A B : ℕ → ℕ → K) (x : ℕ → K) (i : ℕ) :
    matVec m (fun i j => A i j - B i j) x i = matVec m A x i - matVec m B x i := by
  unfold matVec; rw [← Finset.sum_sub_distrib]
  exact Finset.sum_congr rfl fun k _ => by ring

theorem matVec_one (m : ℕ) (A : ℕ → ℕ → K) (x : ℕ → K) (i : ℕ) (hi : i < m)
    (h : ∀ k < m, A i k = if i = k then 1 else 0) : matVec m A x i = x i := by
  unfold matVec
  rw [Finset.sum_eq_single i]
  · rw [h i hi]; simp
  · intro k hk hne; rw [h k (Finset.mem_range.1 hk)]; simp [Ne.symm hne]
  · intro hn; exact absurd (Finset.mem_range.2 hi) hn

/-- `xᵀ(Ay) = (Aᵀx)ᵀy` -/
theorem dot_matVec (m n : ℕ) (A : ℕ → ℕ → K) (x y : ℕ → K) :
    ∑ i ∈ Finset.range m, x i * matVec n A y i =
      ∑ j ∈ Finset.range n, matVec m (fun j i => A i j) x j * y j := by
  unfold matVec
  simp only [Finset.mul_sum, Finset.sum_mul]
  rw [Finset.sum_comm]
  exact Finset.sum_congr rfl fun k _ => Finset.sum_congr rfl fun j _ => by ring

variable {n a b : ℕ} {c f : ℕ → ℕ}

/-- The condensed system. -/
def condensed (b : ℕ) (c f : ℕ → ℕ) (G : ℕ → ℕ → K) (S : System K) : System K where
  lhs := fun i j => S.lhs (c i) (c j) -
    matMul b (fun i j => S.lhs (c i) (f j)) (matMul b G fun i j => S.lhs (f i) (c j)) i j
  rhs := fun i => S.rhs (c i) -
    matVec b (fun i j => S.lhs (c i) (f j)) (matVec b G fun i => S.rhs (f i)) i

/-- The free values belonging to contact values. -/
def recovered (a b : ℕ) (c f : ℕ → ℕ) (G : ℕ → ℕ → K) (S : System K) (xc : ℕ → K) : ℕ → K :=
  matVec b G fun i => S.rhs (f i) - matVec a (fun i j => S.lhs (f i) (c j)) xc i

theorem row_split (h : Split K n a b c f) (S : System K) (x : ℕ → K) (r : ℕ) :
    ∑ s ∈ Finset.range n, S.lhs r s * x s =
      ∑ i ∈ Finset.range a, S.lhs r (c i) * x (c i) +
        ∑ j ∈ Finset.range b, S.lhs r (f j) * x (f j) := h.sum _

/-- The free rows hold whatever the contact values are. -/
theorem recovered_free_row (h : Split K n a b c f) (S : System K) (G : ℕ → ℕ → K)
    (hG : IsInverse b (fun i j => S.lhs (f i) (f j)) G) (x xc : ℕ → K)
    (hxc : ∀ i < a, x (c i) = xc i) (hxf : ∀ j < b, x (f j) = recovered a b c f G S xc j)
    (j : ℕ) (hj : j < b) : Row n S x (f j) := by
  unfold Row
  rw [row_split h]
  have e1 : ∑ i ∈ Finset.range a, S.lhs (f j) (c i) * x (c i) =
      matVec a (fun i j => S.lhs (f i) (c j)) xc j :=
    Finset.sum_congr rfl fun i hi => by rw [hxc i (Finset.mem_range.1 hi)]
  have e2 : ∑ k ∈ Finset.range b, S.lhs (f j) (f k) * x (f k) =
      matVec b (fun i j => S.lhs (f i) (f j)) (recovered a b c f G S xc) j :=
    Finset.sum_congr rfl fun i hi => by rw [hxf i (Finset.mem_range.1 hi)]
  rw [e1, e2, recovered, ← matVec_matMul, matVec_one _ _ _ _ hj]
  · ring
  · exact fun k hk => hG.1 j hj k hk

/-- The residual of a contact row is the residual of the condensed row. -/
theorem recovered_contact_row (h : Split K n a b c f) (S : System K) (G : ℕ → ℕ → K)
    (x xc : ℕ → K)
    (hxc : ∀ i < a, x (c i) = xc i) (hxf : ∀ j < b, x (f j) = recovered a b c f G S xc j)
    (i : ℕ) :
    ∑ s ∈ Finset.range n, S.lhs (c i) s * x s - S.rhs (c i) =
      matVec a (condensed b c f G S).lhs xc i - (condensed b c f G S).rhs i := by
  rw [row_split h]
  have e1 : ∑ j ∈ Finset.range a, S.lhs (c i) (c j) * x (c j) =
      matVec a (fun i j => S.lhs (c i) (c j)) xc i :=
    Finset.sum_congr rfl fun i hi => by rw [hxc i (Finset.mem_range.1 hi)]
  have e2 : ∑ k ∈ Finset.range b, S.lhs (c i) (f k) * x (f k) =
      matVec b (fun i j => S.lhs (c i) (f j)) (recovered a b c f G S xc) i :=
    Finset.sum_congr rfl fun i hi => by rw [hxf i (Finset.mem_range.1 hi)]
  rw [e1, e2]
  have e3 : ∀ k, recovered a b c f G S xc k = matVec b G (fun i => S.rhs (f i)) k -
      matVec b G (matVec a (fun i j => S.lhs (f i) (c j)) xc) k := fun k => by
    unfold recovered; rw [matVec_sub]
  rw [show recovered a b c f G S xc = fun k => _ from funext e3, matVec_sub]
  have e4 : matVec a (condensed b c f G S).lhs xc i =
      matVec a (fun i j => S.lhs (c i) (c j)) xc i -
        matVec b (fun i j => S.lhs (c i) (f j))
          (matVec b G (matVec a (fun i j => S.lhs (f i) (c j)) xc)) i := by
    unfold condensed
    simp only
    rw [matVec_sub_left (A := fun i j => S.lhs (c i) (c j)), matVec_matMul]
    congr 1
    exact matVec_congr (fun k _ => matVec_matMul _ _ _ _ _ _) _
  rw [e4]
  unfold condensed
  simp only
  ring

theorem condensed_solves (h : Split K n a b c f) (S : System K) (G : ℕ → ℕ → K)
    (hG : IsInverse b (fun i j => S.lhs (f i) (f j)) G) (x xc : ℕ → K)
    (hxc : ∀ i < a, x (c i) = xc i) (hxf : ∀ j < b, x (f j) = recovered a b c f G S xc j)
    (hs : Solves a (condensed b c f G S) xc) : Solves n S x := by
  intro r hr
  rcases h.cover r hr with ⟨i, hi, rfl⟩ | ⟨j, hj, rfl⟩
  · have e := recovered_contact_row h S G x xc hxc hxf i
    have := hs i hi
    unfold Row at this ⊢
    have t : matVec a (condensed b c f G S).lhs xc i = (condensed b c f G S).rhs i := this
    rw [t, sub_self] at e
    exact sub_eq_zero.1 e
  · exact recovered_free_row h S G hG x xc hxc hxf j hj

theorem solves_recovered (h : Split K n a b c f) (S : System K) (G : ℕ → ℕ → K)
    (hG : IsInverse b (fun i j => S.lhs (f i) (f j)) G) (x xc : ℕ → K)
    (hxc : ∀ i < a, x (c i) = xc i) (hs : Solves n S x) :
    (∀ j < b, x (f j) = recovered a b c f G S xc j) ∧ Solves a (condensed b c f G S) xc := by
  have hf : ∀ j < b, x (f j) = recovered a b c f G S xc j := by
    intro j hj
    unfold recovered
    have : ∀ k < b, S.rhs (f k) - matVec a (fun i j => S.lhs (f i) (c j)) xc k =
        matVec b (fun i j => S.lhs (f i) (f j)) (fun i => x (f i)) k := by
      intro k hk
      have := hs (f k) (h.flt k hk)
      unfold Row at this
      rw [row_split h] at this
      have e1 : ∑ i ∈ Finset.range a, S.lhs (f k) (c i) * x (c i) =
          matVec a (fun i j => S.lhs (f i) (c j)) xc k :=
        Finset.sum_congr rfl fun i hi => by rw [hxc i (Finset.mem_range.1 hi)]
      rw [e1] at this
      rw [← this]; unfold matVec; ring
    rw [matVec_congr this, ← matVec_matMul, matVec_one _ _ _ _ hj]
    exact fun k hk => hG.2 j hj k hk
  refine ⟨hf, fun i hi => ?_⟩
  have e := recovered_contact_row h S G x xc hxc hf i
  have := hs (c i) (h.clt i hi)
  unfold Row at this ⊢
  rw [this, sub_self] at e
  exact (sub_eq_zero.1 e.symm)

end algebra

section energy
variable {K : Type _} [Field K] [LinearOrder K] [IsStrictOrderedRing K]
variable {n a b : ℕ} {c f : ℕ → ℕ}

/-- The inverse of a symmetric matrix is symmetric. -/
theorem inverse_symm {A G : ℕ → ℕ → K} (hA : ∀ i < b, ∀ j < b, A i j = A j i)
    (hG : IsInverse b A G) (i : ℕ) (hi : i < b) (j : ℕ) (hj : j < b) : G i j = G j i := by
  -- G i j = ∑ k, G i k * (∑ l, A k l * G j l) = ...
  have h1 : G i j = ∑ k ∈ Finset.range b, ∑ l ∈ Finset.range b, G i k * (A k l * G j l) := by
    have : ∀ k ∈ Finset.range b, ∑ l ∈ Finset.range b, G i k * (A k l * G j l) =
        G i k * (if j = k then 1 else 0) := by
      intro k hk
      have hk := Finset.mem_range.1 hk
      rw [← Finset.mul_sum, ← hG.2 j hj k hk]
      congr 1
      refine Finset.sum_congr rfl fun l hl => ?_
      rw [hA k hk l (Finset.mem_range.1 hl)]; ring
    rw [Finset.sum_congr rfl this, Finset.sum_eq_single j]
    · simp
    · intro k _ hne; simp [Ne.symm hne]
    · intro hn; exact absurd (Finset.mem_range.2 hj) hn
  rw [h1, Finset.sum_comm]
  have : ∀ l ∈ Finset.range b, ∑ k ∈ Finset.range b, G i k * (A k l * G j l) =
      (if i = l then 1 else 0) * G j l := by
    intro l hl
    rw [← hG.2 i hi l (Finset.mem_range.1 hl), Finset.sum_mul]
    exact Finset.sum_congr rfl fun k _ => by ring
  rw [Finset.sum_congr rfl this, Finset.sum_eq_single i]
  · simp
  · intro k _ hne; simp [Ne.symm hne]
  · intro hn; exact absurd (Finset.mem_range.2 hi) hn

/-- The constant by which the two energies differ. -/
def energyGap (b : ℕ) (f : ℕ → ℕ) (G : ℕ → ℕ → K) (S : System K) : K :=
  - (1 / 2 * ∑ j ∈ Finset.range b, S.rhs (f j) * matVec b G (fun i => S.rhs (f i)) j)

theorem energy_recovered (h : Split K n a b c f) (S : System K) (G : ℕ → ℕ → K)
    (hA : ∀ r < n, ∀ s < n, S.lhs r s = S.lhs s r)
    (hG : IsInverse b (fun i j => S.lhs (f i) (f j)) G) (x xc : ℕ → K)
    (hxc : ∀ i < a, x (c i) = xc i) (hxf : ∀ j < b, x (f j) = recovered a b c f G S xc j) :
    energy n S x = energy a (condensed b c f G S) xc + energyGap b f G S := by
  have hGs := inverse_symm (fun i hi j hj => hA _ (h.flt i hi) _ (h.flt j hj)) hG
  -- energy = 1/2 xᵀ(Ax - b) - 1/2 bᵀx
  have e0 : energy n S x = 1 / 2 * ∑ r ∈ Finset.range n,
      x r * (∑ s ∈ Finset.range n, S.lhs r s * x s - S.rhs r) -
      1 / 2 * ∑ r ∈ Finset.range n, S.rhs r * x r := by
    have : ∑ r ∈ Finset.range n, x r * (∑ s ∈ Finset.range n, S.lhs r s * x s - S.rhs r) =
        quad n S.lhs x - ∑ r ∈ Finset.range n, S.rhs r * x r := by
      unfold quad; rw [← Finset.sum_sub_distrib]; exact Finset.sum_congr rfl fun r _ => by ring
    rw [this]; unfold energy; ring
  rw [e0, h.sum, h.sum fun r => S.rhs r * x r]
  have e1 : ∑ j ∈ Finset.range b,
      x (f j) * (∑ s ∈ Finset.range n, S.lhs (f j) s * x s - S.rhs (f j)) = 0 := by
    refine Finset.sum_eq_zero fun j hj => ?_
    have := recovered_free_row h S G hG x xc hxc hxf j (Finset.mem_range.1 hj)
    unfold Row at this
    rw [this]; ring
  have e2 : ∑ i ∈ Finset.range a,
      x (c i) * (∑ s ∈ Finset.range n, S.lhs (c i) s * x s - S.rhs (c i)) =
      quad a (condensed b c f G S).lhs xc -
        ∑ i ∈ Finset.range a, (condensed b c f G S).rhs i * xc i := by
    unfold quad; rw [← Finset.sum_sub_distrib]
    refine Finset.sum_congr rfl fun i hi => ?_
    rw [recovered_contact_row h S G x xc hxc hxf i, hxc i (Finset.mem_range.1 hi)]
    unfold matVec; ring
  have e3 : ∑ i ∈ Finset.range a, S.rhs (c i) * x (c i) =
      ∑ i ∈ Finset.range a, S.rhs (c i) * xc i :=
    Finset.sum_congr rfl fun i hi => by rw [hxc i (Finset.mem_range.1 hi)]
  have e4 : ∑ j ∈ Finset.range b, S.rhs (f j) * x (f j) =
      ∑ j ∈ Finset.range b, S.rhs (f j) * matVec b G (fun i => S.rhs (f i)) j -
      ∑ j ∈ Finset.range b, S.rhs (f j) *
        matVec b G (matVec a (fun i j => S.lhs (f i) (c j)) xc) j := by
    rw [← Finset.sum_sub_distrib]
    refine Finset.sum_congr rfl fun j hj => ?_
    rw [hxf j (Finset.mem_range.1 hj), recovered, matVec_sub]; ring
  have e5 : ∑ j ∈ Finset.range b, S.rhs (f j) *
        matVec b G (matVec a (fun i j => S.lhs (f i) (c j)) xc) j =
      ∑ i ∈ Finset.range a,
        matVec b (fun i j => S.lhs (c i) (f j)) (matVec b G fun i => S.rhs (f i)) i * xc i := by
    rw [dot_matVec b b G (fun j => S.rhs (f j)), dot_matVec b a]
    refine Finset.sum_congr rfl fun i hi => ?_
    congr 1
    have hi := Finset.mem_range.1 hi
    rw [matVec_congr_left (B := fun i j => S.lhs (c i) (f j))
      (fun k hk => hA _ (h.flt k hk) _ (h.clt i hi))]
    refine matVec_congr (fun k hk => ?_) i
    exact matVec_congr_left (fun l hl => hGs l hl k hk)
  have e6 : ∑ i ∈ Finset.range a, (condensed b c f G S).rhs i * xc i =
      ∑ i ∈ Finset.range a, S.rhs (c i) * xc i - ∑ i ∈ Finset.range a,
        matVec b (fun i j => S.lhs (c i) (f j)) (matVec b G fun i => S.rhs (f i)) i * xc i := by
    rw [← Finset.sum_sub_distrib]
    exact Finset.sum_congr rfl fun i _ => by unfold condensed; simp only; ring
  rw [e1, e2, e3, e4, e5]
  unfold energy energyGap
  rw [e6]
  ring

/-- The energy of any vector exceeds the condensed energy of its contact part by the energy of the
deviation of its free part. -/
theorem energy_split (h : Split K n a b c f) (S : System K) (G : ℕ → ℕ → K)
    (hA : ∀ r < n, ∀ s < n, S.lhs r s = S.lhs s r)
    (hG : IsInverse b (fun i j => S.lhs (f i) (f j)) G) (x xs xc : ℕ → K)
    (hxc : ∀ i < a, x (c i) = xc i)
    (hsc : ∀ i < a, xs (c i) = xc i) (hsf : ∀ j < b, xs (f j) = recovered a b c f G S xc j) :
    energy n S x = energy a (condensed b c f G S) xc + energyGap b f G S +
      1 / 2 * quad n S.lhs (fun k => x k - xs k) := by
  rw [← energy_recovered h S G hA hG xs xc hsc hsf]
  have e := energy_expand n S hA xs (fun k => x k - xs k)
  have e0 : (fun i => xs i + (x i - xs i)) = x := by funext i; ring
  rw [e0] at e
  rw [e]
  have hz : ∑ r ∈ Finset.range n,
      (x r - xs r) * (∑ s ∈ Finset.range n, S.lhs r s * xs s - S.rhs r) = 0 := by
    rw [h.sum]
    have z1 : ∑ i ∈ Finset.range a, (x (c i) - xs (c i)) *
        (∑ s ∈ Finset.range n, S.lhs (c i) s * xs s - S.rhs (c i)) = 0 :=
      Finset.sum_eq_zero fun i hi => by
        rw [hxc i (Finset.mem_range.1 hi), hsc i (Finset.mem_range.1 hi)]; ring
    have z2 : ∑ j ∈ Finset.range b, (x (f j) - xs (f j)) *
        (∑ s ∈ Finset.range n, S.lhs (f j) s * xs s - S.rhs (f j)) = 0 :=
      Finset.sum_eq_zero fun j hj => by
        have := recovered_free_row h S G hG xs xc hsc hsf j (Finset.mem_range.1 hj)
        unfold Row at this
        rw [this]; ring
    rw [z1, z2, add_zero]
  rw [hz]; ring

end energy
end Conmech
