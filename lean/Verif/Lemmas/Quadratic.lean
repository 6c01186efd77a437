import Mathlib.Algebra.BigOperators.Ring.Finset
import Mathlib.Algebra.BigOperators.Group.Finset.Sigma
import Mathlib.Algebra.Order.BigOperators.Ring.Finset
import Mathlib.Algebra.Order.Field.Basic
import Mathlib.Tactic.Ring
import Mathlib.Tactic.Linarith
import Mathlib.Tactic.LinearCombination
import Mathlib.Tactic.FieldSimp
import Mathlib.Tactic.Positivity
import Verif.Spec.Dirichlet

/-!
Quadratic energies of finite linear systems.
-/
namespace Conmech
open Spec

section
variable {K : Type _} [Field K]

/-- The bilinear form of a matrix. -/
def bilin (n : ℕ) (A : ℕ → ℕ → K) (x y : ℕ → K) : K :=
  ∑ r ∈ Finset.range n, x r * ∑ s ∈ Finset.range n, A r s * y s

theorem quad_eq_bilin (n : ℕ) (A : ℕ → ℕ → K) (x : ℕ → K) : quad n A x = bilin n A x x := rfl

theorem bilin_add_left (n : ℕ) (A : ℕ → ℕ → K) (x x' y : ℕ → K) :
    bilin n A (fun i => x i + x' i) y = bilin n A x y + bilin n A x' y := by
  unfold bilin; rw [← Finset.sum_add_distrib]
  exact Finset.sum_congr rfl fun r _ => by ring

theorem bilin_smul_left (n : ℕ) (A : ℕ → ℕ → K) (t : K) (x y : ℕ → K) :
    bilin n A (fun i => t * x i) y = t * bilin n A x y := by
  unfold bilin; rw [Finset.mul_sum]
  exact Finset.sum_congr rfl fun r _ => by ring

theorem bilin_add_right (n : ℕ) (A : ℕ → ℕ → K) (x y y' : ℕ → K) :
    bilin n A x (fun i => y i + y' i) = bilin n A x y + bilin n A x y' := by
  unfold bilin; rw [← Finset.sum_add_distrib]
  refine Finset.sum_congr rfl fun r _ => ?_
  rw [← mul_add, ← Finset.sum_add_distrib]
  congr 1
  exact Finset.sum_congr rfl fun s _ => by ring

theorem bilin_smul_right (n : ℕ) (A : ℕ → ℕ → K) (t : K) (x y : ℕ → K) :
    bilin n A x (fun i => t * y i) = t * bilin n A x y := by
  unfold bilin; rw [Finset.mul_sum]
  refine Finset.sum_congr rfl fun r _ => ?_
  rw [Finset.mul_sum, Finset.mul_sum, Finset.mul_sum]
  exact Finset.sum_congr rfl fun s _ => by ring

theorem bilin_symm (n : ℕ) (A : ℕ → ℕ → K) (hA : ∀ r < n, ∀ s < n, A r s = A s r) (x y : ℕ → K) :
    bilin n A x y = bilin n A y x := by
  unfold bilin
  simp only [Finset.mul_sum]
  rw [Finset.sum_comm]
  refine Finset.sum_congr rfl fun r hr => Finset.sum_congr rfl fun s hs => ?_
  rw [hA s (Finset.mem_range.1 hs) r (Finset.mem_range.1 hr)]; ring

end

section
variable {K : Type _} [Field K] [LinearOrder K] [IsStrictOrderedRing K]

theorem energy_expand (n : ℕ) (S : System K) (hA : ∀ r < n, ∀ s < n, S.lhs r s = S.lhs s r)
    (x d : ℕ → K) :
    energy n S (fun i => x i + d i) = energy n S x +
      ∑ r ∈ Finset.range n, d r * (∑ s ∈ Finset.range n, S.lhs r s * x s - S.rhs r) +
      1 / 2 * quad n S.lhs d := by
  have h1 : quad n S.lhs (fun i => x i + d i) =
      quad n S.lhs x + 2 * bilin n S.lhs d x + quad n S.lhs d := by
    simp only [quad_eq_bilin]
    rw [bilin_add_left, bilin_add_right, bilin_add_right, bilin_symm n S.lhs hA x d]; ring
  have h2 : ∑ r ∈ Finset.range n, S.rhs r * (x r + d r) =
      ∑ r ∈ Finset.range n, S.rhs r * x r + ∑ r ∈ Finset.range n, d r * S.rhs r := by
    rw [← Finset.sum_add_distrib]; exact Finset.sum_congr rfl fun r _ => by ring
  have h3 : ∑ r ∈ Finset.range n, d r * (∑ s ∈ Finset.range n, S.lhs r s * x s - S.rhs r) =
      bilin n S.lhs d x - ∑ r ∈ Finset.range n, d r * S.rhs r := by
    unfold bilin; rw [← Finset.sum_sub_distrib]; exact Finset.sum_congr rfl fun r _ => by ring
  unfold energy
  rw [h1, h2, h3]; ring

/-- For a symmetric nonnegative matrix, solutions of the system are the minimisers of the energy. -/
theorem solves_iff_minimises (n : ℕ) (S : System K)
    (hA : ∀ r < n, ∀ s < n, S.lhs r s = S.lhs s r) (hpos : ∀ x, 0 ≤ quad n S.lhs x) (x : ℕ → K) :
    Solves n S x ↔ ∀ y, energy n S x ≤ energy n S y := by
  constructor
  · intro hx y
    have e := energy_expand n S hA x (fun i => y i - x i)
    have e0 : (fun i => x i + (y i - x i)) = y := by funext i; ring
    rw [e0] at e
    rw [e]
    have hz : ∑ r ∈ Finset.range n,
        (y r - x r) * (∑ s ∈ Finset.range n, S.lhs r s * x s - S.rhs r) = 0 := by
      apply Finset.sum_eq_zero
      intro r hr
      have := hx r (Finset.mem_range.1 hr)
      unfold Row at this
      rw [this]; ring
    rw [hz]
    have := hpos (fun i => y i - x i)
    linarith
  · intro hmin r hr
    by_contra hne
    unfold Row at hne
    set g := ∑ s ∈ Finset.range n, S.lhs r s * x s - S.rhs r with hg
    have hg0 : g ≠ 0 := sub_ne_zero.2 hne
    -- move along the r-th coordinate
    set q := quad n S.lhs (fun i => if i = r then 1 else 0) with hq
    have hq0 : 0 ≤ q := hpos _
    set t := - g / (q + 1) with ht
    have hexp := energy_expand n S hA x (fun i => t * (if i = r then 1 else 0))
    have hlin : ∑ i ∈ Finset.range n, (t * (if i = r then 1 else 0)) *
        (∑ s ∈ Finset.range n, S.lhs i s * x s - S.rhs i) = t * g := by
      rw [Finset.sum_eq_single r]
      · simp [hg]
      · intro i _ hi; simp [hi]
      · intro h; exact absurd (Finset.mem_range.2 hr) h
    have hquad : quad n S.lhs (fun i => t * (if i = r then 1 else 0)) = t * t * q := by
      rw [quad_eq_bilin, bilin_smul_left, bilin_smul_right, hq, quad_eq_bilin]; ring
    rw [hlin, hquad] at hexp
    have hle := hmin (fun i => x i + t * (if i = r then 1 else 0))
    rw [hexp] at hle
    have hq1 : 0 < q + 1 := by linarith
    have hgg : 0 < g * g := mul_self_pos.2 hg0
    have hval : t * g + 1 / 2 * (t * t * q) = - (g * g) / (q + 1) * (1 - q / (2 * (q + 1))) := by
      rw [ht]; field_simp; ring
    have hneg : t * g + 1 / 2 * (t * t * q) < 0 := by
      rw [hval]
      have h1 : - (g * g) / (q + 1) < 0 := div_neg_of_neg_of_pos (by linarith) hq1
      have h2 : 0 < 1 - q / (2 * (q + 1)) := by
        rw [sub_pos, div_lt_one (by linarith)]; linarith
      exact mul_neg_of_neg_of_pos h1 h2
    linarith

end
end Conmech
