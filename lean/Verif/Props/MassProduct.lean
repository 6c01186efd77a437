import Verif.Props.MassStiffness
/-!
C23: the ninth feature of an edge is the exact integral of the product of two shape functions.
-/
namespace Conmech
open Spec

variable {K : Type _} [Field K] [LinearOrder K] [IsStrictOrderedRing K]

theorem Plane.jacobian_eq (X : ℕ → ℕ → K) : Plane.jacobian X = |det2 X| := by
  unfold Plane.jacobian Plane.det det2
  ring_nf

/-- C23: the integral of the product of two shape functions, computed from moments of the coordinates,
is a twelfth of the area, a sixth if they are equal; so the last feature is the entry of the mass
matrix. -/
theorem C23_product (X : ℕ → ℕ → K) (h : det2 X ≠ 0) (i j : ℕ) (hi : i < 3) (hj : j < 3) :
    Plane.q X i j = area X * ((1 + if i = j then 1 else 0) / 12) ∧
    (Plane.features X i j).getD 8 0 = (Plane.features X i j).getD 1 0 := by
  have hq : Plane.q X i j = area X * ((1 + if i = j then 1 else 0) / 12) := by
    have hv := Plane.volume_eq X i hi
    have habs : |det2 X| * |det2 X| = det2 X * det2 X := abs_mul_abs_self _
    have hne : |det2 X| ≠ 0 := abs_ne_zero.2 h
    unfold Plane.q
    rw [hv, Plane.jacobian_eq]
    unfold area
    generalize hJ : |det2 X| = J at *
    have key : (∑ b ∈ Finset.range 3, (∑ a ∈ Finset.range 3, Plane.coeffs X i a * Plane.intMatrix X a b) *
        Plane.coeffs X j b) + Plane.coeffs X i 0 * Plane.coeffs X j 0 / 2 =
        det2 X * det2 X * ((1 + if i = j then 1 else 0) / 24) := by
      unfold det2
      interval_cases i <;> interval_cases j <;>
        simp [Finset.sum_range_succ, Plane.coeffs, Plane.intMatrix, Plane.intSqr, Plane.intXY,
          Plane.det] <;> ring
    have hpull : (∑ b ∈ Finset.range 3, (∑ a ∈ Finset.range 3, J * Plane.coeffs X i a *
        Plane.intMatrix X a b) * Plane.coeffs X j b) =
        J * ∑ b ∈ Finset.range 3, (∑ a ∈ Finset.range 3, Plane.coeffs X i a * Plane.intMatrix X a b) *
          Plane.coeffs X j b := by
      rw [Finset.mul_sum]
      refine Finset.sum_congr rfl fun b _ => ?_
      rw [← mul_assoc, Finset.mul_sum]
      congr 1
      exact Finset.sum_congr rfl fun a _ => by ring
    rw [hpull, ← habs] at *
    generalize (∑ b ∈ Finset.range 3, (∑ a ∈ Finset.range 3, Plane.coeffs X i a * Plane.intMatrix X a b) *
        Plane.coeffs X j b) = S at *
    generalize Plane.coeffs X i 0 * Plane.coeffs X j 0 = c at *
    have hS : S = J * J * ((1 + if i = j then 1 else 0) / 24) - c / 2 := by linarith
    rw [hS]
    generalize (if i = j then (1 : K) else 0) = δ
    field_simp
    ring
  refine ⟨hq, ?_⟩
  have hne : area X ≠ 0 := by
    unfold area
    have := abs_ne_zero.2 h
    positivity
  simp only [Plane.features, List.map_cons, List.getD_cons_zero, List.getD_cons_succ,
    Plane.volume_eq X i hi, hq]
  field_simp

/-- A triangle that is not degenerate. -/
example : det2 (fun i k => ([[0, 0], [2, 0], [1, 3]] : List (List ℚ)).getD i [] |>.getD k 0) ≠ 0 := by
  simp [det2]

end Conmech
