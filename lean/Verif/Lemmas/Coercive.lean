import Mathlib.Analysis.Convex.Continuous
import Mathlib.Analysis.Normed.Module.FiniteDimension
import Mathlib.Topology.Order.Compact
/-!
The sum of a definite quadratic form and a convex function attains its minimum.
-/
namespace Conmech

theorem exists_minimiser {E : Type*} [NormedAddCommGroup E] [NormedSpace ℝ E] [FiniteDimensional ℝ E]
    (q g : E → ℝ) (hq : Continuous q) (hhom : ∀ (t : ℝ) x, q (t • x) = t ^ 2 * q x)
    (hpos : ∀ x, x ≠ 0 → 0 < q x) (hg : ConvexOn ℝ Set.univ g) :
    ∃ x, ∀ y, q x + g x ≤ q y + g y := by
  have : ProperSpace E := FiniteDimensional.proper ℝ E
  have hgc : Continuous g := continuousOn_univ.mp (hg.continuousOn isOpen_univ)
  have hq0 : q 0 = 0 := by simpa using hhom 0 0
  rcases (Metric.sphere (0 : E) 1).eq_empty_or_nonempty with hempty | hne
  · refine ⟨0, fun y => ?_⟩
    have : y = 0 := by
      by_contra hy
      have : (‖y‖⁻¹ • y) ∈ Metric.sphere (0 : E) 1 := by
        simp [norm_smul, norm_ne_zero_iff.mpr hy]
      rw [hempty] at this
      exact this
    rw [this]
  · have hcomp : IsCompact (Metric.sphere (0 : E) 1) := isCompact_sphere 0 1
    obtain ⟨a, ha, hamin⟩ := hcomp.exists_isMinOn hne hq.continuousOn
    obtain ⟨b, hb, hbmin⟩ := hcomp.exists_isMinOn hne hgc.continuousOn
    have ha0 : 0 < q a := hpos a (by rintro rfl; simp at ha)
    set R : ℝ := max 1 ((g 0 - g b) / q a) with hR
    have hR1 : 1 ≤ R := le_max_left _ _
    obtain ⟨x, hx, hxmin⟩ := (isCompact_closedBall (0 : E) R).exists_isMinOn
      ⟨0, by simp; linarith⟩ (hq.add hgc).continuousOn
    refine ⟨x, fun y => ?_⟩
    have hx0 : q x + g x ≤ q 0 + g 0 := hxmin (by simp; linarith)
    by_cases hy : ‖y‖ ≤ R
    · exact hxmin (by simpa using hy)
    · have hy := not_le.mp hy
      have hy1 : 1 < ‖y‖ := lt_of_le_of_lt hR1 hy
      have hy0 : 0 < ‖y‖ := by linarith
      set z := ‖y‖⁻¹ • y with hz
      have hzs : z ∈ Metric.sphere (0 : E) 1 := by
        simp [hz, norm_smul, hy0.ne']
      have hyz : y = ‖y‖ • z := by rw [hz, smul_smul, mul_inv_cancel₀ hy0.ne', one_smul]
      have h1 : q a ≤ q z := hamin hzs
      have h2 : g b ≤ g z := hbmin hzs
      have h3 : g z ≤ ‖y‖⁻¹ * g y + (1 - ‖y‖⁻¹) * g 0 := by
        have := hg.2 (Set.mem_univ y) (Set.mem_univ (0 : E)) (inv_nonneg.mpr hy0.le)
          (by simp [inv_le_one_of_one_le₀ hy1.le] : (0 : ℝ) ≤ 1 - ‖y‖⁻¹) (by ring)
        simpa using this
      have h4 : ‖y‖ * g b ≤ g y + (‖y‖ - 1) * g 0 := by
        have h5 : ‖y‖ * g z ≤ ‖y‖ * (‖y‖⁻¹ * g y + (1 - ‖y‖⁻¹) * g 0) :=
          mul_le_mul_of_nonneg_left h3 hy0.le
        have h6 : ‖y‖ * (‖y‖⁻¹ * g y + (1 - ‖y‖⁻¹) * g 0) = g y + (‖y‖ - 1) * g 0 := by
          field_simp
        have h7 : ‖y‖ * g b ≤ ‖y‖ * g z := mul_le_mul_of_nonneg_left h2 hy0.le
        linarith
      have h5 : q y = ‖y‖ ^ 2 * q z := by
        conv_lhs => rw [hyz]
        exact hhom _ _
      have h6 : ‖y‖ ^ 2 * q a ≤ q y := by
        rw [h5]; exact mul_le_mul_of_nonneg_left h1 (by positivity)
      have h7 : g 0 - g b ≤ R * q a := by
        have := le_max_right 1 ((g 0 - g b) / q a)
        rw [← hR] at this
        calc g 0 - g b = (g 0 - g b) / q a * q a := by field_simp
          _ ≤ R * q a := mul_le_mul_of_nonneg_right this ha0.le
      have h8 : ‖y‖ * (g 0 - g b) ≤ ‖y‖ ^ 2 * q a := by
        have : R * q a ≤ ‖y‖ * q a := mul_le_mul_of_nonneg_right hy.le ha0.le
        nlinarith
      rw [hq0] at hx0
      nlinarith

end Conmech
