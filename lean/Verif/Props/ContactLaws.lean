import Verif.Spec.Cost
import Mathlib.Analysis.Calculus.Deriv.Pow
import Mathlib.Analysis.Calculus.Deriv.Mul
import Mathlib.Analysis.Calculus.Deriv.Add
import Mathlib.Tactic.Linarith
import Mathlib.Tactic.FieldSimp
import Mathlib.Tactic.Positivity
import Mathlib.Tactic.NormNum
/-!
C47, C64, C65: the contact laws of the package.
-/
namespace Conmech
open Spec

section
variable {K : Type _} [Field K] [LinearOrder K] [IsStrictOrderedRing K]

/-- C47. The potential of the slope law is nonnegative. -/
theorem C47_nonneg (slope v static dt : K) (hs : 0 ≤ slope) : 0 ≤ slopePotential slope v static dt := by
  unfold slopePotential
  split_ifs
  · exact le_refl 0
  · positivity

/-- C47. There is no response without penetration, and for a positive slope only then. -/
theorem C47_zero_iff (slope v static dt : K) (hs : 0 < slope) :
    (slopePotential slope v static dt = 0 ↔ v ≤ 0) ∧
    (slopeSubderivative slope v static dt = 0 ↔ v ≤ 0) := by
  unfold slopePotential slopeSubderivative
  constructor
  · split_ifs with h
    · simp [h]
    · simp only [h, iff_false]
      have : 0 < v := lt_of_not_ge h
      positivity
  · split_ifs with h
    · simp [h]
    · simp only [h, iff_false]
      have : 0 < v := lt_of_not_ge h
      positivity

/-- C47. With penetration the potential is half the slope times the square of the penetration. -/
theorem C47_value (slope v static dt : K) (hv : 0 ≤ v) :
    slopePotential slope v static dt = slope * v ^ 2 / 2 ∧
    slopeSubderivative slope v static dt = slope * v := by
  unfold slopePotential slopeSubderivative
  constructor
  · split_ifs with h
    · have : v = 0 := le_antisymm h hv
      simp [this]
    · ring
  · split_ifs with h
    · have : v = 0 := le_antisymm h hv
      simp [this]
    · rfl

/-- C47. The subderivative is a subgradient of the potential everywhere, also at the kink. -/
theorem C47_subgradient (slope static dt v : K) (hs : 0 ≤ slope) :
    IsSubgradient (fun x => slopePotential slope x static dt) (slopeSubderivative slope v static dt) v := by
  intro y
  show slopePotential slope v static dt + slopeSubderivative slope v static dt * (y - v) ≤
    slopePotential slope y static dt
  unfold slopePotential slopeSubderivative
  split_ifs with h1 h2 h2
  · simp
  · have : 0 ≤ 1 / 2 * slope * y ^ 2 := by positivity
    simpa using this
  · have hv : 0 < v := lt_of_not_ge h1
    have : slope * v * y ≤ 0 := mul_nonpos_of_nonneg_of_nonpos (by positivity) h2
    have h3 : 0 ≤ slope * v ^ 2 := by positivity
    nlinarith
  · have : 0 ≤ slope * (y - v) ^ 2 := by positivity
    nlinarith

/-- A function with a subgradient everywhere is convex. -/
theorem convex_of_subgradient (f p : K → K) (h : ∀ x, IsSubgradient f (p x) x) : Convex1 f := by
  intro x y a b ha hb hab
  have h1 := h (a * x + b * y) x
  have h2 := h (a * x + b * y) y
  have h3 := mul_le_mul_of_nonneg_left h1 ha
  have h4 := mul_le_mul_of_nonneg_left h2 hb
  have hb' : b = 1 - a := by linarith
  subst hb'
  nlinarith

/-- C47. The potential is convex. -/
theorem C47_convex (slope static dt : K) (hs : 0 ≤ slope) :
    Convex1 fun x => slopePotential slope x static dt :=
  convex_of_subgradient _ (fun v => slopeSubderivative slope v static dt)
    fun v => C47_subgradient slope static dt v hs

/-- C47. The response does not decrease with the penetration. -/
theorem C47_monotone (slope static dt v w : K) (hs : 0 ≤ slope) (h : v ≤ w) :
    slopeSubderivative slope v static dt ≤ slopeSubderivative slope w static dt := by
  unfold slopeSubderivative
  split_ifs with h1 h2 h2
  · exact le_refl 0
  · have : 0 < w := lt_of_not_ge h2
    positivity
  · exact absurd (h.trans h2) h1
  · exact mul_le_mul_of_nonneg_left h hs

end

example : (0 : ℚ) ≤ 10 ∧ slopePotential (10 : ℚ) 3 0 0 = 45 ∧ slopeSubderivative (10 : ℚ) 3 0 0 = 30 ∧
    slopePotential (10 : ℚ) (-3) 0 0 = 0 := by
  refine ⟨by norm_num, ?_, ?_, ?_⟩ <;> norm_num [slopePotential, slopeSubderivative]

/-- C47. For every real slope the stated subderivative is the derivative of the potential at every
point, the kink included; in particular the potential is continuous. -/
theorem C47_derivative (slope static dt v : ℝ) :
    HasDerivAt (fun x => slopePotential slope x static dt) (slopeSubderivative slope v static dt) v := by
  have key : ∀ x : ℝ, HasDerivAt (fun x : ℝ => 1 / 2 * slope * x ^ 2) (slope * x) x := fun x => by
    have := (hasDerivAt_pow 2 x).const_mul (1 / 2 * slope)
    exact this.congr_deriv (by push_cast; ring)
  rcases lt_trichotomy v 0 with hv | hv | hv
  · rw [show slopeSubderivative slope v static dt = 0 from if_pos hv.le]
    refine (hasDerivAt_const v (0 : ℝ)).congr_of_eventuallyEq ?_
    filter_upwards [gt_mem_nhds hv] with x hx
    exact if_pos (le_of_lt hx)
  · subst hv
    rw [show slopeSubderivative slope 0 static dt = 0 from if_pos (le_refl 0)]
    have h1 : HasDerivWithinAt (fun x => slopePotential slope x static dt) 0 (Set.Iic 0) 0 :=
      (hasDerivWithinAt_const (0 : ℝ) _ (0 : ℝ)).congr
        (fun x hx => if_pos hx) (if_pos (le_refl 0))
    have h2 : HasDerivWithinAt (fun x => slopePotential slope x static dt) 0 (Set.Ici 0) 0 := by
      have := (key 0).hasDerivWithinAt (s := Set.Ici 0)
      rw [mul_zero] at this
      refine this.congr (fun x hx => ?_) ?_
      · rw [(C47_value slope x static dt hx).1]; ring
      · rw [(C47_value slope 0 static dt (le_refl 0)).1]; ring
    have := h1.union h2
    rwa [Set.Iic_union_Ici, hasDerivWithinAt_univ] at this
  · rw [(C47_value slope v static dt hv.le).2]
    refine (key v).congr_of_eventuallyEq ?_
    filter_upwards [lt_mem_nhds hv] with x hx
    rw [(C47_value slope x static dt (le_of_lt hx)).1]; ring

/-- C47. The potential is continuous. -/
theorem C47_continuous (slope static dt : ℝ) : Continuous fun x => slopePotential slope x static dt :=
  continuous_iff_continuousAt.2 fun v => (C47_derivative slope static dt v).continuousAt

/-! ### The law with constant resistance -/

/-- C64. The stated subderivative of the constant law is the derivative of its potential where the
normal static displacement is one. -/
theorem C64_derivative_partial (resistance dt v : ℝ) (hv : v ≠ 0) :
    HasDerivAt (fun x => constPotential resistance x 1 dt) (constSubderivative resistance v 1 dt) v := by
  rcases lt_or_gt_of_ne hv with hv | hv
  · rw [show constSubderivative resistance v 1 dt = 0 from if_pos hv.le]
    refine (hasDerivAt_const v (0 : ℝ)).congr_of_eventuallyEq ?_
    filter_upwards [gt_mem_nhds hv] with x hx
    simp [constPotential, le_of_lt hx]
  · rw [show constSubderivative resistance v 1 dt = resistance from if_neg (not_le.2 hv)]
    have := (hasDerivAt_id v).const_mul resistance
    rw [mul_one] at this
    refine this.congr_of_eventuallyEq ?_
    filter_upwards [lt_mem_nhds hv] with x hx
    have hx' : ¬ x ≤ 0 := not_le.2 hx
    simp [constPotential, hx']

/-- C64, violated. In general the derivative of the potential is the resistance times the static
displacement; so the stated subderivative is wrong whenever the resistance is not zero and the
normal static displacement is not one. -/
theorem C64_derivative_wrong (resistance static dt v : ℝ) (hv : 0 < v) (hr : resistance ≠ 0)
    (hs : static ≠ 1) :
    HasDerivAt (fun x => constPotential resistance x static dt) (resistance * static) v ∧
    ¬ HasDerivAt (fun x => constPotential resistance x static dt)
      (constSubderivative resistance v static dt) v := by
  have h : HasDerivAt (fun x => constPotential resistance x static dt) (resistance * static) v := by
    have := ((hasDerivAt_id v).const_mul resistance).mul_const static
    rw [mul_one] at this
    refine this.congr_of_eventuallyEq ?_
    filter_upwards [lt_mem_nhds hv] with x hx
    exact if_neg (not_le.2 hx)
  refine ⟨h, fun h' => hs ?_⟩
  have := h.unique h'
  rw [show constSubderivative resistance v static dt = resistance from if_neg (not_le.2 hv)] at this
  exact mul_left_cancel₀ hr (this.trans (mul_one _).symm)

/-- C64, violated. Without static displacement (static problems) the constant law has no potential at
all: the optimising solvers ignore the contact, the direct solver does not. -/
theorem C64_static_wrong {K : Type _} [Field K] [LinearOrder K] (resistance v dt : K) (hv : 0 < v) :
    constPotential resistance v 0 dt = 0 ∧ constSubderivative resistance v 0 dt = resistance := by
  refine ⟨?_, if_neg (not_le.2 hv)⟩
  unfold constPotential
  split_ifs <;> simp

example : (0 : ℝ) < 1 ∧ (5 : ℝ) ≠ 0 ∧ (0 : ℝ) ≠ 1 := by norm_num

/-! ### Damped normal compliance -/

/-- C65. Off the obstacle level the stated subderivative is the derivative of the potential: there is
no response before the obstacle is reached. -/
theorem C65_derivative_partial (obstacle kappa beta static dt v : ℝ)
    (h : static + v * dt ≠ obstacle) :
    HasDerivAt (fun x => dampedPotential obstacle kappa beta x static dt)
      (dampedSubderivative obstacle kappa beta v static dt) v := by
  have hc : Continuous fun x : ℝ => static + x * dt := by fun_prop
  rcases lt_or_gt_of_ne h with h | h
  · rw [show dampedSubderivative obstacle kappa beta v static dt = 0 from if_pos h]
    refine (hasDerivAt_const v (0 : ℝ)).congr_of_eventuallyEq ?_
    filter_upwards [hc.continuousAt.eventually (gt_mem_nhds h)] with x hx
    exact if_pos hx
  · rw [show dampedSubderivative obstacle kappa beta v static dt = kappa * dt + beta from
      if_neg (not_lt.2 h.le)]
    have : HasDerivAt (fun x : ℝ => kappa * (static + x * dt - obstacle) + beta * x)
        (kappa * dt + beta) v := by
      have h1 := ((((hasDerivAt_id v).mul_const dt).const_add static).sub_const obstacle).const_mul kappa
      have h2 := (hasDerivAt_id v).const_mul beta
      have h3 := h1.add h2
      exact h3.congr_deriv (by ring)
    refine this.congr_of_eventuallyEq ?_
    filter_upwards [hc.continuousAt.eventually (lt_mem_nhds h)] with x hx
    exact if_neg (not_lt.2 (le_of_lt hx))

/-- C65. The potential is continuous if there is no damping. -/
theorem C65_continuous_partial (obstacle kappa static dt : ℝ) :
    Continuous fun x => dampedPotential obstacle kappa 0 x static dt := by
  have : (fun x => dampedPotential obstacle kappa 0 x static dt) =
      fun x => kappa * max (static + x * dt - obstacle) 0 := by
    funext x
    simp only [dampedPotential]
    split_ifs with h
    · rw [max_eq_right (by linarith)]; simp
    · rw [max_eq_left (by linarith [not_lt.1 h])]; ring
  rw [this]
  fun_prop

/-- C65, violated. With damping the potential jumps where the obstacle is reached with a velocity
`v ≠ 0`: it is `beta * v` there, and zero arbitrarily close. -/
theorem C65_jump_wrong (obstacle kappa beta static dt v : ℝ) (hdt : 0 < dt) (hb : beta ≠ 0) (hv : v ≠ 0)
    (h : static + v * dt = obstacle) :
    dampedPotential obstacle kappa beta v static dt = beta * v ∧
    (∀ w < v, dampedPotential obstacle kappa beta w static dt = 0) ∧
    ¬ ContinuousAt (fun x => dampedPotential obstacle kappa beta x static dt) v := by
  have h0 : dampedPotential obstacle kappa beta v static dt = beta * v := by
    simp [dampedPotential, h]
  have h1 : ∀ w < v, dampedPotential obstacle kappa beta w static dt = 0 := fun w hw => by
    have : static + w * dt < obstacle := by
      have := mul_lt_mul_of_pos_right hw hdt
      linarith
    exact if_pos this
  refine ⟨h0, h1, fun hc => ?_⟩
  have h2 : Filter.Tendsto (fun x => dampedPotential obstacle kappa beta x static dt)
      (nhdsWithin v (Set.Iio v)) (nhds (beta * v)) := by
    rw [← h0]; exact hc.tendsto.mono_left nhdsWithin_le_nhds
  have h3 : Filter.Tendsto (fun x => dampedPotential obstacle kappa beta x static dt)
      (nhdsWithin v (Set.Iio v)) (nhds 0) := by
    refine tendsto_const_nhds.congr' ?_
    filter_upwards [self_mem_nhdsWithin] with x hx
    exact (h1 x hx).symm
  have := tendsto_nhds_unique h2 h3
  exact mul_ne_zero hb hv this

example : (0 : ℝ) < 1 ∧ (1 : ℝ) ≠ 0 ∧ (2 : ℝ) ≠ 0 ∧ (1 : ℝ) + 2 * 1 = 3 := by norm_num

/-- C65, violated. What the optimising solvers minimise is the potential multiplied by the bound
`v / 2`. Where the contact is active, its derivative differs from the stated subderivative except at a
single velocity (for `kappa * dt + beta ≠ 0`). -/
theorem C65_bounded_wrong (obstacle kappa beta static dt v : ℝ) (h : obstacle < static + v * dt) :
    HasDerivAt (fun x => dampedBound x static dt * dampedPotential obstacle kappa beta x static dt)
      ((kappa * dt + beta) * v + kappa / 2 * (static - obstacle)) v ∧
    (HasDerivAt (fun x => dampedBound x static dt * dampedPotential obstacle kappa beta x static dt)
      (dampedSubderivative obstacle kappa beta v static dt) v ↔
      (kappa * dt + beta) * (v - 1) + kappa / 2 * (static - obstacle) = 0) := by
  have h1 := C65_derivative_partial obstacle kappa beta static dt v (ne_of_gt h)
  have h2 : HasDerivAt (fun x => dampedBound x static dt) (1 / 2) v := by
    have := (hasDerivAt_id v).const_mul (1 / 2 : ℝ)
    rw [mul_one] at this
    exact this
  have hsub : dampedSubderivative obstacle kappa beta v static dt = kappa * dt + beta :=
    if_neg (not_lt.2 h.le)
  have hpot : dampedPotential obstacle kappa beta v static dt =
      kappa * (static + v * dt - obstacle) + beta * v := if_neg (not_lt.2 h.le)
  have h3 : HasDerivAt
      (fun x => dampedBound x static dt * dampedPotential obstacle kappa beta x static dt)
      ((kappa * dt + beta) * v + kappa / 2 * (static - obstacle)) v := by
    have := h2.mul h1
    rw [hsub, hpot] at this
    exact this.congr_deriv (by simp only [dampedBound]; ring)
  refine ⟨h3, ?_⟩
  rw [hsub]
  constructor
  · intro h4
    have := h3.unique h4
    linarith
  · intro h4
    have : kappa * dt + beta = (kappa * dt + beta) * v + kappa / 2 * (static - obstacle) := by linarith
    rw [this]; exact h3

example : (0 : ℝ) < 1 + 2 * 1 ∧ ((1 : ℝ) * 1 + 1) * (2 - 1) + 1 / 2 * (1 - 0) ≠ 0 := by norm_num

end Conmech
