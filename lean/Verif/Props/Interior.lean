import Verif.Spec.Interior
import Verif.Props.Subgradient
import Verif.Model.ContactLaws
import Mathlib.Analysis.Calculus.LocalExtr.Basic
/-!
C88: contact in the interior of a body.
-/
namespace Conmech
open Spec

section
variable {K : Type _} [Field K]

/-- The functional for interior contact is the energy of the system, half the contact energy, and the
squares of the entries that are no unknowns. -/
theorem interiorEnergy_eq (contact : K → K → K → K) (n : ℕ) (S : System K) (u : ℕ → K)
    (V : ℕ → ℕ → K) (dt : K) (x : Flat K) :
    interiorEnergy contact n S.lhs S.rhs u V dt x = energy n S x.get +
      1 / 2 * interiorContact n V (fun j v => contact v (u j) dt) x.get +
      ∑ i ∈ Finset.Ico n x.size, x.get i * x.get i := by
  unfold interiorEnergy energy interiorContact nodeWeight quad
  have h1 : ∑ i ∈ Finset.range n, (∑ j ∈ Finset.range n, S.lhs i j * x.get j) * x.get i =
      ∑ i ∈ Finset.range n, x.get i * ∑ j ∈ Finset.range n, S.lhs i j * x.get j :=
    Finset.sum_congr rfl fun i _ => mul_comm _ _
  have h2 : ∑ i ∈ Finset.range n, (∑ j ∈ Finset.range n, V i j * contact (x.get j) (u j) dt) * 1 =
      ∑ j ∈ Finset.range n, (∑ i ∈ Finset.range n, V i j) * contact (x.get j) (u j) dt := by
    simp only [mul_one, Finset.sum_mul]
    exact Finset.sum_comm
  rw [h1, h2]

end

/-- C88: what a simulation of the wave equation minimises for a law of interior contact. -/
theorem C88_loss (obstacle kappa beta : ℝ) (dimensionOut dimensionIn : ℕ) :
    ∃ i, optimizationInit .wave dimensionOut dimensionIn (some (dampedLaw obstacle kappa beta true)) =
      .ok i ∧ i.loss = .interior (dampedPotential obstacle kappa beta) := by
  refine ⟨_, rfl, ?_⟩
  simp [dampedLaw, Condition.njit]

/-- C88: the derivative of the functional in an arbitrary direction: the residual of the system and
half the derivative of the law, weighted by the volume matrix. Missing for the full property: the
reaction should not be halved, see `C88_half_wrong`. -/
theorem C88_derivative_partial (contact : ℝ → ℝ → ℝ → ℝ) (n : ℕ) (S : System ℝ)
    (hA : ∀ r < n, ∀ s < n, S.lhs r s = S.lhs s r) (u : ℕ → ℝ) (V : ℕ → ℕ → ℝ) (dt : ℝ)
    (x h : ℕ → ℝ) (slope : ℕ → ℝ)
    (hc : ∀ j < n, HasDerivAt (fun v => contact v (u j) dt) (slope j) (x j)) :
    HasDerivAt (fun t => interiorEnergy contact n S.lhs S.rhs u V dt ⟨n, fun k => x k + t * h k⟩)
      (∑ j ∈ Finset.range n, (∑ k ∈ Finset.range n, S.lhs j k * x k - S.rhs j +
        1 / 2 * (nodeWeight n V j * slope j)) * h j) 0 := by
  simp only [interiorEnergy_eq, Finset.Ico_self, Finset.sum_empty, add_zero]
  have h1 := hasDerivAt_energy n S hA x h
  have h2 : HasDerivAt (fun t : ℝ => interiorContact n V (fun j v => contact v (u j) dt)
      fun k => x k + t * h k) (∑ j ∈ Finset.range n, nodeWeight n V j * (slope j * h j)) 0 := by
    unfold interiorContact
    refine HasDerivAt.fun_sum fun j hj => HasDerivAt.const_mul _ ?_
    have h3 : HasDerivAt (fun t : ℝ => x j + t * h j) (h j) 0 := by
      simpa using ((hasDerivAt_id (0 : ℝ)).mul_const (h j)).const_add (x j)
    have h4 : HasDerivAt (fun v => contact v (u j) dt) (slope j) (x j + 0 * h j) := by
      simpa using hc j (Finset.mem_range.mp hj)
    exact HasDerivAt.comp (0 : ℝ) h4 h3
  refine (h1.add (h2.const_mul (1 / 2))).congr_deriv ?_
  unfold dot
  rw [Finset.mul_sum, ← Finset.sum_add_distrib]
  exact Finset.sum_congr rfl fun j _ => by ring

/-- C88: at every minimiser at which the law is differentiable the forces are in balance with half the
derivative of the law as the reaction. -/
theorem C88_balance (contact : ℝ → ℝ → ℝ → ℝ) (n : ℕ) (S : System ℝ)
    (hA : ∀ r < n, ∀ s < n, S.lhs r s = S.lhs s r) (u : ℕ → ℝ) (V : ℕ → ℕ → ℝ) (dt : ℝ)
    (x : ℕ → ℝ) (slope : ℕ → ℝ)
    (hc : ∀ j < n, HasDerivAt (fun v => contact v (u j) dt) (slope j) (x j))
    (hmin : ∀ y, interiorEnergy contact n S.lhs S.rhs u V dt ⟨n, x⟩ ≤
      interiorEnergy contact n S.lhs S.rhs u V dt ⟨n, y⟩) :
    InBalance n S.lhs S.rhs V (fun j => 1 / 2 * slope j) x := by
  intro j hj
  have h1 := C88_derivative_partial contact n S hA u V dt x (fun k => if k = j then 1 else 0) slope hc
  have h2 : IsLocalMin (fun t => interiorEnergy contact n S.lhs S.rhs u V dt
      ⟨n, fun k => x k + t * if k = j then 1 else 0⟩) 0 :=
    Filter.Eventually.of_forall fun t => by simpa using hmin _
  have h3 := h2.hasDerivAt_eq_zero h1
  simp only [mul_ite, mul_one, mul_zero, Finset.sum_ite_eq', Finset.mem_range, hj, if_true] at h3
  simp only [mul_left_comm _ (1 / 2 : ℝ)] at h3 ⊢
  linarith

/-- C88, violated: at a minimiser with a nonzero reaction the forces are never in balance with the
derivative of the law. -/
theorem C88_half_wrong (contact : ℝ → ℝ → ℝ → ℝ) (n : ℕ) (S : System ℝ)
    (hA : ∀ r < n, ∀ s < n, S.lhs r s = S.lhs s r) (u : ℕ → ℝ) (V : ℕ → ℕ → ℝ) (dt : ℝ)
    (x : ℕ → ℝ) (slope : ℕ → ℝ)
    (hc : ∀ j < n, HasDerivAt (fun v => contact v (u j) dt) (slope j) (x j))
    (hmin : ∀ y, interiorEnergy contact n S.lhs S.rhs u V dt ⟨n, x⟩ ≤
      interiorEnergy contact n S.lhs S.rhs u V dt ⟨n, y⟩)
    (hr : ∃ j < n, nodeWeight n V j * slope j ≠ 0) :
    ¬ InBalance n S.lhs S.rhs V slope x := by
  intro hb
  obtain ⟨j, hj, hne⟩ := hr
  have h1 := C88_balance contact n S hA u V dt x slope hc hmin j hj
  have h2 := hb j hj
  apply hne
  simp only [mul_left_comm _ (1 / 2 : ℝ)] at h1
  linarith

/-- The damped law is zero below the obstacle and affine above it. -/
theorem hasDerivAt_damped (obstacle kappa beta u dt x : ℝ) (hne : u + x * dt ≠ obstacle) :
    HasDerivAt (fun v => dampedPotential obstacle kappa beta v u dt)
      (if u + x * dt < obstacle then 0 else kappa * dt + beta) x := by
  have hcont : Continuous fun v : ℝ => u + v * dt := by fun_prop
  rcases lt_or_gt_of_ne hne with hlt | hgt
  · rw [if_pos hlt]
    refine (hasDerivAt_const x (0 : ℝ)).congr_of_eventuallyEq ?_
    filter_upwards [hcont.continuousAt.eventually_lt continuousAt_const hlt] with v hv
    simp only [dampedPotential, if_pos hv]
  · rw [if_neg (not_lt.mpr hgt.le)]
    have h1 : HasDerivAt (fun v : ℝ => kappa * (u + v * dt - obstacle) + beta * v)
        (kappa * dt + beta) x := by
      have h2 := ((((hasDerivAt_id x).mul_const dt).const_add u).sub_const obstacle).const_mul kappa
      have h3 := (hasDerivAt_id x).const_mul beta
      simp only [id, one_mul, mul_one] at h2 h3
      exact h2.fun_add h3
    refine h1.congr_of_eventuallyEq ?_
    filter_upwards [continuousAt_const.eventually_lt hcont.continuousAt hgt] with v hv
    simp only [dampedPotential, if_neg (not_lt.mpr hv.le)]

/-- C88, violated: with the damped normal compliance law the reaction of the obstacle does not depend on
how deep a node has sunk into it, nor on its velocity: at every minimiser the nodes that are in contact
get the same reaction per unit of weight, and the others get none. -/
theorem C88_depth_wrong (obstacle kappa beta : ℝ) (n : ℕ) (S : System ℝ)
    (hA : ∀ r < n, ∀ s < n, S.lhs r s = S.lhs s r) (u : ℕ → ℝ) (V : ℕ → ℕ → ℝ) (dt : ℝ) (x : ℕ → ℝ)
    (hne : ∀ j < n, u j + x j * dt ≠ obstacle)
    (hmin : ∀ y, interiorEnergy (dampedPotential obstacle kappa beta) n S.lhs S.rhs u V dt ⟨n, x⟩ ≤
      interiorEnergy (dampedPotential obstacle kappa beta) n S.lhs S.rhs u V dt ⟨n, y⟩) :
    InBalance n S.lhs S.rhs V
      (fun j => if u j + x j * dt < obstacle then 0 else 1 / 2 * (kappa * dt + beta)) x := by
  have h1 := C88_balance _ n S hA u V dt x _ (fun j hj => hasDerivAt_damped obstacle kappa beta (u j) dt
    (x j) (hne j hj)) hmin
  intro j hj
  have h2 := h1 j hj
  simp only [mul_ite, mul_zero] at h2 ⊢
  exact h2

/-- C88: as long as the solution of the system without contact stays below the obstacle, it is the
minimiser. -/
theorem C88_free (obstacle kappa beta : ℝ) (hk : 0 ≤ kappa) (hb : 0 ≤ beta) (n : ℕ) (S : System ℝ)
    (hA : ∀ r < n, ∀ s < n, S.lhs r s = S.lhs s r) (hpos : ∀ y, 0 ≤ quad n S.lhs y)
    (u : ℕ → ℝ) (V : ℕ → ℕ → ℝ) (hV : ∀ j < n, 0 ≤ nodeWeight n V j) (dt : ℝ) (hdt : 0 < dt)
    (hu : ∀ j < n, u j ≤ obstacle) (x : ℕ → ℝ)
    (hx : ∀ j < n, ∑ k ∈ Finset.range n, S.lhs j k * x k = S.rhs j)
    (hfree : ∀ j < n, u j + x j * dt < obstacle) (y : Flat ℝ) :
    interiorEnergy (dampedPotential obstacle kappa beta) n S.lhs S.rhs u V dt ⟨n, x⟩ ≤
      interiorEnergy (dampedPotential obstacle kappa beta) n S.lhs S.rhs u V dt y := by
  rw [interiorEnergy_eq, interiorEnergy_eq]
  have h1 : interiorContact n V (fun j v => dampedPotential obstacle kappa beta v (u j) dt) x = 0 := by
    refine Finset.sum_eq_zero fun j hj => ?_
    simp [dampedPotential, hfree j (Finset.mem_range.mp hj)]
  have h2 : 0 ≤ interiorContact n V (fun j v => dampedPotential obstacle kappa beta v (u j) dt)
      y.get := by
    refine Finset.sum_nonneg fun j hj => mul_nonneg (hV j (Finset.mem_range.mp hj)) ?_
    simp only [dampedPotential]
    split_ifs with h
    · exact le_rfl
    · have h3 : 0 ≤ y.get j * dt := by linarith [hu j (Finset.mem_range.mp hj)]
      have h4 : 0 ≤ y.get j := nonneg_of_mul_nonneg_left h3 hdt
      have h5 : 0 ≤ u j + y.get j * dt - obstacle := by linarith
      positivity
  have h3 : energy n S x ≤ energy n S y.get := by
    have h4 := energy_expand n S hA x fun k => y.get k - x k
    simp only [add_sub_cancel] at h4
    have h5 : ∀ r < n, ∑ s ∈ Finset.range n, S.lhs r s * x s - S.rhs r = 0 := fun r hr => by
      rw [hx r hr, sub_self]
    have h6 := hpos fun k => y.get k - x k
    have h7 : ∑ r ∈ Finset.range n, (y.get r - x r) *
        (∑ s ∈ Finset.range n, S.lhs r s * x s - S.rhs r) = 0 :=
      Finset.sum_eq_zero fun r hr => by rw [h5 r (Finset.mem_range.mp hr), mul_zero]
    have h4' : energy n S y.get = _ := h4
    rw [h4']
    linarith
  have h4 : 0 ≤ ∑ i ∈ Finset.Ico n y.size, y.get i * y.get i :=
    Finset.sum_nonneg fun i _ => mul_self_nonneg _
  simp only [Finset.Ico_self, Finset.sum_empty]
  rw [h1]
  linarith

/-- One node at the level of the obstacle, pushed against it by a force. -/
def pushedNode (force : ℝ) : System ℝ where
  lhs _ _ := 1
  rhs _ := force

theorem pushedNode_energy (force : ℝ) (y : ℕ → ℝ) :
    interiorEnergy (dampedPotential 0 1 1) 1 (pushedNode force).lhs (pushedNode force).rhs (fun _ => 0)
      (fun _ _ => 1) 1 ⟨1, y⟩ =
    1 / 2 * (y 0 * y 0) - force * y 0 + 1 / 2 * (if y 0 < 0 then 0 else y 0 + y 0) := by
  simp [interiorEnergy, dampedPotential, pushedNode]

-- With the force five the minimiser is the velocity four: the reaction is one.
example : (∀ y, interiorEnergy (dampedPotential 0 1 1) 1 (pushedNode 5).lhs (pushedNode 5).rhs
        (fun _ => 0) (fun _ _ => 1) 1 ⟨1, fun _ => 4⟩ ≤
      interiorEnergy (dampedPotential 0 1 1) 1 (pushedNode 5).lhs (pushedNode 5).rhs
        (fun _ => 0) (fun _ _ => 1) 1 ⟨1, y⟩) ∧
    (∀ j < 1, (0 : ℝ) + 4 * 1 ≠ 0) ∧ (∃ j < 1, nodeWeight 1 (fun _ _ => (1 : ℝ)) j * (1 * 1 + 1) ≠ 0) ∧
    InBalance 1 (pushedNode 5).lhs (pushedNode 5).rhs (fun _ _ => 1) (fun _ => 1) fun _ => 4 := by
  refine ⟨fun y => ?_, by norm_num, ⟨0, by norm_num, by norm_num [nodeWeight]⟩, ?_⟩
  · rw [pushedNode_energy, pushedNode_energy]
    norm_num
    split_ifs with h
    · nlinarith
    · nlinarith [sq_nonneg (y 0 - 4)]
  · intro j hj
    norm_num [pushedNode, nodeWeight]

-- Pulled away with the force one, the node follows the system without contact.
example : (∀ y, 0 ≤ quad 1 (pushedNode (-1)).lhs y) ∧
    (∀ j < 1, 0 ≤ nodeWeight 1 (fun _ _ => (1 : ℝ)) j) ∧
    (∀ j < 1, ∑ k ∈ Finset.range 1, (pushedNode (-1)).lhs j k * -1 = (pushedNode (-1)).rhs j) ∧
    ((0 : ℝ) + -1 * 1 < 0) := by
  refine ⟨fun y => ?_, fun j _ => by norm_num [nodeWeight], fun j _ => by norm_num [pushedNode],
    by norm_num⟩
  simp only [quad, pushedNode, Finset.range_one, Finset.sum_singleton, one_mul]
  exact mul_self_nonneg _

end Conmech
