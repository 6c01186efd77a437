import Verif.Spec.Thermoelastic
import Verif.Lemmas.MotionExists
/-!
The passes of a time step of a thermoelastic body, and how far a step leads away from the motion.
-/
namespace Conmech
open Spec

section
variable {b : ThermalBody}

theorem still_sub {n : ℕ} {D : ℕ → Prop} {x y : ℕ → ℝ} (hx : Still n D x) (hy : Still n D y) :
    Still n D fun i => x i - y i := fun r hr hD => by
  beta_reduce
  rw [hx r hr hD, hy r hr hD, sub_zero]

theorem Spec.ThermalBody.power_eq (θ v : ℕ → ℝ) :
    b.power θ v = ∑ r ∈ Finset.range b.n, v r * b.thermalForce θ r := by
  unfold ThermalBody.power ThermalBody.thermalForce act
  simp only [Finset.mul_sum]
  rw [Finset.sum_comm]
  exact Finset.sum_congr rfl fun r _ => Finset.sum_congr rfl fun p _ => by ring

theorem Spec.ThermalBody.power_sub_left (θ θ' v : ℕ → ℝ) :
    b.power (fun p => θ p - θ' p) v = b.power θ v - b.power θ' v := by
  unfold ThermalBody.power
  rw [← Finset.sum_sub_distrib]
  exact Finset.sum_congr rfl fun p _ => by ring

theorem act_difference {n : ℕ} (M : ℕ → ℕ → ℝ) (x y : ℕ → ℝ) (r : ℕ) :
    act n M (fun i => x i - y i) r = act n M x r - act n M y r := by
  unfold act
  rw [← Finset.sum_sub_distrib]
  exact Finset.sum_congr rfl fun s _ => by ring

theorem Spec.ThermalBody.power_sub_right (θ v v' : ℕ → ℝ) :
    b.power θ (fun i => v i - v' i) = b.power θ v - b.power θ v' := by
  unfold ThermalBody.power
  rw [← Finset.sum_sub_distrib]
  exact Finset.sum_congr rfl fun p _ => by rw [act_difference]; ring

theorem Spec.ThermalBody.Sound.stepEnergy_nonneg (h : b.Sound) {τ : ℝ} (hτ : 0 < τ) (x : ℕ → ℝ) :
    0 ≤ b.stepEnergy τ x := by
  have h1 := h.mass.nonneg x
  have h2 := h.viscosity.nonneg x
  have h3 := h.elasticity.nonneg x
  unfold ThermalBody.stepEnergy
  positivity

theorem Spec.ThermalBody.Sound.stepHeat_nonneg (h : b.Sound) {τ : ℝ} (hτ : 0 < τ) (y : ℕ → ℝ) :
    0 ≤ b.stepHeat τ y := by
  have h1 := h.capacity.nonneg y
  have h2 := h.conductivity.nonneg y
  unfold ThermalBody.stepHeat
  positivity

/-- The heat equation as the equation of a motion. -/
theorem Spec.ThermalBody.Heats.balanced {v θ η : ℕ → ℝ} (h : b.Heats v θ η) (z : ℕ → ℝ) :
    Balanced b.N b.D' b.capacity b.conductivity (fun _ _ => 0) b.exchange
      (fun p => -act b.n b.expansion v p) z θ η := by
  intro ζ hζ
  refine (h ζ hζ).trans (le_of_eq ?_)
  congr 1
  refine Finset.sum_congr rfl fun p _ => ?_
  simp [act]

theorem storesNothing (n : ℕ) : StoresEnergy n (fun _ _ => (0 : ℝ)) :=
  ⟨fun _ _ _ _ => rfl, fun x => by simp [quad]⟩

theorem quad_scaled {n : ℕ} (M : ℕ → ℕ → ℝ) (c : ℝ) (x : ℕ → ℝ) :
    quad n M (fun i => c * x i) = c ^ 2 * quad n M x := by
  rw [quad_eq_bilin, bilin_smul_left, bilin_smul_right, ← quad_eq_bilin]; ring

/-- Two passes: the velocities differ by what the temperatures differ. -/
theorem Spec.ThermalBody.Pass.velocity {f u v θ x w y x' w' y' : ℕ → ℝ} {τ : ℝ}
    (hτ : 0 < τ) (h : b.Pass f τ u v θ x w y) (h' : b.Pass f τ u v θ x' w' y') :
    b.stepEnergy τ (fun i => w i - w' i) ≤
      b.power (fun p => x p - x' p) (fun i => w i - w' i) := by
  have key := balanced_difference h.held h'.held h.moves h'.moves
  have e1 : (fun i => (w i - v i) / τ - (w' i - v i) / τ) = fun i => (1 / τ) * (w i - w' i) := by
    funext i; ring
  have e2 : (fun i => u i + τ * w i - (u i + τ * w' i)) = fun i => τ * (w i - w' i) := by
    funext i; ring
  rw [e1, e2, bilin_smul_right, bilin_smul_right, ← quad_eq_bilin, ← quad_eq_bilin] at key
  rw [ThermalBody.power_eq]
  unfold ThermalBody.stepEnergy
  calc quad b.n b.mass (fun i => w i - w' i) / τ + quad b.n b.viscosity (fun i => w i - w' i) +
        τ * quad b.n b.elasticity (fun i => w i - w' i)
      = 1 / τ * quad b.n b.mass (fun i => w i - w' i) + quad b.n b.viscosity (fun i => w i - w' i) +
        τ * quad b.n b.elasticity (fun i => w i - w' i) := by ring
    _ ≤ _ := key
    _ = _ := by
      refine Finset.sum_congr rfl fun r _ => ?_
      unfold ThermalBody.thermalForce
      rw [act_difference]; ring

/-- Two passes: the temperatures differ by what the velocities differ. -/
theorem Spec.ThermalBody.Pass.temperature {f u v θ x w y x' w' y' : ℕ → ℝ} {τ : ℝ}
    (h : b.Pass f τ u v θ x w y) (h' : b.Pass f τ u v θ x' w' y') :
    b.stepHeat τ (fun p => y p - y' p) ≤
      -b.power (fun p => y p - y' p) (fun i => w i - w' i) := by
  have key := balanced_difference h.kept h'.kept (h.heats.balanced fun _ => 0)
    (h'.heats.balanced fun _ => 0)
  have e1 : (fun i => (y i - θ i) / τ - (y' i - θ i) / τ) = fun i => (1 / τ) * (y i - y' i) := by
    funext i; ring
  have e2 : ∀ z z' : ℕ → ℝ, bilin b.N (fun _ _ => (0 : ℝ)) z z' = 0 := fun z z' => by simp [bilin]
  rw [e1, e2, bilin_smul_right, ← quad_eq_bilin] at key
  unfold ThermalBody.stepHeat ThermalBody.power
  calc quad b.N b.capacity (fun p => y p - y' p) / τ + quad b.N b.conductivity (fun p => y p - y' p)
      = 1 / τ * quad b.N b.capacity (fun p => y p - y' p) +
        quad b.N b.conductivity (fun p => y p - y' p) + 0 := by ring
    _ ≤ _ := key
    _ = _ := by
      rw [← Finset.sum_neg_distrib]
      refine Finset.sum_congr rfl fun r _ => ?_
      rw [act_difference]; ring

theorem le_of_sq_le {a c p q : ℝ} (ha : 0 ≤ a) (hc : 0 ≤ c) (hq : 0 ≤ q) (h1 : a ≤ p)
    (h2 : p ^ 2 ≤ q * a * c) : a ≤ q * c := by
  rcases ha.eq_or_lt with h | h
  · rw [← h]; positivity
  · have h3 : a * a ≤ a * (q * c) := by nlinarith
    exact le_of_mul_le_mul_left h3 h

/-- How much two passes differ. -/
theorem Spec.ThermalBody.Pass.contracts (hb : b.Sound) {f u v θ x w y x' w' y' : ℕ → ℝ} {τ q : ℝ}
    (hτ : 0 < τ) (hq : 0 ≤ q) (hcoup : b.Coupling τ q) (h : b.Pass f τ u v θ x w y)
    (h' : b.Pass f τ u v θ x' w' y') (hx : Still b.N b.D' x) (hx' : Still b.N b.D' x') :
    b.stepEnergy τ (fun i => w i - w' i) ≤ q * b.stepHeat τ (fun p => x p - x' p) ∧
    b.stepHeat τ (fun p => y p - y' p) ≤ q * b.stepEnergy τ (fun i => w i - w' i) := by
  have hw := still_sub h.held h'.held
  constructor
  · exact le_of_sq_le (hb.stepEnergy_nonneg hτ _) (hb.stepHeat_nonneg hτ _) hq (h.velocity hτ h')
      (hcoup _ _ hw (still_sub hx hx'))
  · refine le_of_sq_le (hb.stepHeat_nonneg hτ _) (hb.stepEnergy_nonneg hτ _) hq (h.temperature h') ?_
    rw [neg_sq]
    refine (hcoup _ _ hw (still_sub h.kept h'.kept)).trans (le_of_eq ?_)
    ring

end
end Conmech
