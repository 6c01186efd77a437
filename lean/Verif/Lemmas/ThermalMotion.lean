import Verif.Lemmas.ThermalBlock
import Verif.Lemmas.Relaxing
/-!
Motions of thermoelastic bodies, and how far the passes of a time step lead away from them.
-/
namespace Conmech
open Spec

section
variable {n : ℕ} {D : ℕ → Prop} {M : ℕ → ℕ → ℝ}

/-- The energy of a vector controls its entries. -/
theorem entry_le (hS : StoresEnergy n M) (hM : DefiniteOn n D M) :
    ∃ c, 0 ≤ c ∧ ∀ x, Still n D x → ∀ r < n, |x r| ≤ c * Real.sqrt (quad n M x) := by
  obtain ⟨c, hc0, hc⟩ := exists_coercive hS hM
  refine ⟨Real.sqrt c, Real.sqrt_nonneg _, fun x hx r hr => ?_⟩
  have e : ∀ r < n, extendZero n (fun s : Fin n => x s) r = x r := fun r hr => by simp [extendZero, hr]
  have h1 := hc (fun s : Fin n => x s) fun r hr hD => by rw [e r hr]; exact hx r hr hD
  rw [quad_congr e] at h1
  have h2 : |x r| ≤ ‖fun s : Fin n => x s‖ := norm_le_pi_norm (fun s : Fin n => x s) ⟨r, hr⟩
  rw [← Real.sqrt_mul hc0]
  exact h2.trans (Real.le_sqrt_of_sq_le h1)

/-- Any form is bounded by a definite one. -/
theorem quad_le (hS : StoresEnergy n M) (hM : DefiniteOn n D M) (A : ℕ → ℕ → ℝ) :
    ∃ k, 0 ≤ k ∧ ∀ x, Still n D x → quad n A x ≤ k * quad n M x := by
  obtain ⟨c, hc0, hc⟩ := entry_le hS hM
  refine ⟨∑ r ∈ Finset.range n, ∑ s ∈ Finset.range n, |A r s| * c ^ 2, ?_, fun x hx => ?_⟩
  · exact Finset.sum_nonneg fun r _ => Finset.sum_nonneg fun s _ => by positivity
  · rw [quad_eq_act, Finset.sum_mul]
    refine Finset.sum_le_sum fun r hr => ?_
    unfold act
    rw [Finset.mul_sum, Finset.sum_mul]
    refine Finset.sum_le_sum fun s hs => ?_
    have h1 := hc x hx r (Finset.mem_range.1 hr)
    have h2 := hc x hx s (Finset.mem_range.1 hs)
    have h3 := Real.sq_sqrt (hS.nonneg x)
    calc x r * (A r s * x s) ≤ |x r * (A r s * x s)| := le_abs_self _
      _ = |A r s| * (|x r| * |x s|) := by rw [abs_mul, abs_mul]; ring
      _ ≤ |A r s| * ((c * Real.sqrt (quad n M x)) * (c * Real.sqrt (quad n M x))) :=
          mul_le_mul_of_nonneg_left (mul_le_mul h1 h2 (abs_nonneg _) (by positivity)) (abs_nonneg _)
      _ = |A r s| * c ^ 2 * (Real.sqrt (quad n M x)) ^ 2 := by ring
      _ = _ := by rw [h3]

/-- The triangle inequality. -/
theorem sqrt_quad_add (hM : StoresEnergy n M) (x y : ℕ → ℝ) :
    Real.sqrt (quad n M fun i => x i + y i) ≤ Real.sqrt (quad n M x) + Real.sqrt (quad n M y) := by
  refine Real.sqrt_le_iff.2 ⟨by positivity, ?_⟩
  have h1 := bilin_le_sqrt hM x y
  have h2 := Real.sq_sqrt (hM.nonneg x)
  have h3 := Real.sq_sqrt (hM.nonneg y)
  have h4 : quad n M (fun i => x i + y i) = quad n M x + 2 * bilin n M x y + quad n M y := by
    simp only [quad_eq_bilin]
    rw [bilin_add_left, bilin_add_right, bilin_add_right, bilin_symm n M hM.symm y x]
    ring
  rw [h4]
  nlinarith

theorem sqrt_quad_triangle (hM : StoresEnergy n M) (x y z : ℕ → ℝ) :
    Real.sqrt (quad n M fun i => x i - z i) ≤
      Real.sqrt (quad n M fun i => x i - y i) + Real.sqrt (quad n M fun i => y i - z i) := by
  have := sqrt_quad_add hM (fun i => x i - y i) fun i => y i - z i
  simpa only [sub_add_sub_cancel] using this

theorem quad_swap (M : ℕ → ℕ → ℝ) (x y : ℕ → ℝ) :
    quad n M (fun i => x i - y i) = quad n M fun i => y i - x i := by
  rw [show (fun i => x i - y i) = fun i => (-1) * (y i - x i) by funext i; ring, quad_scaled]; ring

theorem balanced_congr {A B : ℕ → ℕ → ℝ} {J : (ℕ → ℝ) → ℝ} {f f' u v a : ℕ → ℝ}
    (h : Balanced n D M A B J f u v a) (hf : ∀ r < n, f r = f' r) : Balanced n D M A B J f' u v a := by
  intro y hy
  refine (h y hy).trans (le_of_eq ?_)
  congr 1
  exact Finset.sum_congr rfl fun r hr => by rw [hf r (Finset.mem_range.1 hr)]

end

namespace Spec.ThermalBody
variable {b : ThermalBody}

theorem thermalForce_sub (x y : ℕ → ℝ) (r : ℕ) :
    b.thermalForce (fun p => x p - y p) r = b.thermalForce x r - b.thermalForce y r :=
  act_difference _ _ _ _

/-- The coupling is bounded. -/
theorem Sound.power_le (h : b.Sound) : ∃ c, 0 ≤ c ∧ ∀ x y, Still b.n b.D x → Still b.N b.D' y →
    |b.power y x| ≤ c * Real.sqrt (quad b.N b.capacity y) * Real.sqrt (quad b.n b.mass x) := by
  obtain ⟨c1, h1, hc1⟩ := entry_le h.mass h.massive
  obtain ⟨c2, h2, hc2⟩ := entry_le h.capacity h.capacious
  refine ⟨∑ p ∈ Finset.range b.N, ∑ r ∈ Finset.range b.n, |b.expansion p r| * (c1 * c2),
    Finset.sum_nonneg fun _ _ => Finset.sum_nonneg fun _ _ => by positivity, fun x y hx hy => ?_⟩
  unfold power act
  simp only [Finset.mul_sum, Finset.sum_mul]
  refine (Finset.abs_sum_le_sum_abs _ _).trans (Finset.sum_le_sum fun p hp => ?_)
  refine (Finset.abs_sum_le_sum_abs _ _).trans (Finset.sum_le_sum fun r hr => ?_)
  have k1 := hc1 x hx r (Finset.mem_range.1 hr)
  have k2 := hc2 y hy p (Finset.mem_range.1 hp)
  calc |y p * (b.expansion p r * x r)| = |b.expansion p r| * (|y p| * |x r|) := by
        rw [abs_mul, abs_mul]; ring
    _ ≤ |b.expansion p r| * ((c2 * Real.sqrt (quad b.N b.capacity y)) *
          (c1 * Real.sqrt (quad b.n b.mass x))) :=
        mul_le_mul_of_nonneg_left (mul_le_mul k2 k1 (abs_nonneg _) (by positivity)) (abs_nonneg _)
    _ = _ := by ring

/-- The coupling in a time step is at most quadratic in the length of the step. -/
theorem Sound.coupling_le (h : b.Sound) : ∃ c, 0 ≤ c ∧ ∀ τ q, 0 < τ → (c * τ) ^ 2 ≤ q → b.Coupling τ q := by
  obtain ⟨c, hc0, hc⟩ := h.power_le
  refine ⟨c, hc0, fun τ q h0 k3 x y hx hy => ?_⟩
  have hq : 0 ≤ q := (sq_nonneg _).trans k3
  have k1 := hc x y hx hy
  have m0 := h.mass.nonneg x
  have m1 := h.capacity.nonneg y
  have s1 : quad b.n b.mass x / τ ≤ b.stepEnergy τ x := by
    have := h.viscosity.nonneg x
    have := mul_nonneg h0.le (h.elasticity.nonneg x)
    unfold stepEnergy; linarith
  have s2 : quad b.N b.capacity y / τ ≤ b.stepHeat τ y := by
    have := h.conductivity.nonneg y
    unfold stepHeat; linarith
  calc b.power y x ^ 2 = |b.power y x| ^ 2 := (sq_abs _).symm
    _ ≤ (c * Real.sqrt (quad b.N b.capacity y) * Real.sqrt (quad b.n b.mass x)) ^ 2 :=
        pow_le_pow_left₀ (abs_nonneg _) k1 2
    _ = c ^ 2 * quad b.N b.capacity y * quad b.n b.mass x := by
        rw [mul_pow, mul_pow, Real.sq_sqrt m0, Real.sq_sqrt m1]
    _ = (c * τ) ^ 2 * ((quad b.n b.mass x / τ) * (quad b.N b.capacity y / τ)) := by
        field_simp
    _ ≤ q * ((quad b.n b.mass x / τ) * (quad b.N b.capacity y / τ)) :=
        mul_le_mul_of_nonneg_right k3 (by positivity)
    _ ≤ q * (b.stepEnergy τ x * b.stepHeat τ y) :=
        mul_le_mul_of_nonneg_left (mul_le_mul s1 s2 (by positivity) ((by positivity : (0:ℝ) ≤ _).trans s1)) hq
    _ = _ := by ring

/-- Short time steps couple the fields weakly. -/
theorem Sound.coupling (h : b.Sound) {q : ℝ} (hq : 0 < q) :
    ∃ τ₀, 0 < τ₀ ∧ ∀ τ, 0 < τ → τ ≤ τ₀ → b.Coupling τ q := by
  obtain ⟨c, hc0, hc⟩ := h.coupling_le
  refine ⟨Real.sqrt q / (c + 1), by positivity, fun τ h0 h1 => hc τ q h0 ?_⟩
  have k2 : c * τ ≤ Real.sqrt q := by
    rw [le_div_iff₀ (by positivity)] at h1; linarith
  calc (c * τ) ^ 2 ≤ Real.sqrt q ^ 2 := pow_le_pow_left₀ (by positivity) k2 2
    _ = q := Real.sq_sqrt hq.le

/-- The loads on both fields. -/
def bothLoads (b : ThermalBody) (f : ℝ → ℕ → ℝ) : ℝ → ℕ → ℝ := fun t => pair b.n (f t) fun _ => 0

/-- Both fields move as one. -/
def BothMotion (b : ThermalBody) (f : ℝ → ℕ → ℝ) (T : ℝ) (U V A : ℝ → ℕ → ℝ) : Prop :=
  Spec.Motion (b.n + b.N) b.bothHeld b.bothMass b.bothViscosity b.bothElasticity b.bothContact
    (b.bothLoads f) 0 T U V A

theorem moves_congr {f f' θ u v a : ℕ → ℝ} (h : b.Moves f θ u v a) (hf : ∀ r < b.n, f r = f' r) :
    b.Moves f' θ u v a := balanced_congr h fun r hr => by rw [hf r hr]

theorem Sound.motion (h : b.Sound) {f : ℝ → ℕ → ℝ} {T : ℝ} {U V A : ℝ → ℕ → ℝ}
    (hm : b.BothMotion f T U V A) :
    b.Motion f T U V A (fun t => shift b.n (V t)) fun t => shift b.n (A t) := by
  have hbal : ∀ t ∈ Set.Icc 0 T, b.Moves (b.bothLoads f t) (shift b.n (V t)) (U t) (V t) (A t) ∧
      b.Heats (V t) (shift b.n (V t)) (shift b.n (A t)) := fun t ht =>
    (h.both (fun p _ => by simp [bothLoads, pair]) (hm.held t ht)).1 (hm.balanced t ht)
  refine ⟨fun t ht r hr => hm.velocity t ht r (by omega), fun t ht r hr => hm.acceleration t ht r (by omega),
    fun t ht p hp => hm.acceleration t ht (b.n + p) (by omega), fun t ht => (still_both.1 (hm.held t ht)).1,
    fun t ht => (still_both.1 (hm.held t ht)).2, fun t ht => ?_, fun t ht => (hbal t ht).2⟩
  exact moves_congr (hbal t ht).1 fun r hr => pair_left _ _ hr

/-- Motions exist. -/
theorem Sound.exists_motion (h : b.Sound) (f : ℝ → ℕ → ℝ) (T l : ℝ) (hT : 0 ≤ T) (hl : 0 ≤ l)
    (hf : ∀ s ∈ Set.Icc 0 T, ∀ t ∈ Set.Icc 0 T, ∀ r < b.n, |f s r - f t r| ≤ l * |s - t|)
    (u₀ v₀ θ₀ : ℕ → ℝ) (hv₀ : Still b.n b.D v₀) (hθ₀ : Still b.N b.D' θ₀) :
    ∃ U V A : ℝ → ℕ → ℝ, b.BothMotion f T U V A ∧ (∀ r < b.n, U 0 r = u₀ r ∧ V 0 r = v₀ r) ∧
      (∀ p < b.N, V 0 (b.n + p) = θ₀ p) ∧
      ∃ cv ca cf, Moderate (b.n + b.N) b.bothHeld b.bothMass b.bothElasticity (b.bothLoads f) 0 T V A cv ca cf := by
  obtain ⟨g, k, hk, hg⟩ := h.smooth
  obtain ⟨U, V, A, hm, h0, hmod⟩ := motion_exists h.storesMass h.definite b.bothViscosity b.bothElasticity hk
    hg (b.bothLoads f) T l hT hl (fun s hs t ht r hr => by
      unfold bothLoads
      by_cases hn : r < b.n
      · rw [pair_left _ _ hn, pair_left _ _ hn]; exact hf s hs t ht r hn
      · obtain ⟨p, rfl⟩ : ∃ p, r = b.n + p := ⟨r - b.n, by omega⟩
        rw [pair_right, pair_right, sub_self, abs_zero]; positivity) (pair b.n u₀ fun _ => 0)
    (pair b.n v₀ θ₀) (still_both.2 ⟨fun r hr hD => by rw [pair_left _ _ hr]; exact hv₀ r hr hD, by
      rw [shift_pair]; exact hθ₀⟩)
  refine ⟨U, V, A, hm, fun r hr => ?_, fun p hp => ?_, hmod⟩
  · have := h0 r (by omega)
    rwa [pair_left _ _ hr, pair_left _ _ hr] at this
  · have := (h0 (b.n + p) (by omega)).2
    rwa [pair_right] at this

/-- Every motion moves both fields as one. -/
theorem Motion.both (h : b.Sound) {f : ℝ → ℕ → ℝ} {T : ℝ} {u v a θ η : ℝ → ℕ → ℝ}
    (hm : b.Motion f T u v a θ η) :
    b.BothMotion f T (fun t => pair b.n (u t) fun p => 0 + ∫ s in (0 : ℝ)..t, θ s p)
      (fun t => pair b.n (v t) (θ t)) fun t => pair b.n (a t) (η t) := by
  obtain ⟨g, k, -, hg⟩ := h.contact
  have hstill : ∀ t ∈ Set.Icc 0 T, Still (b.n + b.N) b.bothHeld (pair b.n (v t) (θ t)) := fun t ht =>
    still_both.2 ⟨fun r hr hD => by rw [pair_left _ _ hr]; exact hm.held t ht r hr hD, by
      rw [shift_pair]; exact hm.kept t ht⟩
  refine ⟨fun t ht r hr => ?_, fun t ht r hr => ?_, hstill, fun t ht => ?_⟩
  · by_cases hn : r < b.n
    · simp only [pair_left _ _ hn]; exact hm.velocity t ht r hn
    · obtain ⟨p, rfl⟩ : ∃ p, r = b.n + p := ⟨r - b.n, by omega⟩
      simp only [pair_right]
      exact integral_derivative (fun s hs => (hm.rate s hs p (by omega)).continuousWithinAt) 0 t ht
  · by_cases hn : r < b.n
    · simp only [pair_left _ _ hn]; exact hm.acceleration t ht r hn
    · obtain ⟨p, rfl⟩ : ∃ p, r = b.n + p := ⟨r - b.n, by omega⟩
      simp only [pair_right]
      exact hm.rate t ht p (by omega)
  · refine (h.both (fun p _ => by simp [bothLoads, pair]) (hstill t ht)).2 ⟨?_, ?_⟩
    · rw [shift_pair]
      intro y hy
      refine (hm.moves t ht y hy).trans (le_of_eq ?_)
      rw [hg.same (fun r hr => pair_left (v t) (θ t) hr)]
      congr 1
      refine Finset.sum_congr rfl fun r hr => ?_
      have hr := Finset.mem_range.1 hr
      rw [act_congr (fun r hr => pair_left (a t) (η t) hr), act_congr (fun r hr => pair_left (v t) (θ t) hr),
        act_congr (fun r hr => pair_left (u t) _ hr), pair_left (v t) _ hr]
      beta_reduce
      unfold bothLoads
      rw [pair_left _ _ hr]
    · rw [shift_pair, shift_pair]
      intro ζ hζ
      refine (hm.heats t ht ζ hζ).trans (le_of_eq ?_)
      congr 1
      exact Finset.sum_congr rfl fun p _ => by rw [act_congr (fun r hr => pair_left (v t) (θ t) hr)]

/-- The distance of both fields. -/
theorem distance_eq (U V U' V' : ℕ → ℝ) :
    energyDistance (b.n + b.N) b.bothMass b.bothElasticity U V U' V' =
      b.distance U V (shift b.n V) U' V' (shift b.n V') := by
  unfold energyDistance distance bothMass bothElasticity
  rw [quad_diagonal, quad_diagonal]
  congr 1
  have : quad b.N (fun _ _ => (0 : ℝ)) (shift b.n fun i => U i - U' i) = 0 := by simp [quad]
  rw [this, add_zero, add_assoc]
  rfl

theorem distance_congr {u v θ x y ζ u' v' θ' : ℕ → ℝ} (hu : ∀ r < b.n, u r = x r) (hv : ∀ r < b.n, v r = y r)
    (hθ : ∀ p < b.N, θ p = ζ p) : b.distance u v θ u' v' θ' = b.distance x y ζ u' v' θ' := by
  have h1 : quad b.n b.elasticity (fun i => u i - u' i) = quad b.n b.elasticity fun i => x i - u' i :=
    quad_congr fun r hr => by rw [hu r hr]
  have h2 : quad b.n b.mass (fun i => v i - v' i) = quad b.n b.mass fun i => y i - v' i :=
    quad_congr fun r hr => by rw [hv r hr]
  have h3 : quad b.N b.capacity (fun i => θ i - θ' i) = quad b.N b.capacity fun i => ζ i - θ' i :=
    quad_congr fun r hr => by rw [hθ r hr]
  unfold distance
  rw [h1, h2, h3]

end Spec.ThermalBody
end Conmech
