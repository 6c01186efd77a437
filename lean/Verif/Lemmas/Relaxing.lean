import Verif.Spec.Relaxing
import Verif.Props.Creep
import Mathlib.MeasureTheory.Integral.IntervalIntegral.FundThmCalculus
/-!
Bodies with long memory as quasistatic motions: the integral of the displacement moves with the velocity
that is the displacement.
-/
namespace Conmech
open Spec MeasureTheory

section
variable {n : ℕ} {D : ℕ → Prop} {E R : ℕ → ℕ → ℝ} {J : (ℕ → ℝ) → ℝ} {f : ℝ → ℕ → ℝ} {T : ℝ}

/-- The integral of a continuous function. -/
theorem integral_derivative {g : ℝ → ℝ} (hg : ContinuousOn g (Set.Icc 0 T)) (c : ℝ) :
    ∀ t ∈ Set.Icc 0 T, HasDerivWithinAt (fun t => c + ∫ s in (0 : ℝ)..t, g s) (g t) (Set.Icc 0 T) t := by
  intro t ht
  have hT : (0 : ℝ) ≤ T := ht.1.trans ht.2
  let G : ℝ → ℝ := Set.IccExtend hT ((Set.Icc 0 T).restrict g)
  have hG : Continuous G := (continuousOn_iff_continuous_restrict.1 hg).Icc_extend'
  have hGg : ∀ s ∈ Set.Icc 0 T, G s = g s := fun s hs => by
    simp only [G, Set.IccExtend_of_mem hT _ hs]; rfl
  have hint : ∀ x ∈ Set.Icc 0 T, ∫ s in (0 : ℝ)..x, g s = ∫ s in (0 : ℝ)..x, G s := fun x hx =>
    intervalIntegral.integral_congr fun s hs => by
      rw [Set.uIcc_of_le hx.1] at hs
      exact (hGg s ⟨hs.1, hs.2.trans hx.2⟩).symm
  have h1 : HasDerivAt (fun x => c + ∫ s in (0 : ℝ)..x, G s) (G t) t :=
    (intervalIntegral.integral_hasDerivAt_right (hG.intervalIntegrable _ _)
      hG.stronglyMeasurable.stronglyMeasurableAtFilter hG.continuousAt).const_add c
  rw [← hGg t ht]
  exact h1.hasDerivWithinAt.congr (fun x hx => by rw [hint x hx]) (by rw [hint t ht])

/-- Two functions with the same derivative and the same initial value. -/
theorem same_derivative {g h d : ℝ → ℝ}
    (hg : ∀ t ∈ Set.Icc 0 T, HasDerivWithinAt g (d t) (Set.Icc 0 T) t)
    (hh : ∀ t ∈ Set.Icc 0 T, HasDerivWithinAt h (d t) (Set.Icc 0 T) t) (h0 : g 0 = h 0) :
    ∀ t ∈ Set.Icc 0 T, g t = h t := by
  intro t ht
  have hd : ∀ s ∈ Set.Icc 0 T, HasDerivWithinAt (fun s => g s - h s) 0 (Set.Icc 0 T) s := fun s hs => by
    have := (hg s hs).sub (hh s hs)
    rwa [sub_self] at this
  have h3 : ‖(g t - h t) - (g 0 - h 0)‖ ≤ 0 * ‖t - 0‖ :=
    (convex_Icc 0 T).norm_image_sub_le_of_norm_hasDerivWithin_le (f := fun s => g s - h s)
      hd (fun s _ => by simp) (Set.left_mem_Icc.2 (ht.1.trans ht.2)) ht
  rw [h0, sub_self, sub_zero, zero_mul] at h3
  exact sub_eq_zero.1 (norm_le_zero_iff.1 h3)

theorem act_same {M : ℕ → ℕ → ℝ} {x y : ℕ → ℝ} (h : ∀ r < n, x r = y r) (r : ℕ) :
    act n M x r = act n M y r :=
  Finset.sum_congr rfl fun s hs => by rw [h s (Finset.mem_range.1 hs)]

/-- The memory of the body moves quasistatically. -/
theorem Spec.Relaxing.creep {b₀ : ℕ → ℝ} {u : ℝ → ℕ → ℝ} (h : Relaxing n D E R J f T b₀ u) :
    Creep n D E R J f 0 T (fun t i => b₀ i + ∫ s in (0 : ℝ)..t, u s i) u :=
  ⟨fun t ht r hr => integral_derivative (h.continuous r hr) (b₀ r) t ht, h.held, h.balanced⟩

/-- The forces determine the displacement, and how much it changes with them. -/
theorem balanced_stable (hE : StoresEnergy n E) (hdef : DefiniteOn n D E) (J : (ℕ → ℝ) → ℝ) :
    ∃ k, 0 ≤ k ∧ ∀ w w' p p' : ℕ → ℝ, Still n D w → Still n D w' →
      (∀ y, Still n D y → 0 ≤ ∑ r ∈ Finset.range n, (y r - w r) * (act n E w r - p r) + (J y - J w)) →
      (∀ y, Still n D y → 0 ≤ ∑ r ∈ Finset.range n, (y r - w' r) * (act n E w' r - p' r) + (J y - J w')) →
      ∀ r < n, |w r - w' r| ≤ k * ∑ s ∈ Finset.range n, |p s - p' s| := by
  obtain ⟨c, hc0, hc⟩ := exists_coercive hE hdef
  refine ⟨c, hc0, fun w w' p p' hw hw' h h' r hr => ?_⟩
  set x : Fin n → ℝ := fun s => w s - w' s with hx
  set P := ∑ s ∈ Finset.range n, |p s - p' s| with hP
  have hP0 : 0 ≤ P := Finset.sum_nonneg fun _ _ => abs_nonneg _
  have hxe : ∀ s < n, extendZero n x s = w s - w' s := fun s hs => by simp [extendZero, hs, hx]
  have hcx := hc x fun s hs hD => by rw [hxe s hs, hw s hs hD, hw' s hs hD, sub_zero]
  rw [quad_same (y := fun s => w s - w' s) hxe] at hcx
  have h1 := h w' hw'
  have h2 := h' w hw
  have key : quad n E (fun s => w s - w' s) ≤ ∑ s ∈ Finset.range n, (w s - w' s) * (p s - p' s) := by
    rw [quad_eq_bilin, bilin_sub_right, ← bilin_eq_act, ← bilin_eq_act, ← Finset.sum_sub_distrib, ← sub_nonneg,
      ← Finset.sum_sub_distrib]
    refine (add_nonneg h1 h2).trans (le_of_eq ?_)
    rw [show ∀ a b c d : ℝ, a + (b - c) + (d + (c - b)) = a + d by intros; ring, ← Finset.sum_add_distrib]
    exact Finset.sum_congr rfl fun r _ => by ring
  have hsum : ∑ s ∈ Finset.range n, (w s - w' s) * (p s - p' s) ≤ ‖x‖ * P := by
    rw [hP, Finset.mul_sum]
    refine Finset.sum_le_sum fun s hs => ?_
    have hs := Finset.mem_range.1 hs
    refine (le_abs_self _).trans ?_
    rw [abs_mul]
    exact mul_le_mul_of_nonneg_right (norm_le_pi_norm x ⟨s, hs⟩) (abs_nonneg _)
  have hsq : ‖x‖ ^ 2 ≤ ‖x‖ * (c * P) := by
    refine hcx.trans ((mul_le_mul_of_nonneg_left (key.trans hsum) hc0).trans (le_of_eq ?_))
    ring
  have hnorm : ‖x‖ ≤ c * P := by
    rcases (norm_nonneg x).eq_or_lt with h0 | h0
    · rw [← h0]; positivity
    · refine le_of_mul_le_mul_left ?_ h0
      rw [← sq]; exact hsq
  exact (norm_le_pi_norm x ⟨r, hr⟩).trans hnorm

/-- Single forces of a stored energy. -/
theorem act_le_sqrt (hR : StoresEnergy n R) (d : ℕ → ℝ) (r : ℕ) (hr : r < n) :
    |act n R d r| ≤ Real.sqrt (quad n R fun i => if i = r then 1 else 0) * Real.sqrt (quad n R d) := by
  have e : ∀ x : ℕ → ℝ, bilin n R (fun i => if i = r then 1 else 0) x = act n R x r := fun x => by
    rw [← bilin_eq_act]
    simp [hr]
  rw [abs_le']
  refine ⟨by rw [← e]; exact bilin_le_sqrt hR _ _, ?_⟩
  have h := bilin_le_sqrt hR (fun i => if i = r then 1 else 0) fun i => -1 * d i
  have e' : quad n R (fun i => -1 * d i) = quad n R d := by
    rw [quad_eq_bilin, quad_eq_bilin, bilin_smul_left, bilin_smul_right]; ring
  rw [e', bilin_smul_right, e] at h
  linarith

/-- A quasistatic motion with continuous loads whose matrix of viscosity is definite has continuous
velocities. -/
theorem creep_continuous (hE : StoresEnergy n E) (hdef : DefiniteOn n D E) {b u : ℝ → ℕ → ℝ}
    (hf : ∀ r < n, ContinuousOn (fun t => f t r) (Set.Icc 0 T)) (h : Creep n D E R J f 0 T b u) :
    ∀ r < n, ContinuousOn (fun t => u t r) (Set.Icc 0 T) := by
  obtain ⟨k, hk0, hk⟩ := balanced_stable hE hdef J
  intro r hr t ht
  have hb : ∀ s < n, ContinuousOn (fun t => b t s) (Set.Icc 0 T) := fun s hs t ht =>
    (h.velocity t ht s hs).continuousWithinAt
  have hp : ∀ s < n, ContinuousOn (fun t => f t s - act n R (b t) s) (Set.Icc 0 T) := fun s hs =>
    (hf s hs).sub (continuousOn_finsetSum _ fun i hi => (continuousOn_const.mul (hb i (Finset.mem_range.1 hi))))
  have hest : ∀ s ∈ Set.Icc 0 T, |u s r - u t r| ≤ k * ∑ i ∈ Finset.range n,
      |(f s i - act n R (b s) i) - (f t i - act n R (b t) i)| := fun s hs =>
    hk (u s) (u t) (fun i => f s i - act n R (b s) i) (fun i => f t i - act n R (b t) i) (h.held s hs) (h.held t ht)
      (fun y hy => (h.balanced s hs y hy).trans (le_of_eq (by
        congr 1; exact Finset.sum_congr rfl fun i _ => by ring)))
      (fun y hy => (h.balanced t ht y hy).trans (le_of_eq (by
        congr 1; exact Finset.sum_congr rfl fun i _ => by ring))) r hr
  have hlim : ContinuousWithinAt (fun s => k * ∑ i ∈ Finset.range n,
      |(f s i - act n R (b s) i) - (f t i - act n R (b t) i)|) (Set.Icc 0 T) t :=
    (continuousOn_const.mul (continuousOn_finsetSum _ fun i hi =>
      ((hp i (Finset.mem_range.1 hi)).sub continuousOn_const).abs)) t ht
  have h0 : (k * ∑ i ∈ Finset.range n, |(f t i - act n R (b t) i) - (f t i - act n R (b t) i)|) = 0 := by simp
  unfold ContinuousWithinAt at hlim ⊢
  beta_reduce at hlim
  rw [h0] at hlim
  rw [tendsto_iff_norm_sub_tendsto_zero]
  exact squeeze_zero' (Filter.Eventually.of_forall fun _ => norm_nonneg _)
    (eventually_nhdsWithin_of_forall hest) hlim

/-- The velocities of a quasistatic motion are the displacements of a body with memory. -/
theorem creep_relaxing (hE : StoresEnergy n E) (hdef : DefiniteOn n D E) {b u : ℝ → ℕ → ℝ}
    (hf : ∀ r < n, ContinuousOn (fun t => f t r) (Set.Icc 0 T)) (h : Creep n D E R J f 0 T b u) {b₀ : ℕ → ℝ}
    (h0 : ∀ r < n, b 0 r = b₀ r) :
    Relaxing n D E R J f T b₀ u ∧
    ∀ t ∈ Set.Icc 0 T, ∀ r < n, b t r = b₀ r + ∫ s in (0 : ℝ)..t, u s r := by
  have hc := creep_continuous hE hdef hf h
  have hb : ∀ t ∈ Set.Icc 0 T, ∀ r < n, b t r = b₀ r + ∫ s in (0 : ℝ)..t, u s r := fun t ht r hr =>
    same_derivative (g := fun t => b t r) (h := fun t => b₀ r + ∫ s in (0 : ℝ)..t, u s r) (d := fun t => u t r)
      (fun s hs => h.velocity s hs r hr) (integral_derivative (hc r hr) _) (by simp [h0 r hr]) t ht
  refine ⟨⟨hc, h.held, fun t ht y hy => (h.balanced t ht y hy).trans (le_of_eq ?_)⟩, hb⟩
  congr 1
  refine Finset.sum_congr rfl fun r _ => ?_
  rw [act_same (hb t ht)]

end
end Conmech
