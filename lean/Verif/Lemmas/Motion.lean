import Verif.Spec.Motion
import Verif.Lemmas.Energy
import Mathlib.Algebra.QuadraticDiscriminant
import Mathlib.Analysis.Calculus.Deriv.MeanValue
import Mathlib.Analysis.Calculus.Deriv.Add
import Mathlib.Analysis.Calculus.Deriv.Mul
import Mathlib.Analysis.Calculus.Deriv.Pow
/-!
Distances of motions, and the error of one time step.
-/
namespace Conmech
open Spec

section
variable {n : ℕ} {M A B : ℕ → ℕ → ℝ}

theorem le_sqrt_mul_sqrt {a b c : ℝ} (ha : 0 ≤ a) (h : ∀ t : ℝ, 0 ≤ a * (t * t) + 2 * b * t + c) :
    b ≤ Real.sqrt a * Real.sqrt c := by
  have h1 := discrim_le_zero h
  unfold discrim at h1
  rw [← Real.sqrt_mul ha]
  exact Real.le_sqrt_of_sq_le (by nlinarith)

theorem quad_along (hM : ∀ r < n, ∀ s < n, M r s = M s r) (x y : ℕ → ℝ) (t : ℝ) :
    quad n M (fun i => y i + t * x i) = quad n M x * (t * t) + 2 * bilin n M x y * t + quad n M y := by
  simp only [quad_eq_bilin]
  rw [bilin_add_left, bilin_add_right, bilin_add_right, bilin_smul_left, bilin_smul_left,
    bilin_smul_right, bilin_smul_right, bilin_symm n M hM y x]
  ring

/-- The Cauchy-Schwarz inequality. -/
theorem bilin_le_sqrt (hM : StoresEnergy n M) (x y : ℕ → ℝ) :
    bilin n M x y ≤ Real.sqrt (quad n M x) * Real.sqrt (quad n M y) :=
  le_sqrt_mul_sqrt (hM.nonneg x) fun t => by
    rw [← quad_along hM.symm]
    exact hM.nonneg _

/-- The Cauchy-Schwarz inequality for displacements and velocities. -/
theorem bilin_add_le (hM : StoresEnergy n M) (hB : StoresEnergy n B) (u v u' v' : ℕ → ℝ) :
    bilin n B u u' + bilin n M v v' ≤
      Real.sqrt (quad n B u + quad n M v) * Real.sqrt (quad n B u' + quad n M v') :=
  le_sqrt_mul_sqrt (add_nonneg (hB.nonneg u) (hM.nonneg v)) fun t => by
    have h1 := hB.nonneg fun i => u' i + t * u i
    have h2 := hM.nonneg fun i => v' i + t * v i
    rw [quad_along hB.symm] at h1
    rw [quad_along hM.symm] at h2
    linarith

/-- Two balanced states of the same body. -/
theorem balanced_difference {D : ℕ → Prop} {J : (ℕ → ℝ) → ℝ} {f u v a f' u' v' a' : ℕ → ℝ}
    (hv : Still n D v) (hv' : Still n D v') (h : Balanced n D M A B J f u v a)
    (h' : Balanced n D M A B J f' u' v' a') :
    bilin n M (fun i => v i - v' i) (fun i => a i - a' i) + quad n A (fun i => v i - v' i) +
      bilin n B (fun i => v i - v' i) (fun i => u i - u' i) ≤
    ∑ r ∈ Finset.range n, (v r - v' r) * (f r - f' r) := by
  have h1 := h v' hv'
  have h2 := h' v hv
  have key : bilin n M (fun i => v i - v' i) (fun i => a i - a' i) + quad n A (fun i => v i - v' i) +
      bilin n B (fun i => v i - v' i) (fun i => u i - u' i) -
      ∑ r ∈ Finset.range n, (v r - v' r) * (f r - f' r) =
      -(∑ r ∈ Finset.range n, (v' r - v r) * (act n M a r + act n A v r + act n B u r - f r)) -
      ∑ r ∈ Finset.range n, (v r - v' r) * (act n M a' r + act n A v' r + act n B u' r - f' r) := by
    rw [quad_eq_bilin, bilin_sub_right, bilin_sub_right, bilin_sub_right]
    simp only [← bilin_eq_act]
    rw [← Finset.sum_neg_distrib, ← Finset.sum_sub_distrib, ← Finset.sum_sub_distrib,
      ← Finset.sum_sub_distrib, ← Finset.sum_sub_distrib, ← Finset.sum_add_distrib,
      ← Finset.sum_add_distrib, ← Finset.sum_sub_distrib]
    exact Finset.sum_congr rfl fun r _ => by ring
  linarith

/-- One time step, compared with another motion. -/
theorem distance_step {D : ℕ → Prop} (hM : StoresEnergy n M) (hA : Dissipates n A)
    (hB : StoresEnergy n B) {J : (ℕ → ℝ) → ℝ} {τ : ℝ} (hτ : 0 < τ) {u v w f u₀ v₀ u₁ v₁ a g : ℕ → ℝ}
    (hw : Still n D w) (hv₁ : Still n D v₁)
    (h : Balanced n D M A B J f (fun i => u i + τ * w i) w fun i => (w i - v i) / τ)
    (h' : Balanced n D M A B J g u₁ v₁ a) {ρ σ β : ℝ} (hρ0 : 0 ≤ ρ) (hσ0 : 0 ≤ σ) (hβ0 : 0 ≤ β)
    (hρ : quad n M (fun i => a i - (v₁ i - v₀ i) / τ) ≤ ρ ^ 2)
    (hσ : quad n B (fun i => u₁ i - u₀ i - τ * v₁ i) ≤ σ ^ 2)
    (hβ : ∑ r ∈ Finset.range n, (w r - v₁ r) * (f r - g r) ≤
      β * Real.sqrt (quad n M fun i => w i - v₁ i)) :
    energyDistance n M B (fun i => u i + τ * w i) w u₁ v₁ ≤
      energyDistance n M B u v u₀ v₀ + (σ + τ * (ρ + β)) := by
  have key := balanced_difference hw hv₁ h h'
  have hq := hA.nonneg fun i => w i - v₁ i
  set p : ℕ → ℝ := fun i => u i + τ * w i with hp
  set N₁ := energyDistance n M B p w u₁ v₁ with hN₁
  set N₀ := energyDistance n M B u v u₀ v₀ with hN₀
  have hN₁0 : 0 ≤ N₁ := Real.sqrt_nonneg _
  have hN₀0 : 0 ≤ N₀ := Real.sqrt_nonneg _
  have hsq : N₁ ^ 2 = quad n B (fun i => p i - u₁ i) + quad n M (fun i => w i - v₁ i) :=
    Real.sq_sqrt (add_nonneg (hB.nonneg _) (hM.nonneg _))
  have eM : (fun i => (w i - v i) / τ - a i) = fun i => (1 / τ) * ((w i - v₁ i) - (v i - v₀ i)) -
      (a i - (v₁ i - v₀ i) / τ) := by
    funext i; field_simp; ring
  have eB : (fun i => w i - v₁ i) = fun i => (1 / τ) * ((p i - u₁ i) - (u i - u₀ i) +
      (u₁ i - u₀ i - τ * v₁ i)) := by
    funext i; simp only [hp]; field_simp; ring
  have k1 : bilin n M (fun i => w i - v₁ i) (fun i => (w i - v i) / τ - a i) =
      1 / τ * (quad n M (fun i => w i - v₁ i) -
        bilin n M (fun i => w i - v₁ i) (fun i => v i - v₀ i)) -
      bilin n M (fun i => w i - v₁ i) (fun i => a i - (v₁ i - v₀ i) / τ) := by
    rw [eM, bilin_sub_right, bilin_smul_right, bilin_sub_right, quad_eq_bilin]
  have k2 : bilin n B (fun i => w i - v₁ i) (fun i => p i - u₁ i) =
      1 / τ * (quad n B (fun i => p i - u₁ i) -
        bilin n B (fun i => u i - u₀ i) (fun i => p i - u₁ i) +
        bilin n B (fun i => u₁ i - u₀ i - τ * v₁ i) (fun i => p i - u₁ i)) := by
    rw [eB, bilin_smul_left, bilin_add_left, bilin_sub_left, quad_eq_bilin]
  have c1 : bilin n B (fun i => u i - u₀ i) (fun i => p i - u₁ i) +
      bilin n M (fun i => w i - v₁ i) (fun i => v i - v₀ i) ≤ N₀ * N₁ := by
    rw [bilin_symm n M hM.symm]
    exact bilin_add_le hM hB _ _ _ _
  have hMN : Real.sqrt (quad n M fun i => w i - v₁ i) ≤ N₁ :=
    Real.sqrt_le_sqrt (by have := hB.nonneg fun i => p i - u₁ i; linarith)
  have hBN : Real.sqrt (quad n B fun i => p i - u₁ i) ≤ N₁ :=
    Real.sqrt_le_sqrt (by have := hM.nonneg fun i => w i - v₁ i; linarith)
  have c2 : bilin n M (fun i => w i - v₁ i) (fun i => a i - (v₁ i - v₀ i) / τ) ≤ N₁ * ρ := by
    refine (bilin_le_sqrt hM _ _).trans (mul_le_mul hMN ?_ (Real.sqrt_nonneg _) hN₁0)
    exact Real.sqrt_le_iff.2 ⟨hρ0, hρ⟩
  have c3 : -bilin n B (fun i => u₁ i - u₀ i - τ * v₁ i) (fun i => p i - u₁ i) ≤ σ * N₁ := by
    have e : -bilin n B (fun i => u₁ i - u₀ i - τ * v₁ i) (fun i => p i - u₁ i) =
        bilin n B (fun i => u₁ i - u₀ i - τ * v₁ i) (fun i => (-1) * (p i - u₁ i)) := by
      rw [bilin_smul_right]; ring
    have e' : quad n B (fun i => (-1) * (p i - u₁ i)) = quad n B (fun i => p i - u₁ i) := by
      rw [quad_eq_bilin, quad_eq_bilin, bilin_smul_left, bilin_smul_right]; ring
    rw [e]
    refine (bilin_le_sqrt hB _ _).trans ?_
    rw [e']
    exact mul_le_mul (Real.sqrt_le_iff.2 ⟨hσ0, hσ⟩) hBN (Real.sqrt_nonneg _) hσ0
  have c4 : ∑ r ∈ Finset.range n, (w r - v₁ r) * (f r - g r) ≤ β * N₁ :=
    hβ.trans (mul_le_mul_of_nonneg_left hMN hβ0)
  have total : N₁ ^ 2 ≤ N₁ * (N₀ + (σ + τ * (ρ + β))) := by
    rw [k1, k2] at key
    have key' := mul_le_mul_of_nonneg_left key hτ.le
    have e : τ * (1 / τ * (quad n M (fun i => w i - v₁ i) -
        bilin n M (fun i => w i - v₁ i) (fun i => v i - v₀ i)) -
      bilin n M (fun i => w i - v₁ i) (fun i => a i - (v₁ i - v₀ i) / τ) +
      quad n A (fun i => w i - v₁ i) +
      1 / τ * (quad n B (fun i => p i - u₁ i) -
        bilin n B (fun i => u i - u₀ i) (fun i => p i - u₁ i) +
        bilin n B (fun i => u₁ i - u₀ i - τ * v₁ i) (fun i => p i - u₁ i))) =
      (quad n B (fun i => p i - u₁ i) + quad n M (fun i => w i - v₁ i)) -
      (bilin n B (fun i => u i - u₀ i) (fun i => p i - u₁ i) +
        bilin n M (fun i => w i - v₁ i) (fun i => v i - v₀ i)) -
      τ * bilin n M (fun i => w i - v₁ i) (fun i => a i - (v₁ i - v₀ i) / τ) +
      τ * quad n A (fun i => w i - v₁ i) +
      bilin n B (fun i => u₁ i - u₀ i - τ * v₁ i) (fun i => p i - u₁ i) := by
      field_simp; ring
    rw [e, ← hsq] at key'
    have t1 := mul_le_mul_of_nonneg_left c2 hτ.le
    have t2 := mul_nonneg hτ.le hq
    have t3 := mul_le_mul_of_nonneg_left c4 hτ.le
    nlinarith
  rcases hN₁0.eq_or_lt with h0 | h0
  · rw [← h0]; positivity
  · have : N₁ * N₁ ≤ N₁ * (N₀ + (σ + τ * (ρ + β))) := by rw [← sq]; exact total
    exact le_of_mul_le_mul_left this h0

/-- The error of the backward difference of a motion whose rate changes at most at the rate `c`. -/
theorem backward_difference (hM : StoresEnergy n M) {t₀ t₁ : ℝ} {x x' : ℝ → ℕ → ℝ}
    (hx : ∀ t ∈ Set.Icc t₀ t₁, ∀ r < n,
      HasDerivWithinAt (fun s => x s r) (x' t r) (Set.Icc t₀ t₁) t)
    {c : ℝ} (hc : 0 ≤ c) (hc' : ∀ s ∈ Set.Icc t₀ t₁, ∀ t ∈ Set.Icc t₀ t₁,
      quad n M (fun i => x' s i - x' t i) ≤ (c * (s - t)) ^ 2)
    {t τ : ℝ} (hτ : 0 ≤ τ) (ht : t ∈ Set.Icc t₀ t₁) (ht' : t + τ ∈ Set.Icc t₀ t₁) :
    quad n M (fun i => x (t + τ) i - x t i - τ * x' (t + τ) i) ≤ (c * τ ^ 2 / 2) ^ 2 := by
  set z : ℕ → ℝ := fun i => x (t + τ) i - x t i - τ * x' (t + τ) i with hz
  set q := Real.sqrt (quad n M z) with hq
  have hq0 : 0 ≤ q := Real.sqrt_nonneg _
  have hqq : q ^ 2 = quad n M z := Real.sq_sqrt (hM.nonneg z)
  have hderiv : ∀ s ∈ Set.Icc t₀ t₁,
      HasDerivWithinAt (fun s => bilin n M z (x s)) (bilin n M z (x' s)) (Set.Icc t₀ t₁) s := by
    intro s hs
    unfold bilin
    refine HasDerivWithinAt.fun_sum fun r _ => HasDerivWithinAt.const_mul _ ?_
    exact HasDerivWithinAt.fun_sum fun j hj => (hx s hs j (Finset.mem_range.1 hj)).const_mul _
  have hsub : Set.Icc t (t + τ) ⊆ Set.Icc t₀ t₁ := Set.Icc_subset_Icc ht.1 ht'.2
  set h : ℝ → ℝ := fun s => bilin n M z (x s) - s * bilin n M z (x' (t + τ)) +
    q * c * ((t + τ - s) ^ 2 / 2) with hh
  have hderiv' : ∀ s ∈ Set.Icc t (t + τ),
      HasDerivWithinAt h (bilin n M z (x' s) - bilin n M z (x' (t + τ)) - q * c * (t + τ - s))
        (Set.Icc t (t + τ)) s := by
    intro s hs
    have d1 := (hderiv s (hsub hs)).mono hsub
    have d2 : HasDerivWithinAt (fun s : ℝ => s * bilin n M z (x' (t + τ)))
        (bilin n M z (x' (t + τ))) (Set.Icc t (t + τ)) s := by
      simpa using (hasDerivWithinAt_id s (Set.Icc t (t + τ))).mul_const (bilin n M z (x' (t + τ)))
    have d3 : HasDerivWithinAt (fun s : ℝ => q * c * ((t + τ - s) ^ 2 / 2))
        (-(q * c * (t + τ - s))) (Set.Icc t (t + τ)) s := by
      have := ((((hasDerivAt_id s).const_sub (t + τ)).pow 2).div_const 2).const_mul (q * c)
      refine this.hasDerivWithinAt.congr_deriv ?_
      simp
      ring
    refine ((d1.sub d2).add d3).congr_deriv ?_
    ring
  have hanti : AntitoneOn h (Set.Icc t (t + τ)) := by
    refine antitoneOn_of_deriv_nonpos (convex_Icc _ _) (fun s hs => (hderiv' s hs).continuousWithinAt)
      (fun s hs => ((hderiv' s (interior_subset hs)).mono interior_subset).differentiableWithinAt) ?_
    intro s hs
    rw [interior_Icc] at hs
    have hs' : s ∈ Set.Icc t (t + τ) := ⟨hs.1.le, hs.2.le⟩
    rw [((hderiv' s hs').hasDerivAt (Icc_mem_nhds hs.1 hs.2)).deriv, ← bilin_sub_right]
    have h1 := bilin_le_sqrt hM z fun i => x' s i - x' (t + τ) i
    have h2 : Real.sqrt (quad n M fun i => x' s i - x' (t + τ) i) ≤ c * (t + τ - s) := by
      refine Real.sqrt_le_iff.2 ⟨mul_nonneg hc (by linarith [hs.2]), ?_⟩
      refine (hc' s (hsub hs') (t + τ) ht').trans (le_of_eq ?_)
      ring
    have h3 := mul_le_mul_of_nonneg_left h2 hq0
    linarith
  have hle := hanti (Set.left_mem_Icc.2 (by linarith)) (Set.right_mem_Icc.2 (by linarith))
    (by linarith : t ≤ t + τ)
  have e : quad n M z = bilin n M z (x (t + τ)) - bilin n M z (x t) -
      τ * bilin n M z (x' (t + τ)) := by
    rw [quad_eq_bilin]
    conv_lhs => rw [hz]
    rw [show bilin n M (fun i => x (t + τ) i - x t i - τ * x' (t + τ) i)
      (fun i => x (t + τ) i - x t i - τ * x' (t + τ) i) = bilin n M z
        (fun i => x (t + τ) i - x t i - τ * x' (t + τ) i) from rfl]
    rw [bilin_sub_right n M z (fun i => x (t + τ) i - x t i), bilin_sub_right, bilin_smul_right]
  have hfin : q ^ 2 ≤ q * (c * τ ^ 2 / 2) := by
    rw [hqq, e]
    simp only [hh] at hle
    nlinarith
  have hbound : q ≤ c * τ ^ 2 / 2 := by
    rcases hq0.eq_or_lt with h0 | h0
    · rw [← h0]; positivity
    · refine le_of_mul_le_mul_left ?_ h0
      rw [← sq]; exact hfin
  rw [← hqq]
  exact pow_le_pow_left₀ hq0 hbound 2

/-- One time step, compared with a motion in continuous time. -/
theorem motion_step {D : ℕ → Prop} (hM : StoresEnergy n M) (hA : Dissipates n A)
    (hB : StoresEnergy n B) {J : (ℕ → ℝ) → ℝ} {f : ℝ → ℕ → ℝ} {t₀ t₁ : ℝ} {x v a : ℝ → ℕ → ℝ}
    (hm : Motion n D M A B J f t₀ t₁ x v a) {cv ca cf : ℝ}
    (hmod : Moderate n D M B f t₀ t₁ v a cv ca cf) {τ t : ℝ} (hτ : 0 < τ) (ht : t₀ ≤ t)
    (ht' : t + τ ≤ t₁) {p q w : ℕ → ℝ} (hw : Still n D w)
    (h : Balanced n D M A B J (f t) (fun i => p i + τ * w i) w fun i => (w i - q i) / τ) :
    energyDistance n M B (fun i => p i + τ * w i) w (x (t + τ)) (v (t + τ)) ≤
      energyDistance n M B p q (x t) (v t) + τ * (τ * ((cv + ca) / 2 + cf)) := by
  have m0 : t ∈ Set.Icc t₀ t₁ := ⟨ht, by linarith⟩
  have m1 : t + τ ∈ Set.Icc t₀ t₁ := ⟨by linarith, ht'⟩
  obtain ⟨n1, n2, n3⟩ := hmod.nonneg
  have b1 := backward_difference hB hm.velocity n1 hmod.velocity hτ.le m0 m1
  have b2 := backward_difference hM hm.acceleration n2 hmod.acceleration hτ.le m0 m1
  have := distance_step (u := p) (v := q) (u₀ := x t) (v₀ := v t) (ρ := ca * τ / 2)
    (σ := cv * τ ^ 2 / 2) (β := cf * τ) hM hA hB hτ hw (hm.held _ m1) h (hm.balanced _ m1)
    (by positivity) (by positivity) (by positivity) ?_ b1 ?_
  · refine this.trans (le_of_eq ?_)
    ring
  · have e : (fun i => a (t + τ) i - (v (t + τ) i - v t i) / τ) =
        fun i => (-(1 / τ)) * (v (t + τ) i - v t i - τ * a (t + τ) i) := by
      funext i; field_simp; ring
    rw [e, quad_eq_bilin, bilin_smul_left, bilin_smul_right, ← quad_eq_bilin]
    have : -(1 / τ) * (-(1 / τ) * quad n M fun i => v (t + τ) i - v t i - τ * a (t + τ) i) =
      (1 / τ) ^ 2 * quad n M fun i => v (t + τ) i - v t i - τ * a (t + τ) i := by ring
    rw [this]
    refine (mul_le_mul_of_nonneg_left b2 (by positivity)).trans (le_of_eq ?_)
    field_simp
  · have hx : Still n D fun i => w i - v (t + τ) i := fun r hr hD => by
      beta_reduce
      rw [hw r hr hD, hm.held _ m1 r hr hD, sub_zero]
    have := hmod.loads t m0 (t + τ) m1 _ hx
    have hs := Real.abs_le_sqrt this
    refine (le_abs_self _).trans (hs.trans (le_of_eq ?_))
    rw [Real.sqrt_mul (sq_nonneg _), Real.sqrt_sq_eq_abs, abs_mul, abs_of_nonneg n3]
    congr 2
    rw [show t - (t + τ) = -τ by ring, abs_neg, abs_of_pos hτ]

end

end Conmech
