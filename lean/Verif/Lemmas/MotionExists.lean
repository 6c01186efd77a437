import Verif.Lemmas.Motion
import Verif.Lemmas.Ode
import Mathlib.Analysis.Calculus.MeanValue
import Mathlib.Analysis.Normed.Module.FiniteDimension
/-!
Motions exist: for a mass matrix that is definite outside of the supports, loads that change at a
bounded rate and a contact force that depends Lipschitz continuously on the velocity.
-/
namespace Conmech
open Spec Set

/-- A vector of the first `n` numbers. -/
def extendZero (n : ℕ) (x : Fin n → ℝ) : ℕ → ℝ := fun r => if h : r < n then x ⟨r, h⟩ else 0

theorem extendZero_of (n : ℕ) (x : Fin n → ℝ) (r : Fin n) : extendZero n x r = x r := by
  simp [extendZero]

theorem act_extendZero (n : ℕ) (M : ℕ → ℕ → ℝ) (x : Fin n → ℝ) (r : ℕ) :
    act n M (extendZero n x) r = ∑ s : Fin n, M r s * x s := by
  unfold act
  rw [Finset.sum_range]
  exact Finset.sum_congr rfl fun s _ => by rw [extendZero_of]

theorem norm_extendZero (n : ℕ) (x : Fin n → ℝ) (r : ℕ) : |extendZero n x r| ≤ ‖x‖ := by
  unfold extendZero
  split_ifs with h
  · exact norm_le_pi_norm x ⟨r, h⟩
  · simp

theorem sum_abs_extendZero (n : ℕ) (x : Fin n → ℝ) :
    ∑ s ∈ Finset.range n, |extendZero n x s| ≤ n * ‖x‖ := by
  calc ∑ s ∈ Finset.range n, |extendZero n x s| ≤ ∑ _s ∈ Finset.range n, ‖x‖ :=
        Finset.sum_le_sum fun s _ => norm_extendZero n x s
    _ = n * ‖x‖ := by simp

/-- The matrix as a linear map. -/
noncomputable def actMap (n : ℕ) (M : ℕ → ℕ → ℝ) : (Fin n → ℝ) →L[ℝ] (Fin n → ℝ) :=
  LinearMap.toContinuousLinearMap
    { toFun := fun x r => ∑ s : Fin n, M r s * x s
      map_add' := fun x y => by
        funext r
        simp only [Pi.add_apply, mul_add, Finset.sum_add_distrib]
      map_smul' := fun c x => by
        funext r
        simp only [Pi.smul_apply, smul_eq_mul, RingHom.id_apply, Finset.mul_sum]
        exact Finset.sum_congr rfl fun s _ => by ring }

theorem actMap_apply (n : ℕ) (M : ℕ → ℕ → ℝ) (x : Fin n → ℝ) (r : Fin n) :
    actMap n M x r = act n M (extendZero n x) r := by
  rw [act_extendZero]; rfl

section
variable {n : ℕ} {D : ℕ → Prop} {M : ℕ → ℕ → ℝ}

theorem quad_eq_act (x : ℕ → ℝ) : quad n M x = ∑ r ∈ Finset.range n, x r * act n M x r := by
  unfold quad act
  refine Finset.sum_congr rfl fun r _ => ?_
  first
    | rfl
    | rw [Finset.mul_sum]

/-- The forces outside of the supports determine accelerations that vanish on them. -/
theorem exists_inverse (hM : DefiniteOn n D M) :
    ∃ W : (Fin n → ℝ) →L[ℝ] (Fin n → ℝ), (∀ p, Still n D (extendZero n (W p))) ∧
      (∀ p, ∀ r : Fin n, ¬ D r → act n M (extendZero n (W p)) r = p r) ∧
      ∀ x : Fin n → ℝ, Still n D (extendZero n x) → W (actMap n M x) = x := by
  classical
  let T : (Fin n → ℝ) →ₗ[ℝ] (Fin n → ℝ) :=
    { toFun := fun x r => if D r then x r else actMap n M x r
      map_add' := fun x y => by
        funext r
        simp only [map_add, Pi.add_apply]
        split_ifs <;> rfl
      map_smul' := fun c x => by
        funext r
        simp only [map_smul, Pi.smul_apply, RingHom.id_apply]
        split_ifs <;> rfl }
  have hT : Function.Injective T := by
    rw [← LinearMap.ker_eq_bot, LinearMap.ker_eq_bot']
    intro x hx
    have hx' : ∀ r : Fin n, (if D r then x r else actMap n M x r) = 0 := fun r => congrFun hx r
    have hs : Still n D (extendZero n x) := by
      intro r hr hD
      have := hx' ⟨r, hr⟩
      simp only [hD, if_true] at this
      simpa [extendZero, hr] using this
    have hq : quad n M (extendZero n x) = 0 := by
      rw [quad_eq_act]
      refine Finset.sum_eq_zero fun r hr => ?_
      have hr := Finset.mem_range.1 hr
      by_cases hD : D r
      · rw [hs r hr hD, zero_mul]
      · have := hx' ⟨r, hr⟩
        simp only [hD, if_false, actMap_apply] at this
        rw [this, mul_zero]
    funext r
    have := hM _ hs hq r r.2
    rwa [extendZero_of] at this
  let e := LinearEquiv.ofInjectiveEndo T hT
  let P : (Fin n → ℝ) →ₗ[ℝ] (Fin n → ℝ) :=
    { toFun := fun p r => if D r then 0 else p r
      map_add' := fun x y => by
        funext r
        simp only [Pi.add_apply]
        split_ifs <;> simp
      map_smul' := fun c x => by
        funext r
        simp only [Pi.smul_apply, RingHom.id_apply]
        split_ifs <;> simp }
  have key : ∀ p, ∀ r : Fin n, (if D r then e.symm (P p) r else actMap n M (e.symm (P p)) r) =
      if D r then 0 else p r := by
    intro p r
    have : e (e.symm (P p)) = P p := e.apply_symm_apply _
    exact congrFun this r
  refine ⟨LinearMap.toContinuousLinearMap (e.symm.toLinearMap.comp P), fun p r hr hD => ?_,
    fun p r hD => ?_, fun x hx => ?_⟩
  · have := key p ⟨r, hr⟩
    simp only [hD, if_true] at this
    simpa [extendZero, hr] using this
  · have := key p r
    simp only [hD, if_false, actMap_apply] at this
    exact this
  · change e.symm (P (actMap n M x)) = x
    rw [LinearEquiv.symm_apply_eq]
    funext r
    change (if D r then 0 else actMap n M x r) = if D r then x r else actMap n M x r
    by_cases hD : D r
    · have := hx r r.2 hD
      rw [extendZero_of] at this
      simp [hD, this]
    · simp [hD]

theorem quad_extendZero_le (x : Fin n → ℝ) :
    quad n M (extendZero n x) ≤ (∑ r ∈ Finset.range n, ∑ s ∈ Finset.range n, |M r s|) * ‖x‖ ^ 2 := by
  have e1 : quad n M (extendZero n x) =
      ∑ r ∈ Finset.range n, ∑ s ∈ Finset.range n, M r s * (extendZero n x r * extendZero n x s) := by
    rw [quad_eq_act]
    unfold act
    refine Finset.sum_congr rfl fun r _ => ?_
    rw [Finset.mul_sum]
    exact Finset.sum_congr rfl fun s _ => by ring
  rw [e1, Finset.sum_mul]
  refine Finset.sum_le_sum fun r _ => ?_
  rw [Finset.sum_mul]
  refine Finset.sum_le_sum fun s _ => ?_
  refine (le_abs_self _).trans ?_
  rw [abs_mul, abs_mul, sq]
  exact mul_le_mul_of_nonneg_left (mul_le_mul (norm_extendZero n x r) (norm_extendZero n x s)
    (abs_nonneg _) (norm_nonneg _)) (abs_nonneg _)

/-- The energy of a vector controls its size. -/
theorem exists_coercive (hS : StoresEnergy n M) (hM : DefiniteOn n D M) :
    ∃ c, 0 ≤ c ∧ ∀ x : Fin n → ℝ, Still n D (extendZero n x) →
      ‖x‖ ^ 2 ≤ c * quad n M (extendZero n x) := by
  obtain ⟨W, -, -, hW⟩ := exists_inverse hM
  set m := ∑ r ∈ Finset.range n, M r r with hm
  have hdiag : ∀ r < n, 0 ≤ M r r ∧ quad n M (fun i => if i = r then 1 else 0) = M r r := by
    intro r hr
    have : quad n M (fun i => if i = r then 1 else 0) = M r r := by
      rw [quad_eq_act]
      unfold act
      simp [Finset.sum_ite_eq', hr]
    exact ⟨this ▸ hS.nonneg _, this⟩
  have hm0 : 0 ≤ m := Finset.sum_nonneg fun r hr => (hdiag r (Finset.mem_range.1 hr)).1
  refine ⟨‖W‖ ^ 2 * m, by positivity, fun x hx => ?_⟩
  have hq0 := hS.nonneg (extendZero n x)
  have h1 : ‖actMap n M x‖ ≤ Real.sqrt (m * quad n M (extendZero n x)) := by
    rw [pi_norm_le_iff_of_nonneg (Real.sqrt_nonneg _)]
    intro r
    rw [actMap_apply, Real.norm_eq_abs]
    have hb : ∀ y, bilin n M (fun i => if i = (r : ℕ) then 1 else 0) y = act n M y r := by
      intro y
      unfold bilin act
      simp [r.2]
    have h2 := bilin_le_sqrt hS (fun i => if i = (r : ℕ) then 1 else 0) (extendZero n x)
    have h3 := bilin_le_sqrt hS (fun i => if i = (r : ℕ) then 1 else 0) (fun i => -1 * extendZero n x i)
    rw [bilin_smul_right, hb] at h3
    rw [hb] at h2
    have hqn : quad n M (fun i => -1 * extendZero n x i) = quad n M (extendZero n x) := by
      rw [quad_eq_bilin, bilin_smul_left, bilin_smul_right, ← quad_eq_bilin]; ring
    rw [hqn] at h3
    rw [(hdiag r r.2).2, ← Real.sqrt_mul (hdiag r r.2).1] at h2 h3
    have h4 : Real.sqrt (M r r * quad n M (extendZero n x)) ≤
        Real.sqrt (m * quad n M (extendZero n x)) := by
      refine Real.sqrt_le_sqrt (mul_le_mul_of_nonneg_right ?_ hq0)
      exact Finset.single_le_sum (f := fun i => M i i)
        (fun i hi => (hdiag i (Finset.mem_range.1 hi)).1) (Finset.mem_range.2 r.2)
    rw [abs_le]
    constructor <;> linarith
  have h2 : ‖x‖ ≤ ‖W‖ * Real.sqrt (m * quad n M (extendZero n x)) := by
    calc ‖x‖ = ‖W (actMap n M x)‖ := by rw [hW x hx]
      _ ≤ ‖W‖ * ‖actMap n M x‖ := W.le_opNorm _
      _ ≤ _ := mul_le_mul_of_nonneg_left h1 (norm_nonneg _)
  calc ‖x‖ ^ 2 ≤ (‖W‖ * Real.sqrt (m * quad n M (extendZero n x))) ^ 2 :=
        pow_le_pow_left₀ (norm_nonneg _) h2 2
    _ = ‖W‖ ^ 2 * m * quad n M (extendZero n x) := by
        rw [mul_pow, Real.sq_sqrt (mul_nonneg hm0 hq0)]; ring

/-- What the loads and the contact leave for the masses. -/
noncomputable def remaining (n : ℕ) (A B : ℕ → ℕ → ℝ) (g : (ℕ → ℝ) → ℕ → ℝ) (f : ℝ → ℕ → ℝ) (t : ℝ)
    (z : (Fin n → ℝ) × (Fin n → ℝ)) : Fin n → ℝ :=
  (fun r : Fin n => f t r) - actMap n A z.2 - actMap n B z.1 - fun r : Fin n => g (extendZero n z.2) r

theorem contact_lipschitz {J : (ℕ → ℝ) → ℝ} {g : (ℕ → ℝ) → ℕ → ℝ} {k : ℝ} (hk : 0 ≤ k)
    (hg : SmoothContact n J g k) :
    LipschitzWith (Real.toNNReal (k * n))
      (fun v : Fin n → ℝ => fun r : Fin n => g (extendZero n v) r) := by
  refine LipschitzWith.of_dist_le_mul fun v w => ?_
  rw [Real.coe_toNNReal _ (by positivity), dist_pi_le_iff (by positivity)]
  intro r
  rw [Real.dist_eq, dist_eq_norm]
  refine (hg.lipschitz _ _ r r.2).trans ?_
  have h1 : ∑ s ∈ Finset.range n, |extendZero n v s - extendZero n w s| ≤ n * ‖v - w‖ := by
    refine le_trans (le_of_eq ?_) (sum_abs_extendZero n (v - w))
    refine Finset.sum_congr rfl fun s hs => ?_
    simp [extendZero, Finset.mem_range.1 hs]
  calc k * ∑ s ∈ Finset.range n, |extendZero n v s - extendZero n w s| ≤ k * (n * ‖v - w‖) :=
        mul_le_mul_of_nonneg_left h1 hk
    _ = k * n * ‖v - w‖ := by ring

theorem remaining_lipschitz {A B : ℕ → ℕ → ℝ} {J : (ℕ → ℝ) → ℝ} {g : (ℕ → ℝ) → ℕ → ℝ} {k : ℝ}
    (hk : 0 ≤ k) (hg : SmoothContact n J g k) (f : ℝ → ℕ → ℝ) :
    ∃ K : NNReal, ∀ t, LipschitzWith K (remaining n A B g f t) := by
  refine ⟨0 + ‖actMap n A‖₊ * 1 + ‖actMap n B‖₊ * 1 + Real.toNNReal (k * n) * 1, fun t => ?_⟩
  exact (((LipschitzWith.const _).sub ((actMap n A).lipschitz.comp LipschitzWith.prod_snd)).sub
    ((actMap n B).lipschitz.comp LipschitzWith.prod_fst)).sub
    ((contact_lipschitz hk hg).comp LipschitzWith.prod_snd)

/-- Motions exist. -/
theorem motion_exists (hS : StoresEnergy n M) (hM : DefiniteOn n D M) (A B : ℕ → ℕ → ℝ)
    {J : (ℕ → ℝ) → ℝ} {g : (ℕ → ℝ) → ℕ → ℝ} {k : ℝ} (hk : 0 ≤ k) (hg : SmoothContact n J g k)
    (f : ℝ → ℕ → ℝ) (T l : ℝ) (hT : 0 ≤ T) (hl : 0 ≤ l)
    (hf : ∀ s ∈ Icc 0 T, ∀ t ∈ Icc 0 T, ∀ r < n, |f s r - f t r| ≤ l * |s - t|)
    (u₀ v₀ : ℕ → ℝ) (hv₀ : Still n D v₀) :
    ∃ u v a : ℝ → ℕ → ℝ, Motion n D M A B J f 0 T u v a ∧ (∀ r < n, u 0 r = u₀ r ∧ v 0 r = v₀ r) ∧
      ∃ cv ca cf, Moderate n D M B f 0 T v a cv ca cf := by
  obtain ⟨W, hW1, hW2, -⟩ := exists_inverse hM
  obtain ⟨c, hc0, hc⟩ := exists_coercive hS hM
  obtain ⟨K, hK⟩ := remaining_lipschitz (A := A) (B := B) hk hg f
  let F : ℝ → (Fin n → ℝ) × (Fin n → ℝ) → (Fin n → ℝ) × (Fin n → ℝ) := fun t z =>
    (z.2, W (remaining n A B g f t z))
  have hFl : ∀ t ∈ Icc 0 T, LipschitzWith (max 1 (‖W‖₊ * K)) (F t) := fun t _ =>
    LipschitzWith.prod_snd.prodMk (W.lipschitz.comp (hK t))
  have hfc : ContinuousOn (fun t => fun r : Fin n => f t r) (Icc 0 T) := by
    rw [continuousOn_pi]
    intro r
    have : LipschitzOnWith (Real.toNNReal l) (fun t => f t r) (Icc 0 T) :=
      LipschitzOnWith.of_dist_le_mul fun s hs t ht => by
        rw [Real.coe_toNNReal _ hl, Real.dist_eq, Real.dist_eq]; exact hf s hs t ht r r.2
    exact this.continuousOn
  have hgc : Continuous (fun v : Fin n → ℝ => fun r : Fin n => g (extendZero n v) r) :=
    (contact_lipschitz hk hg).continuous
  have hrem : ∀ z : ℝ → (Fin n → ℝ) × (Fin n → ℝ), ContinuousOn z (Icc 0 T) →
      ContinuousOn (fun t => remaining n A B g f t (z t)) (Icc 0 T) := by
    intro z hz
    have h2 : ContinuousOn (fun t => (z t).2) (Icc 0 T) := continuous_snd.comp_continuousOn hz
    have h1 : ContinuousOn (fun t => (z t).1) (Icc 0 T) := continuous_fst.comp_continuousOn hz
    exact ((hfc.sub ((actMap n A).continuous.comp_continuousOn h2)).sub
      ((actMap n B).continuous.comp_continuousOn h1)).sub (hgc.comp_continuousOn h2)
  have hFc : ∀ z : ℝ → (Fin n → ℝ) × (Fin n → ℝ), ContinuousOn z (Icc 0 T) →
      ContinuousOn (fun t => F t (z t)) (Icc 0 T) := fun z hz =>
    (continuous_snd.comp_continuousOn hz).prodMk (W.continuous.comp_continuousOn (hrem z hz))
  obtain ⟨z, hz0, hz⟩ := ode_global F _ T hT hFl (fun x => hFc (fun _ => x) continuousOn_const)
    (fun r => u₀ r, fun r => v₀ r)
  have hzc : ContinuousOn z (Icc 0 T) := fun t ht => (hz t ht).continuousWithinAt
  have hfst : ∀ t ∈ Icc 0 T, ∀ r : Fin n,
      HasDerivWithinAt (fun s => (z s).1 r) ((z t).2 r) (Icc 0 T) t := fun t ht r =>
    ((ContinuousLinearMap.proj (R := ℝ) (φ := fun _ : Fin n => ℝ) r).comp
      (ContinuousLinearMap.fst ℝ (Fin n → ℝ) (Fin n → ℝ))).hasFDerivAt.comp_hasDerivWithinAt t (hz t ht)
  have hsnd : ∀ t ∈ Icc 0 T, ∀ r : Fin n,
      HasDerivWithinAt (fun s => (z s).2 r) (W (remaining n A B g f t (z t)) r) (Icc 0 T) t :=
    fun t ht r =>
    ((ContinuousLinearMap.proj (R := ℝ) (φ := fun _ : Fin n => ℝ) r).comp
      (ContinuousLinearMap.snd ℝ (Fin n → ℝ) (Fin n → ℝ))).hasFDerivAt.comp_hasDerivWithinAt t (hz t ht)
  -- bounds
  obtain ⟨b, hb⟩ := isCompact_Icc.exists_bound_of_continuousOn (hFc z hzc)
  have hb0 : 0 ≤ b := (norm_nonneg _).trans (hb 0 ⟨le_rfl, hT⟩)
  have hzl : ∀ s ∈ Icc 0 T, ∀ t ∈ Icc 0 T, ‖z s - z t‖ ≤ b * |s - t| := fun s hs t ht =>
    (convex_Icc 0 T).norm_image_sub_le_of_norm_hasDerivWithin_le hz hb ht hs
  have hrl : ∀ s ∈ Icc 0 T, ∀ t ∈ Icc 0 T, ‖W (remaining n A B g f s (z s)) -
      W (remaining n A B g f t (z t))‖ ≤ ‖W‖ * (l + K * b) * |s - t| := by
    intro s hs t ht
    have h1 : ‖remaining n A B g f s (z s) - remaining n A B g f s (z t)‖ ≤ K * (b * |s - t|) := by
      have := (hK s).dist_le_mul (z s) (z t)
      rw [dist_eq_norm, dist_eq_norm] at this
      exact this.trans (mul_le_mul_of_nonneg_left (hzl s hs t ht) K.2)
    have h2 : ‖remaining n A B g f s (z t) - remaining n A B g f t (z t)‖ ≤ l * |s - t| := by
      rw [pi_norm_le_iff_of_nonneg (by positivity)]
      intro r
      have : (remaining n A B g f s (z t) - remaining n A B g f t (z t)) r = f s r - f t r := by
        simp only [remaining, Pi.sub_apply]; ring
      rw [this]
      exact hf s hs t ht r r.2
    have h3 : ‖remaining n A B g f s (z s) - remaining n A B g f t (z t)‖ ≤ (l + K * b) * |s - t| := by
      have := norm_sub_le_norm_sub_add_norm_sub (remaining n A B g f s (z s))
        (remaining n A B g f s (z t)) (remaining n A B g f t (z t))
      linarith
    rw [← map_sub]
    refine (W.le_opNorm _).trans ?_
    rw [mul_assoc]
    exact mul_le_mul_of_nonneg_left h3 (norm_nonneg _)
  have hext : ∀ x y : Fin n → ℝ, (fun i => extendZero n x i - extendZero n y i) =
      extendZero n (x - y) := fun x y => by
    funext i
    simp only [extendZero]
    split_ifs <;> simp
  have habs : ∀ s t : ℝ, |s - t| ^ 2 = (s - t) ^ 2 := fun s t => sq_abs _
  set qB := ∑ r ∈ Finset.range n, ∑ s ∈ Finset.range n, |B r s| with hqB
  set qM := ∑ r ∈ Finset.range n, ∑ s ∈ Finset.range n, |M r s| with hqM
  have hqB0 : 0 ≤ qB := Finset.sum_nonneg fun r _ => Finset.sum_nonneg fun s _ => abs_nonneg _
  have hqM0 : 0 ≤ qM := Finset.sum_nonneg fun r _ => Finset.sum_nonneg fun s _ => abs_nonneg _
  refine ⟨fun t => extendZero n (z t).1, fun t => extendZero n (z t).2,
    fun t => extendZero n (W (remaining n A B g f t (z t))), ⟨?_, ?_, ?_, ?_⟩, ?_,
    Real.sqrt qB * b, Real.sqrt qM * (‖W‖ * (l + K * b)), Real.sqrt c * (n * l), ⟨?_, ?_, ?_⟩, ?_, ?_, ?_⟩
  · intro t ht r hr
    simpa [extendZero, hr] using hfst t ht ⟨r, hr⟩
  · intro t ht r hr
    simpa [extendZero, hr] using hsnd t ht ⟨r, hr⟩
  · intro t ht r hr hD
    have hd0 : ∀ s ∈ Icc 0 T, HasDerivWithinAt (fun s => (z s).2 ⟨r, hr⟩) 0 (Icc 0 T) s := by
      intro s hs
      have h1 := hsnd s hs ⟨r, hr⟩
      have h2 := hW1 (remaining n A B g f s (z s)) r hr hD
      simp only [extendZero, hr, dif_pos] at h2
      rwa [h2] at h1
    have h3 : ‖(z t).2 ⟨r, hr⟩ - (z 0).2 ⟨r, hr⟩‖ ≤ 0 * ‖t - 0‖ :=
      (convex_Icc 0 T).norm_image_sub_le_of_norm_hasDerivWithin_le (f := fun s => (z s).2 ⟨r, hr⟩)
        hd0 (fun s _ => by simp) ⟨le_rfl, hT⟩ ht
    have h4 : (z 0).2 ⟨r, hr⟩ = 0 := by rw [hz0]; exact hv₀ r hr hD
    rw [h4, zero_mul, sub_zero] at h3
    simpa [extendZero, hr] using h3
  · intro t ht y hy
    have hst : Still n D (extendZero n (z t).2) := by
      intro r hr hD
      have hd0 : ∀ s ∈ Icc 0 T, HasDerivWithinAt (fun s => (z s).2 ⟨r, hr⟩) 0 (Icc 0 T) s := by
        intro s hs
        have h1 := hsnd s hs ⟨r, hr⟩
        have h2 := hW1 (remaining n A B g f s (z s)) r hr hD
        simp only [extendZero, hr, dif_pos] at h2
        rwa [h2] at h1
      have h3 : ‖(z t).2 ⟨r, hr⟩ - (z 0).2 ⟨r, hr⟩‖ ≤ 0 * ‖t - 0‖ :=
        (convex_Icc 0 T).norm_image_sub_le_of_norm_hasDerivWithin_le (f := fun s => (z s).2 ⟨r, hr⟩)
          hd0 (fun s _ => by simp) ⟨le_rfl, hT⟩ ht
      have h4 : (z 0).2 ⟨r, hr⟩ = 0 := by rw [hz0]; exact hv₀ r hr hD
      rw [h4, zero_mul, sub_zero] at h3
      simpa [extendZero, hr] using h3
    have h1 : ∑ r ∈ Finset.range n, (y r - extendZero n (z t).2 r) *
        (act n M (extendZero n (W (remaining n A B g f t (z t)))) r + act n A (extendZero n (z t).2) r +
          act n B (extendZero n (z t).1) r - f t r) =
        -∑ r ∈ Finset.range n, (y r - extendZero n (z t).2 r) * g (extendZero n (z t).2) r := by
      rw [← Finset.sum_neg_distrib]
      refine Finset.sum_congr rfl fun r hr => ?_
      have hr := Finset.mem_range.1 hr
      by_cases hD : D r
      · rw [hy r hr hD, hst r hr hD]; ring
      · have h2 := hW2 (remaining n A B g f t (z t)) ⟨r, hr⟩ hD
        simp only at h2
        rw [h2]
        have h3 : remaining n A B g f t (z t) ⟨r, hr⟩ = f t r - act n A (extendZero n (z t).2) r -
            act n B (extendZero n (z t).1) r - g (extendZero n (z t).2) r := by
          simp only [remaining, Pi.sub_apply, actMap_apply]
        rw [h3]; ring
    rw [h1]
    have := hg.subgradient (extendZero n (z t).2) y
    linarith
  · intro r hr
    simp only [hz0, extendZero, hr, dif_pos, and_self]
  · positivity
  · positivity
  · positivity
  · intro s hs t ht
    rw [hext]
    refine (quad_extendZero_le _).trans ?_
    have h1 : ‖(z s).2 - (z t).2‖ ≤ b * |s - t| := (norm_snd_le (z s - z t)).trans (hzl s hs t ht)
    have h2 := pow_le_pow_left₀ (norm_nonneg _) h1 2
    rw [mul_pow, habs] at h2
    have h3 := mul_le_mul_of_nonneg_left h2 hqB0
    have h4 : (Real.sqrt qB * b * (s - t)) ^ 2 = qB * (b ^ 2 * (s - t) ^ 2) := by
      rw [mul_pow, mul_pow, Real.sq_sqrt hqB0]; ring
    rw [h4]; exact h3
  · intro s hs t ht
    rw [hext]
    refine (quad_extendZero_le _).trans ?_
    have h2 := pow_le_pow_left₀ (norm_nonneg _) (hrl s hs t ht) 2
    rw [mul_pow, habs] at h2
    have h3 := mul_le_mul_of_nonneg_left h2 hqM0
    have h4 : (Real.sqrt qM * (‖W‖ * (l + K * b)) * (s - t)) ^ 2 =
        qM * ((‖W‖ * (l + K * b)) ^ 2 * (s - t) ^ 2) := by
      rw [mul_pow, mul_pow, Real.sq_sqrt hqM0]; ring
    rw [h4]; exact h3
  · intro s hs t ht x hx
    have hx' : ∀ r < n, extendZero n (fun r : Fin n => x r) r = x r := fun r hr => by
      simp [extendZero, hr]
    have hst : Still n D (extendZero n fun r : Fin n => x r) := fun r hr hD => by
      rw [hx' r hr]; exact hx r hr hD
    have hcx := hc (fun r : Fin n => x r) hst
    have hqe : quad n M (extendZero n fun r : Fin n => x r) = quad n M x := by
      rw [quad_eq_act, quad_eq_act]
      refine Finset.sum_congr rfl fun r hr => ?_
      rw [hx' r (Finset.mem_range.1 hr)]
      congr 1
      unfold act
      exact Finset.sum_congr rfl fun q hq => by rw [hx' q (Finset.mem_range.1 hq)]
    rw [hqe] at hcx
    have h1 : |∑ r ∈ Finset.range n, x r * (f s r - f t r)| ≤
        n * ‖fun r : Fin n => x r‖ * (l * |s - t|) := by
      refine (Finset.abs_sum_le_sum_abs _ _).trans ?_
      have : ∀ r ∈ Finset.range n, |x r * (f s r - f t r)| ≤
          |extendZero n (fun r : Fin n => x r) r| * (l * |s - t|) := by
        intro r hr
        have hr := Finset.mem_range.1 hr
        rw [abs_mul, hx' r hr]
        exact mul_le_mul_of_nonneg_left (hf s hs t ht r hr) (abs_nonneg _)
      refine (Finset.sum_le_sum this).trans ?_
      rw [← Finset.sum_mul]
      exact mul_le_mul_of_nonneg_right (sum_abs_extendZero n _) (by positivity)
    have h2 := pow_le_pow_left₀ (abs_nonneg _) h1 2
    rw [sq_abs] at h2
    refine h2.trans ?_
    have h3 : (↑n * ‖fun r : Fin n => x r‖ * (l * |s - t|)) ^ 2 =
        (n * l) ^ 2 * (s - t) ^ 2 * ‖fun r : Fin n => x r‖ ^ 2 := by
      rw [mul_pow, mul_pow, mul_pow, habs]; ring
    have h4 : (Real.sqrt c * (n * l) * (s - t)) ^ 2 * quad n M x =
        (n * l) ^ 2 * (s - t) ^ 2 * (c * quad n M x) := by
      rw [mul_pow, mul_pow, Real.sq_sqrt hc0]; ring
    rw [h3, h4]
    exact mul_le_mul_of_nonneg_left hcx (by positivity)

end

end Conmech
