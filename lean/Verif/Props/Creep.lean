import Verif.Spec.Creep
import Verif.Props.Motions
/-!
C106: the time steps of quasistatic problems follow the quasistatic motion of the body.
-/
namespace Conmech
open Spec

section
variable {n : ℕ} {D : ℕ → Prop} {A B : ℕ → ℕ → ℝ} {J : (ℕ → ℝ) → ℝ} {f : ℝ → ℕ → ℝ}

theorem quad_zero_matrix (n : ℕ) (x : ℕ → ℝ) : quad n (fun _ _ => (0 : ℝ)) x = 0 := by simp [quad]

theorem bilin_zero_matrix (n : ℕ) (x y : ℕ → ℝ) : bilin n (fun _ _ => (0 : ℝ)) x y = 0 := by
  simp [bilin]

theorem act_zero_matrix (n : ℕ) (x : ℕ → ℝ) (r : ℕ) : act n (fun _ _ => (0 : ℝ)) x r = 0 := by
  simp [act]

theorem creep_balanced {t₀ t₁ : ℝ} {u v : ℝ → ℕ → ℝ} (h : Creep n D A B J f t₀ t₁ u v) (a : ℕ → ℝ)
    (t : ℝ) (ht : t ∈ Set.Icc t₀ t₁) :
    Balanced n D (fun _ _ => 0) A B J (f t) (u t) (v t) a := fun y hy => by
  simpa only [act_zero_matrix, zero_add] using h.balanced t ht y hy

/-- The sum of two errors, one of which accumulates in the mean square. -/
theorem sqrt_add_le {x y k : ℝ} (hx : 0 ≤ x) (hy : 0 ≤ y) (hk : 0 ≤ k) :
    Real.sqrt ((x + y) ^ 2 + k) ≤ Real.sqrt (x ^ 2 + k) + y := by
  rw [Real.sqrt_le_left (by positivity)]
  have h1 : x ≤ Real.sqrt (x ^ 2 + k) := Real.le_sqrt_of_sq_le (by linarith)
  have h2 := Real.sq_sqrt (by positivity : 0 ≤ x ^ 2 + k)
  nlinarith [mul_le_mul_of_nonneg_right h1 hy]

/-- One quasistatic time step, compared with the motion. -/
theorem creep_step (hA : Dissipates n A) (hB : StoresEnergy n B) {t₀ t₁ : ℝ} {x v : ℝ → ℕ → ℝ}
    (hm : Creep n D A B J f t₀ t₁ x v) {cv cf : ℝ} (hmod : ModerateCreep n D A B f t₀ t₁ v cv cf)
    {τ t : ℝ} (hτ : 0 < τ) (ht : t₀ ≤ t) (ht' : t + τ ≤ t₁) {p w a : ℕ → ℝ} (hw : Still n D w)
    (h : Balanced n D (fun _ _ => 0) A B J (f t) (fun i => p i + τ * w i) w a) :
    strainDistance n B (fun i => p i + τ * w i) (x (t + τ)) ≤
      Real.sqrt (strainDistance n B p (x t) ^ 2 + τ * ((cf * τ) ^ 2 / 2)) + τ * (cv * τ / 2) := by
  have m0 : t ∈ Set.Icc t₀ t₁ := ⟨ht, by linarith⟩
  have m1 : t + τ ∈ Set.Icc t₀ t₁ := ⟨by linarith, ht'⟩
  obtain ⟨n1, n2⟩ := hmod.nonneg
  have hσ := backward_difference hB hm.velocity n1 hmod.velocity hτ.le m0 m1
  have key := balanced_difference hw (hm.held _ m1) h (creep_balanced hm (fun _ => 0) _ m1)
  set u₁ := x (t + τ) with hu₁
  set u₀ := x t with hu₀
  set v₁ := v (t + τ) with hv₁
  set P : ℕ → ℝ := fun i => p i + τ * w i with hP
  set σ := cv * τ ^ 2 / 2 with hσd
  have hσ0 : 0 ≤ σ := by positivity
  set N₁ := strainDistance n B P u₁ with hN₁
  set N₀ := strainDistance n B p u₀ with hN₀
  have hN₁0 : 0 ≤ N₁ := Real.sqrt_nonneg _
  have hN₀0 : 0 ≤ N₀ := Real.sqrt_nonneg _
  have hsq : N₁ ^ 2 = quad n B (fun i => P i - u₁ i) := Real.sq_sqrt (hB.nonneg _)
  have eB : (fun i => w i - v₁ i) = fun i => (1 / τ) * ((P i - u₁ i) - (p i - u₀ i) +
      (u₁ i - u₀ i - τ * v₁ i)) := by
    funext i; simp only [hP]; field_simp; ring
  have k2 : bilin n B (fun i => w i - v₁ i) (fun i => P i - u₁ i) =
      1 / τ * (quad n B (fun i => P i - u₁ i) -
        bilin n B (fun i => p i - u₀ i) (fun i => P i - u₁ i) +
        bilin n B (fun i => u₁ i - u₀ i - τ * v₁ i) (fun i => P i - u₁ i)) := by
    rw [eB, bilin_smul_left, bilin_add_left, bilin_sub_left, quad_eq_bilin]
  have c1 : bilin n B (fun i => p i - u₀ i) (fun i => P i - u₁ i) ≤ N₀ * N₁ := bilin_le_sqrt hB _ _
  have c3 : -bilin n B (fun i => u₁ i - u₀ i - τ * v₁ i) (fun i => P i - u₁ i) ≤ σ * N₁ := by
    have e : -bilin n B (fun i => u₁ i - u₀ i - τ * v₁ i) (fun i => P i - u₁ i) =
        bilin n B (fun i => u₁ i - u₀ i - τ * v₁ i) (fun i => (-1) * (P i - u₁ i)) := by
      rw [bilin_smul_right]; ring
    have e' : quad n B (fun i => (-1) * (P i - u₁ i)) = quad n B (fun i => P i - u₁ i) := by
      rw [quad_eq_bilin, quad_eq_bilin, bilin_smul_left, bilin_smul_right]; ring
    rw [e]
    refine (bilin_le_sqrt hB _ _).trans ?_
    rw [e']
    exact mul_le_mul (Real.sqrt_le_iff.2 ⟨hσ0, hσ⟩) le_rfl (Real.sqrt_nonneg _) hσ0
  have hq := hA.nonneg fun i => w i - v₁ i
  have c4 : ∑ r ∈ Finset.range n, (w r - v₁ r) * (f t r - f (t + τ) r) ≤
      quad n A (fun i => w i - v₁ i) + (cf * τ) ^ 2 / 4 := by
    have h1 := hmod.loads t m0 (t + τ) m1 (fun i => w i - v₁ i) fun r hr hD => by
      have h0 : v₁ r = 0 := hm.held _ m1 r hr hD
      beta_reduce
      rw [hw r hr hD, h0, sub_zero]
    have h2 := Real.abs_le_sqrt h1
    rw [Real.sqrt_mul (sq_nonneg _), Real.sqrt_sq_eq_abs, abs_mul, abs_of_nonneg n2,
      show t - (t + τ) = -τ by ring, abs_neg, abs_of_pos hτ] at h2
    have h3 := (le_abs_self _).trans h2
    have h4 := Real.sq_sqrt hq
    nlinarith [sq_nonneg (Real.sqrt (quad n A fun i => w i - v₁ i) - cf * τ / 2)]
  have total : N₁ ^ 2 ≤ N₁ * (N₀ + σ) + τ * ((cf * τ) ^ 2 / 4) := by
    rw [bilin_zero_matrix, k2] at key
    have key' := mul_le_mul_of_nonneg_left (key.trans c4) hτ.le
    have e : τ * (0 + quad n A (fun i => w i - v₁ i) +
      1 / τ * (quad n B (fun i => P i - u₁ i) -
        bilin n B (fun i => p i - u₀ i) (fun i => P i - u₁ i) +
        bilin n B (fun i => u₁ i - u₀ i - τ * v₁ i) (fun i => P i - u₁ i))) =
      quad n B (fun i => P i - u₁ i) - bilin n B (fun i => p i - u₀ i) (fun i => P i - u₁ i) +
      τ * quad n A (fun i => w i - v₁ i) +
      bilin n B (fun i => u₁ i - u₀ i - τ * v₁ i) (fun i => P i - u₁ i) := by
      field_simp; ring
    rw [e, ← hsq] at key'
    nlinarith
  have total' : N₁ ^ 2 ≤ (N₀ + σ) ^ 2 + τ * ((cf * τ) ^ 2 / 2) := by
    nlinarith [sq_nonneg (N₁ - (N₀ + σ))]
  have h5 : N₁ ≤ Real.sqrt ((N₀ + σ) ^ 2 + τ * ((cf * τ) ^ 2 / 2)) := Real.le_sqrt_of_sq_le total'
  refine h5.trans ((sqrt_add_le hN₀0 hσ0 (by positivity)).trans (le_of_eq ?_))
  rw [hσd]; ring

/-- The difference of two quasistatic motions never grows. -/
theorem C106_contraction (hA : Dissipates n A) (hB : StoresEnergy n B) {t₀ t₁ : ℝ}
    {u v u' v' : ℝ → ℕ → ℝ} (h : Creep n D A B J f t₀ t₁ u v) (h' : Creep n D A B J f t₀ t₁ u' v') :
    AntitoneOn (fun t => strainDistance n B (u t) (u' t)) (Set.Icc t₀ t₁) := by
  set E : ℝ → ℝ := fun t => quad n B (fun i => u t i - u' t i)
  have hE : ∀ t ∈ Set.Icc t₀ t₁, HasDerivWithinAt E
      (2 * bilin n B (fun i => v t i - v' t i) (fun i => u t i - u' t i)) (Set.Icc t₀ t₁) t := by
    intro t ht
    have hx : ∀ r < n, HasDerivWithinAt (fun s => u s r - u' s r) (v t r - v' t r) (Set.Icc t₀ t₁) t :=
      fun r hr => (h.velocity t ht r hr).sub (h'.velocity t ht r hr)
    have h1 : HasDerivWithinAt
        (fun t => bilin n B (fun i => u t i - u' t i) (fun i => u t i - u' t i))
        (bilin n B (fun i => v t i - v' t i) (fun i => u t i - u' t i) +
          bilin n B (fun i => u t i - u' t i) (fun i => v t i - v' t i)) (Set.Icc t₀ t₁) t := by
      unfold bilin
      rw [← Finset.sum_add_distrib]
      refine HasDerivWithinAt.fun_sum fun r hr => ?_
      refine (hx r (Finset.mem_range.1 hr)).mul ?_
      exact HasDerivWithinAt.fun_sum fun s hs => (hx s (Finset.mem_range.1 hs)).const_mul _
    rw [bilin_symm n B hB.symm (fun i => u t i - u' t i), ← two_mul] at h1
    simpa only [E, quad_eq_bilin] using h1
  have hanti : AntitoneOn E (Set.Icc t₀ t₁) := by
    refine antitoneOn_of_deriv_nonpos (convex_Icc _ _) (fun s hs => (hE s hs).continuousWithinAt)
      (fun s hs => ((hE s (interior_subset hs)).mono interior_subset).differentiableWithinAt) ?_
    intro s hs
    rw [interior_Icc] at hs
    have hs' : s ∈ Set.Icc t₀ t₁ := ⟨hs.1.le, hs.2.le⟩
    rw [((hE s hs').hasDerivAt (Icc_mem_nhds hs.1 hs.2)).deriv]
    have h1 := balanced_difference (h.held s hs') (h'.held s hs')
      (creep_balanced h (fun _ => 0) s hs') (creep_balanced h' (fun _ => 0) s hs')
    have h2 := hA.nonneg fun i => v s i - v' s i
    rw [bilin_zero_matrix] at h1
    simp only [sub_self, mul_zero, Finset.sum_const_zero] at h1
    linarith
  exact fun s hs t ht hst => Real.sqrt_le_sqrt (hanti hs ht hst)

/-- If the viscosity is definite, there is only one quasistatic motion from a given displacement. -/
theorem C106_unique (hA : Dissipates n A) (hB : StoresEnergy n B) (hdef : DefiniteOn n D A)
    {t₀ t₁ : ℝ} {u v u' v' : ℝ → ℕ → ℝ} (h : Creep n D A B J f t₀ t₁ u v)
    (h' : Creep n D A B J f t₀ t₁ u' v') (hu : ∀ r < n, u t₀ r = u' t₀ r) :
    ∀ t ∈ Set.Icc t₀ t₁, ∀ r < n, u t r = u' t r ∧ v t r = v' t r := by
  have hv' : ∀ t ∈ Set.Icc t₀ t₁, ∀ r < n, v t r = v' t r := by
    intro t ht r hr
    have h1 := C106_contraction hA hB h h' (Set.left_mem_Icc.2 (ht.1.trans ht.2)) ht ht.1
    have h0 : strainDistance n B (u t₀) (u' t₀) = 0 := by
      unfold strainDistance
      rw [quad_zero_vector fun r hr => by rw [hu r hr, sub_self], Real.sqrt_zero]
    simp only [h0] at h1
    have h2 : strainDistance n B (u t) (u' t) = 0 := le_antisymm h1 (Real.sqrt_nonneg _)
    have h3 := balanced_difference (h.held t ht) (h'.held t ht)
      (creep_balanced h (fun _ => 0) t ht) (creep_balanced h' (fun _ => 0) t ht)
    rw [bilin_zero_matrix] at h3
    simp only [sub_self, mul_zero, Finset.sum_const_zero] at h3
    have h4 := bilin_le_sqrt hB (fun i => -1 * (v t i - v' t i)) (fun i => u t i - u' t i)
    unfold strainDistance at h2
    rw [h2, mul_zero, bilin_smul_left] at h4
    have h5 := hA.nonneg fun i => v t i - v' t i
    have h6 := hdef (fun i => v t i - v' t i) (fun s hs hD => by
      beta_reduce
      rw [h.held t ht s hs hD, h'.held t ht s hs hD, sub_zero]) (by linarith) r hr
    exact sub_eq_zero.1 h6
  intro t ht r hr
  refine ⟨?_, hv' t ht r hr⟩
  have hd : ∀ s ∈ Set.Icc t₀ t₁,
      HasDerivWithinAt (fun s => u s r - u' s r) 0 (Set.Icc t₀ t₁) s := fun s hs => by
    have := (h.velocity s hs r hr).sub (h'.velocity s hs r hr)
    rw [hv' s hs r hr, sub_self] at this
    exact this
  have h3 : ‖(u t r - u' t r) - (u t₀ r - u' t₀ r)‖ ≤ 0 * ‖t - t₀‖ :=
    (convex_Icc t₀ t₁).norm_image_sub_le_of_norm_hasDerivWithin_le (f := fun s => u s r - u' s r)
      hd (fun s _ => by simp) (Set.left_mem_Icc.2 (ht.1.trans ht.2)) ht
  rw [hu r hr, sub_self, sub_zero, zero_mul] at h3
  exact sub_eq_zero.1 (norm_le_zero_iff.1 h3)

/-! ### Existence -/

/-- The potential depends on the first `n` numbers only. -/
def DependsOn (n : ℕ) (J : (ℕ → ℝ) → ℝ) : Prop := ∀ x y, (∀ r < n, x r = y r) → J x = J y

theorem quad_same {M : ℕ → ℕ → ℝ} {x y : ℕ → ℝ} (h : ∀ r < n, x r = y r) : quad n M x = quad n M y := by
  unfold quad
  refine Finset.sum_congr rfl fun r hr => ?_
  rw [h r (Finset.mem_range.1 hr)]
  congr 1
  exact Finset.sum_congr rfl fun s hs => by rw [h s (Finset.mem_range.1 hs)]

/-- The velocity with which viscosity and contact balance given forces. -/
theorem exists_velocity (hA : StoresEnergy n A) (hdef : DefiniteOn n D A) (hJ : ConvexVec J)
    (hJn : DependsOn n J) (p : Fin n → ℝ) :
    ∃ v : Fin n → ℝ, Still n D (extendZero n v) ∧ ∀ y, Still n D y →
      0 ≤ ∑ r ∈ Finset.range n, (y r - extendZero n v r) *
        (act n A (extendZero n v) r - extendZero n p r) + (J y - J (extendZero n v)) := by
  classical
  let E : Submodule ℝ (Fin n → ℝ) :=
    { carrier := {x | ∀ r : Fin n, D r → x r = 0}
      add_mem' := fun {x y} hx hy r hD => by
        rw [Pi.add_apply, hx r hD, hy r hD, add_zero]
      zero_mem' := fun r _ => rfl
      smul_mem' := fun c x hx r hD => by rw [Pi.smul_apply, hx r hD, smul_zero] }
  let ext : E → ℕ → ℝ := fun x => extendZero n x.1
  have hstill : ∀ x : E, Still n D (ext x) := fun x r hr hD => by
    simp only [ext, extendZero, hr, dif_pos]; exact x.2 ⟨r, hr⟩ hD
  have hadd : ∀ (x y : E) (a b : ℝ), ext (a • x + b • y) = fun i => a * ext x i + b * ext y i := by
    intro x y a b
    funext i
    simp only [ext, extendZero]
    split_ifs <;> simp
  have hsmul : ∀ (x : E) (a : ℝ), ext (a • x) = fun i => a * ext x i := by
    intro x a
    funext i
    simp only [ext, extendZero]
    split_ifs <;> simp
  have hcont : ∀ i, Continuous fun x => ext x i := by
    intro i
    simp only [ext, extendZero]
    split_ifs
    · exact (continuous_apply _).comp continuous_subtype_val
    · exact continuous_const
  obtain ⟨x, hx⟩ := exists_minimiser (fun x : E => 1 / 2 * quad n A (ext x))
    (fun x => J (ext x) - ∑ r ∈ Finset.range n, extendZero n p r * ext x r) (by unfold quad; fun_prop)
    (fun t x => by
      simp only [hsmul]
      rw [quad_eq_bilin, bilin_smul_left, bilin_smul_right, quad_eq_bilin]
      ring)
    (fun x hne => by
      refine mul_pos (by norm_num) (lt_of_le_of_ne (hA.nonneg _) fun h0 => hne ?_)
      refine Subtype.ext (funext fun i => ?_)
      have := hdef _ (hstill x) h0.symm i i.2
      simpa [ext, extendZero] using this)
    ⟨convex_univ, fun x _ y _ a b ha hb hab => by
      simp only [hadd, smul_eq_mul]
      have h1 := hJ (ext x) (ext y) a b ha hb hab
      have h2 : ∑ r ∈ Finset.range n, extendZero n p r * (a * ext x r + b * ext y r) =
          a * ∑ r ∈ Finset.range n, extendZero n p r * ext x r +
            b * ∑ r ∈ Finset.range n, extendZero n p r * ext y r := by
        rw [Finset.mul_sum, Finset.mul_sum, ← Finset.sum_add_distrib]
        exact Finset.sum_congr rfl fun r _ => by ring
      rw [h2]
      linarith⟩
  refine ⟨x.1, hstill x, held_variational n D ⟨A, extendZero n p⟩ hA.symm J hJ (ext x)
    ⟨hstill x, fun y hy => ?_⟩⟩
  let z : E := ⟨fun r => y r, fun r hD => hy r r.2 hD⟩
  have hz : ∀ r < n, ext z r = y r := fun r hr => by simp [ext, z, extendZero, hr]
  have h1 := hx z
  have h2 : quad n A (ext z) = quad n A y := quad_same hz
  have h3 : J (ext z) = J y := hJn _ _ hz
  have h4 : ∑ r ∈ Finset.range n, extendZero n p r * ext z r =
      ∑ r ∈ Finset.range n, extendZero n p r * y r :=
    Finset.sum_congr rfl fun r hr => by rw [hz r (Finset.mem_range.1 hr)]
  simp only [h2, h3, h4] at h1
  unfold energy
  simp only
  linarith

/-- Quasistatic motions exist if the viscosity is definite outside of the supports, the loads change at
a bounded rate and contact has a convex potential. -/
theorem C106_exists (hA : StoresEnergy n A) (hdef : DefiniteOn n D A) (B : ℕ → ℕ → ℝ) (hJ : ConvexVec J)
    (hJn : DependsOn n J) (T l : ℝ) (hT : 0 ≤ T) (hl : 0 ≤ l)
    (hf : ∀ s ∈ Set.Icc 0 T, ∀ t ∈ Set.Icc 0 T, ∀ r < n, |f s r - f t r| ≤ l * |s - t|) (u₀ : ℕ → ℝ) :
    ∃ u v : ℝ → ℕ → ℝ, Creep n D A B J f 0 T u v ∧ (∀ r < n, u 0 r = u₀ r) ∧
      ∃ cv cf, ModerateCreep n D A B f 0 T v cv cf := by
  choose R hR1 hR2 using exists_velocity hA hdef hJ hJn
  obtain ⟨c, hc0, hc⟩ := exists_coercive hA hdef
  have hext : ∀ x y : Fin n → ℝ, (fun i => extendZero n x i - extendZero n y i) =
      extendZero n (x - y) := fun x y => by
    funext i
    simp only [extendZero]
    split_ifs <;> simp
  have hpair : ∀ x y : Fin n → ℝ, |∑ r ∈ Finset.range n, extendZero n x r * extendZero n y r| ≤
      n * ‖x‖ * ‖y‖ := by
    intro x y
    refine (Finset.abs_sum_le_sum_abs _ _).trans ?_
    have : ∀ r ∈ Finset.range n, |extendZero n x r * extendZero n y r| ≤ |extendZero n x r| * ‖y‖ :=
      fun r _ => by
        rw [abs_mul]
        exact mul_le_mul_of_nonneg_left (norm_extendZero n y r) (abs_nonneg _)
    refine (Finset.sum_le_sum this).trans ?_
    rw [← Finset.sum_mul]
    exact mul_le_mul_of_nonneg_right (sum_abs_extendZero n _) (norm_nonneg _)
  have hlip : ∀ p q, ‖R p - R q‖ ≤ c * n * ‖p - q‖ := by
    intro p q
    have h1 := hR2 p _ (hR1 q)
    have h2 := hR2 q _ (hR1 p)
    have key : quad n A (extendZero n (R p - R q)) ≤
        ∑ r ∈ Finset.range n, extendZero n (R p - R q) r * extendZero n (p - q) r := by
      rw [← hext, ← hext, quad_eq_bilin, bilin_sub_right]
      simp only [← bilin_eq_act]
      rw [← Finset.sum_sub_distrib, ← sub_nonneg, ← Finset.sum_sub_distrib]
      refine (add_nonneg h1 h2).trans (le_of_eq ?_)
      rw [show ∀ a b c d : ℝ, a + (b - c) + (d + (c - b)) = a + d by intros; ring,
        ← Finset.sum_add_distrib]
      exact Finset.sum_congr rfl fun r _ => by ring
    have h3 := hc (R p - R q) fun r hr hD => by
      rw [← hext]
      beta_reduce
      rw [hR1 p r hr hD, hR1 q r hr hD, sub_zero]
    have h4 := (le_abs_self _).trans (hpair (R p - R q) (p - q))
    have h5 : ‖R p - R q‖ ^ 2 ≤ ‖R p - R q‖ * (c * n * ‖p - q‖) := by
      refine h3.trans ((mul_le_mul_of_nonneg_left (key.trans h4) hc0).trans (le_of_eq ?_))
      ring
    rcases (norm_nonneg (R p - R q)).eq_or_lt with h0 | h0
    · rw [← h0]; positivity
    · refine le_of_mul_le_mul_left ?_ h0
      rw [← sq]; exact h5
  have hRl : LipschitzWith (Real.toNNReal (c * n)) R := LipschitzWith.of_dist_le_mul fun p q => by
    rw [Real.coe_toNNReal _ (by positivity), dist_eq_norm, dist_eq_norm]
    exact hlip p q
  let P : ℝ → (Fin n → ℝ) → Fin n → ℝ := fun t z => (fun r : Fin n => f t r) - actMap n B z
  have hPl : ∀ t, LipschitzWith (0 + ‖actMap n B‖₊) (P t) := fun t =>
    (LipschitzWith.const _).sub (actMap n B).lipschitz
  have hfc : ContinuousOn (fun t => fun r : Fin n => f t r) (Set.Icc 0 T) := by
    rw [continuousOn_pi]
    intro r
    have : LipschitzOnWith (Real.toNNReal l) (fun t => f t r) (Set.Icc 0 T) :=
      LipschitzOnWith.of_dist_le_mul fun s hs t ht => by
        rw [Real.coe_toNNReal _ hl, Real.dist_eq, Real.dist_eq]; exact hf s hs t ht r r.2
    exact this.continuousOn
  have hFc : ∀ z : ℝ → Fin n → ℝ, ContinuousOn z (Set.Icc 0 T) →
      ContinuousOn (fun t => R (P t (z t))) (Set.Icc 0 T) := fun z hz =>
    hRl.continuous.comp_continuousOn (hfc.sub ((actMap n B).continuous.comp_continuousOn hz))
  obtain ⟨z, hz0, hz⟩ := ode_global (fun t x => R (P t x)) _ T hT (fun t _ => hRl.comp (hPl t))
    (fun x => hFc (fun _ => x) continuousOn_const) (fun r => u₀ r)
  have hzc : ContinuousOn z (Set.Icc 0 T) := fun t ht => (hz t ht).continuousWithinAt
  obtain ⟨b, hb⟩ := isCompact_Icc.exists_bound_of_continuousOn (hFc z hzc)
  have hb0 : 0 ≤ b := (norm_nonneg _).trans (hb 0 ⟨le_rfl, hT⟩)
  have hzl : ∀ s ∈ Set.Icc 0 T, ∀ t ∈ Set.Icc 0 T, ‖z s - z t‖ ≤ b * |s - t| := fun s hs t ht =>
    (convex_Icc 0 T).norm_image_sub_le_of_norm_hasDerivWithin_le hz hb ht hs
  have hvl : ∀ s ∈ Set.Icc 0 T, ∀ t ∈ Set.Icc 0 T, ‖R (P s (z s)) - R (P t (z t))‖ ≤
      c * n * (l + ‖actMap n B‖ * b) * |s - t| := by
    intro s hs t ht
    refine (hlip _ _).trans ?_
    rw [mul_assoc (c * n)]
    refine mul_le_mul_of_nonneg_left ?_ (by positivity)
    have e : P s (z s) - P t (z t) = (fun r : Fin n => f s r - f t r) - actMap n B (z s - z t) := by
      funext r
      simp only [P, Pi.sub_apply, map_sub]; ring
    rw [e]
    refine (norm_sub_le _ _).trans ?_
    have h1 : ‖fun r : Fin n => f s r - f t r‖ ≤ l * |s - t| := by
      rw [pi_norm_le_iff_of_nonneg (by positivity)]
      exact fun r => hf s hs t ht r r.2
    have h2 : ‖actMap n B (z s - z t)‖ ≤ ‖actMap n B‖ * (b * |s - t|) :=
      ((actMap n B).le_opNorm _).trans (mul_le_mul_of_nonneg_left (hzl s hs t ht) (norm_nonneg _))
    linarith
  set qB := ∑ r ∈ Finset.range n, ∑ s ∈ Finset.range n, |B r s| with hqB
  have hqB0 : 0 ≤ qB := Finset.sum_nonneg fun r _ => Finset.sum_nonneg fun s _ => abs_nonneg _
  set k := c * n * (l + ‖actMap n B‖ * b) with hk
  have hk0 : 0 ≤ k := by positivity
  refine ⟨fun t => extendZero n (z t), fun t => extendZero n (R (P t (z t))), ⟨?_, ?_, ?_⟩, ?_,
    Real.sqrt qB * k, Real.sqrt c * (n * l), ⟨by positivity, by positivity⟩, ?_, ?_⟩
  · intro t ht r hr
    have h1 : HasDerivWithinAt (fun s => z s ⟨r, hr⟩) (R (P t (z t)) ⟨r, hr⟩) (Set.Icc 0 T) t :=
      (ContinuousLinearMap.proj (R := ℝ) (φ := fun _ : Fin n => ℝ) ⟨r, hr⟩).hasFDerivAt.comp_hasDerivWithinAt
        t (hz t ht)
    simpa [extendZero, hr] using h1
  · exact fun t _ => hR1 _
  · intro t _ y hy
    refine (hR2 (P t (z t)) y hy).trans (le_of_eq ?_)
    congr 1
    refine Finset.sum_congr rfl fun r hr => ?_
    have hr := Finset.mem_range.1 hr
    congr 1
    have : extendZero n (P t (z t)) r = f t r - act n B (extendZero n (z t)) r := by
      simp only [extendZero, hr, dif_pos, P, Pi.sub_apply, actMap_apply]
    rw [this]; ring
  · intro r hr
    simp only [hz0, extendZero, hr, dif_pos]
  · intro s hs t ht
    rw [hext]
    refine (quad_extendZero_le _).trans ?_
    have h2 := pow_le_pow_left₀ (norm_nonneg _) (hvl s hs t ht) 2
    rw [mul_pow, sq_abs] at h2
    have h3 := mul_le_mul_of_nonneg_left h2 hqB0
    have h4 : (Real.sqrt qB * k * (s - t)) ^ 2 = qB * (k ^ 2 * (s - t) ^ 2) := by
      rw [mul_pow, mul_pow, Real.sq_sqrt hqB0]; ring
    rw [h4]; exact h3
  · intro s hs t ht x hx
    have hx' : ∀ r < n, extendZero n (fun r : Fin n => x r) r = x r := fun r hr => by
      simp [extendZero, hr]
    have hcx := hc (fun r : Fin n => x r) fun r hr hD => by rw [hx' r hr]; exact hx r hr hD
    rw [quad_same hx'] at hcx
    have h1 := hpair (fun r : Fin n => x r) (fun r : Fin n => f s r - f t r)
    have e1 : ∑ r ∈ Finset.range n, extendZero n (fun r : Fin n => x r) r *
        extendZero n (fun r : Fin n => f s r - f t r) r =
        ∑ r ∈ Finset.range n, x r * (f s r - f t r) :=
      Finset.sum_congr rfl fun r hr => by simp [extendZero, Finset.mem_range.1 hr]
    rw [e1] at h1
    have h2 : ‖fun r : Fin n => f s r - f t r‖ ≤ l * |s - t| := by
      rw [pi_norm_le_iff_of_nonneg (by positivity)]
      exact fun r => hf s hs t ht r r.2
    have h3 := pow_le_pow_left₀ (abs_nonneg _)
      (h1.trans (mul_le_mul_of_nonneg_left h2 (by positivity))) 2
    rw [sq_abs] at h3
    refine h3.trans ?_
    have h4 : (↑n * ‖fun r : Fin n => x r‖ * (l * |s - t|)) ^ 2 =
        (n * l) ^ 2 * (s - t) ^ 2 * ‖fun r : Fin n => x r‖ ^ 2 := by
      rw [mul_pow, mul_pow, mul_pow, sq_abs]; ring
    have h5 : (Real.sqrt c * (n * l) * (s - t)) ^ 2 * quad n A x =
        (n * l) ^ 2 * (s - t) ^ 2 * (c * quad n A x) := by
      rw [mul_pow, mul_pow, Real.sq_sqrt hc0]; ring
    rw [h4, h5]
    exact mul_le_mul_of_nonneg_left hcx (by positivity)

end

/-! ### Convergence -/

/-- The error of the displacement of a state of a run. -/
noncomputable def strainError (n : ℕ) (B : ℕ → ℕ → ℝ) (u : ℝ → ℕ → ℝ) (e : Engine ℝ) (s : Snapshot ℝ) : ℝ :=
  strainDistance n B (State.flatten e.grid s.displacement) (u s.time)

theorem strainError_nonneg (n : ℕ) (B : ℕ → ℕ → ℝ) (u : ℝ → ℕ → ℝ) (e : Engine ℝ) (s : Snapshot ℝ) :
    0 ≤ strainError n B u e s := Real.sqrt_nonneg _

/-- The errors of two states of a run, `k` accumulates in the mean square. -/
def StrainErrorGrows (n : ℕ) (B : ℕ → ℕ → ℝ) (u : ℝ → ℕ → ℝ) (t₀ t₁ k C : ℝ) (e : Engine ℝ)
    (s s' : Snapshot ℝ) : Prop :=
  s.time ≤ s'.time ∧ (t₀ ≤ s.time → s'.time ≤ t₁ →
    strainError n B u e s' ≤
      Real.sqrt (strainError n B u e s ^ 2 + (s'.time - s.time) * k) + (s'.time - s.time) * C)

theorem strainErrorGrows_refl (n : ℕ) (B : ℕ → ℕ → ℝ) (u : ℝ → ℕ → ℝ) (t₀ t₁ k C : ℝ) (e : Engine ℝ)
    (s : Snapshot ℝ) : StrainErrorGrows n B u t₀ t₁ k C e s s :=
  ⟨le_rfl, fun _ _ => by
    rw [sub_self, zero_mul, zero_mul, add_zero, add_zero, Real.sqrt_sq (strainError_nonneg _ _ _ _ _)]⟩

theorem strainErrorGrows_trans (n : ℕ) (B : ℕ → ℕ → ℝ) (u : ℝ → ℕ → ℝ) (t₀ t₁ : ℝ) {k C : ℝ} (hk : 0 ≤ k)
    (hC : 0 ≤ C) (e : Engine ℝ)
    (a b c : Snapshot ℝ) (h1 : StrainErrorGrows n B u t₀ t₁ k C e a b)
    (h2 : StrainErrorGrows n B u t₀ t₁ k C e b c) : StrainErrorGrows n B u t₀ t₁ k C e a c :=
  ⟨h1.1.trans h2.1, fun h0 h3 => by
    have e1 := h1.2 h0 (h2.1.trans h3)
    have e2 := h2.2 (h0.trans h1.1) h3
    have t1 : 0 ≤ b.time - a.time := sub_nonneg.2 h1.1
    have t2 : 0 ≤ c.time - b.time := sub_nonneg.2 h2.1
    set x := Real.sqrt (strainError n B u e a ^ 2 + (b.time - a.time) * k) with hx
    have hx2 : x ^ 2 = strainError n B u e a ^ 2 + (b.time - a.time) * k :=
      Real.sq_sqrt (by positivity)
    have h4 : Real.sqrt (strainError n B u e b ^ 2 + (c.time - b.time) * k) ≤
        Real.sqrt ((x + (b.time - a.time) * C) ^ 2 + (c.time - b.time) * k) :=
      Real.sqrt_le_sqrt (by
        have := pow_le_pow_left₀ (strainError_nonneg n B u e b) e1 2
        linarith)
    have h5 := sqrt_add_le (x := x) (y := (b.time - a.time) * C) (k := (c.time - b.time) * k)
      (Real.sqrt_nonneg _) (by positivity) (by positivity)
    rw [hx2] at h5
    have e3 : strainError n B u e a ^ 2 + (b.time - a.time) * k + (c.time - b.time) * k =
        strainError n B u e a ^ 2 + (c.time - a.time) * k := by ring
    rw [e3] at h5
    linarith⟩

/-- C106: the distance of the displacements of the states returned from those of the quasistatic motion
is proportional to the time step. -/
theorem C106_quasistatic {c : ProblemClass} (e : Engine ℝ) (hk : e.kind = .quasistaticVelocity)
    (hr : Registered c e.cls e.kind) (hne : e.cls ≠ .direct) {d : ℕ} (hdim : e.ops.dimension = d)
    (D : ℕ → Prop) [DecidablePred D] (hv : ValidBoundaries e.ops.nodesCount e.boundaries)
    (hd : DirichletData e.ops.nodesCount 2 e.boundaries D fun _ => 0)
    (hA : Dissipates (d * e.ops.nodesCount) e.ops.viscosity)
    (hB : StoresEnergy (d * e.ops.nodesCount) e.ops.elasticity) (J : (ℕ → ℝ) → ℝ)
    (T : ℝ) (u v : ℝ → ℕ → ℝ)
    (hm : Creep (d * e.ops.nodesCount) D e.ops.viscosity e.ops.elasticity J e.ops.force 0 T u v)
    (cv cf : ℝ) (hmod : ModerateCreep (d * e.ops.nodesCount) D e.ops.viscosity e.ops.elasticity
      e.ops.force 0 T v cv cf)
    (a : Engine.Arguments ℝ) (solver : SolverState ℝ) (hdt : 0 < solver.timeStep)
    (hc : solver.currentTime = 0)
    (hs : ContactSolve e (d * e.ops.nodesCount) D solver.timeStep J)
    (store : ProductStore ℝ V) (rs : List (State ℝ)) (sim : Simulation ℝ V)
    (h : e.timeDependentSolve a solver store = .ok (rs, sim)) (s : State ℝ) (hmem : s ∈ rs)
    (hT : s.time ≤ T) :
    strainDistance (d * e.ops.nodesCount) e.ops.elasticity (State.flatten e.grid s.displacement)
        (u s.time) ≤
      strainDistance (d * e.ops.nodesCount) e.ops.elasticity
        (State.flatten e.grid a.initialDisplacement) (u 0) +
      solver.timeStep * (Real.sqrt (s.time / 2) * cf + s.time * cv / 2) := by
  obtain ⟨n1, n2⟩ := hmod.nonneg
  have := timeDependent_relation e a solver store hc
    (StrainErrorGrows _ e.ops.elasticity u 0 T ((cf * solver.timeStep) ^ 2 / 2)
      (cv * solver.timeStep / 2) e)
    (strainErrorGrows_refl _ _ _ _ _ _ _ _)
    (strainErrorGrows_trans _ _ _ _ _ (by positivity) (by positivity) _)
    (fun sim sim' hb hstep => by
      obtain ⟨h1, h2⟩ := quasistatic_balanced e hk hr hne hdim D hv hd _ J hs sim sim' hb hstep
      refine ⟨h1, by rw [h2.time]; linarith, fun h3 h4 => ?_⟩
      rw [h2.time] at h4
      have := creep_step hA hB hm hmod hdt h3 h4 h2.held h2.balanced
      unfold strainError
      rw [h2.displacement, h2.time]
      refine this.trans (le_of_eq ?_)
      rw [add_sub_cancel_left]) rs sim h
  have h1 := (List.pairwise_cons.1 this).1 s.toSnapshot (List.mem_map_of_mem hmem)
  have ht : (0 : ℝ) ≤ s.time := by simpa [State.new] using h1.1
  have h2 := h1.2 (by simp [State.new]) hT
  refine h2.trans ?_
  have e0 : ({ (State.new e.grid .plain).toSnapshot with
      displacement := a.initialDisplacement, velocity := a.initialVelocity } : Snapshot ℝ).time = 0 := rfl
  rw [e0, sub_zero]
  set x := strainError (d * e.ops.nodesCount) e.ops.elasticity u e
    { (State.new e.grid .plain).toSnapshot with
      displacement := a.initialDisplacement, velocity := a.initialVelocity } with hx
  have hx' : strainDistance (d * e.ops.nodesCount) e.ops.elasticity
      (State.flatten e.grid a.initialDisplacement) (u 0) = x := rfl
  rw [hx']
  have hx0 : 0 ≤ x := Real.sqrt_nonneg _
  have h3 : Real.sqrt (x ^ 2 + s.time * ((cf * solver.timeStep) ^ 2 / 2)) ≤
      x + solver.timeStep * (Real.sqrt (s.time / 2) * cf) := by
    rw [Real.sqrt_le_left (by positivity)]
    have h4 := Real.sq_sqrt (by positivity : 0 ≤ s.time / 2)
    have h5 : 0 ≤ x * (solver.timeStep * (Real.sqrt (s.time / 2) * cf)) := by positivity
    have e1 : (x + solver.timeStep * (Real.sqrt (s.time / 2) * cf)) ^ 2 =
        x ^ 2 + 2 * (x * (solver.timeStep * (Real.sqrt (s.time / 2) * cf))) +
        solver.timeStep ^ 2 * (Real.sqrt (s.time / 2) ^ 2 * cf ^ 2) := by ring
    rw [e1, h4]
    linarith
  change Real.sqrt (x ^ 2 + s.time * ((cf * solver.timeStep) ^ 2 / 2)) +
    s.time * (cv * solver.timeStep / 2) ≤ _
  linarith

/-- C106: there is a quasistatic motion, and runs with all time steps follow it. -/
theorem C106_converges {c : ProblemClass} (e : Engine ℝ) (hk : e.kind = .quasistaticVelocity)
    (hr : Registered c e.cls e.kind) (hne : e.cls ≠ .direct) {d : ℕ} (hdim : e.ops.dimension = d)
    (D : ℕ → Prop) [DecidablePred D] (hv : ValidBoundaries e.ops.nodesCount e.boundaries)
    (hd : DirichletData e.ops.nodesCount 2 e.boundaries D fun _ => 0)
    (hA : StoresEnergy (d * e.ops.nodesCount) e.ops.viscosity)
    (hdef : DefiniteOn (d * e.ops.nodesCount) D e.ops.viscosity)
    (hB : StoresEnergy (d * e.ops.nodesCount) e.ops.elasticity) (J : (ℕ → ℝ) → ℝ) (hJ : ConvexVec J)
    (hJn : DependsOn (d * e.ops.nodesCount) J) (T l : ℝ) (hT : 0 ≤ T) (hl : 0 ≤ l)
    (hf : ∀ s ∈ Set.Icc 0 T, ∀ t ∈ Set.Icc 0 T, ∀ r < d * e.ops.nodesCount,
      |e.ops.force s r - e.ops.force t r| ≤ l * |s - t|)
    (hs : ∀ dt, 0 < dt → ContactSolve e (d * e.ops.nodesCount) D dt J) (u₀ : ℕ → ℕ → ℝ) :
    ∃ (u v : ℝ → ℕ → ℝ) (C : ℝ),
      Creep (d * e.ops.nodesCount) D e.ops.viscosity e.ops.elasticity J e.ops.force 0 T u v ∧
      (∀ r < d * e.ops.nodesCount, u 0 r = State.flatten e.grid u₀ r) ∧
      ∀ (a : Engine.Arguments ℝ) (solver : SolverState ℝ) (store : ProductStore ℝ V)
        (rs : List (State ℝ)) (sim : Simulation ℝ V),
        a.initialDisplacement = u₀ → 0 < solver.timeStep →
        solver.currentTime = 0 → e.timeDependentSolve a solver store = .ok (rs, sim) →
        ∀ s ∈ rs, s.time ≤ T →
          strainDistance (d * e.ops.nodesCount) e.ops.elasticity
            (State.flatten e.grid s.displacement) (u s.time) ≤ solver.timeStep * C := by
  obtain ⟨u, v, hm, h0, cv, cf, hmod⟩ := C106_exists hA hdef e.ops.elasticity hJ hJn T l hT hl hf
    (State.flatten e.grid u₀)
  refine ⟨u, v, Real.sqrt (T / 2) * cf + T * cv / 2, hm, h0, fun a solver store rs sim ha hdt hc h s hmem hsT => ?_⟩
  have h1 := C106_quasistatic e hk hr hne hdim D hv hd ⟨hA.nonneg⟩ hB J T u v hm cv cf hmod a solver hdt
    hc (hs _ hdt) store rs sim h s hmem hsT
  have e0 : strainDistance (d * e.ops.nodesCount) e.ops.elasticity (State.flatten e.grid u₀) (u 0) = 0 := by
    unfold strainDistance
    rw [quad_zero_vector fun r hr => by rw [h0 r hr, sub_self], Real.sqrt_zero]
  rw [ha, e0, zero_add] at h1
  refine h1.trans (mul_le_mul_of_nonneg_left ?_ hdt.le)
  obtain ⟨n1, n2⟩ := hmod.nonneg
  have h2 : Real.sqrt (s.time / 2) ≤ Real.sqrt (T / 2) := Real.sqrt_le_sqrt (by linarith)
  have h3 := mul_le_mul_of_nonneg_right h2 n2
  have h4 := mul_le_mul_of_nonneg_right hsT n1
  linarith

end Conmech
