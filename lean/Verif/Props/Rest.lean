import Verif.Spec.Rest
import Verif.Props.CreepBody
import Verif.Props.Static
/-!
C107: under constant loads, bodies with viscosity come to rest at the solution of the static problem.
-/
namespace Conmech
open Spec

section
variable {n : ℕ} {D : ℕ → Prop} {M A B : ℕ → ℕ → ℝ} {J : (ℕ → ℝ) → ℝ} {g : (ℕ → ℝ) → ℕ → ℝ}

theorem sum_mul_act (x y : ℕ → ℝ) : ∑ r ∈ Finset.range n, x r * act n M y r = bilin n M x y := by
  rfl

/-- With smooth contact the inequality of the motion is an equality of forces. -/
theorem balanced_forces {l : ℝ} (hl : 0 ≤ l) (hg : SmoothContact n J g l) {f u v a : ℕ → ℝ}
    (hv : Still n D v) (h : Balanced n D M A B J f u v a) (z : ℕ → ℝ) (hz : Still n D z) :
    ∑ r ∈ Finset.range n, z r * (act n M a r + act n A v r + act n B u r - f r + g v r) = 0 := by
  set P := ∑ r ∈ Finset.range n, z r * (act n M a r + act n A v r + act n B u r - f r + g v r) with hP
  set K := ∑ r ∈ Finset.range n, |z r| * (l * ∑ s ∈ Finset.range n, |z s|) with hK
  have hK0 : 0 ≤ K := Finset.sum_nonneg fun r _ => mul_nonneg (abs_nonneg _)
    (mul_nonneg hl (Finset.sum_nonneg fun _ _ => abs_nonneg _))
  have key : ∀ s : ℝ, 0 ≤ s * P + s * s * K := by
    intro s
    have h1 := h (fun r => v r + s * z r) fun r hr hD => by
      beta_reduce
      rw [hv r hr hD, hz r hr hD, mul_zero, add_zero]
    have h2 := hg.subgradient (fun r => v r + s * z r) v
    have h3 : ∑ r ∈ Finset.range n, s * z r * (g (fun r => v r + s * z r) r - g v r) ≤ s * s * K := by
      rw [hK, Finset.mul_sum]
      refine Finset.sum_le_sum fun r hr => ?_
      have h4 := hg.lipschitz (fun r => v r + s * z r) v r (Finset.mem_range.1 hr)
      have e1 : ∑ i ∈ Finset.range n, |v i + s * z i - v i| = |s| * ∑ i ∈ Finset.range n, |z i| := by
        rw [Finset.mul_sum]
        exact Finset.sum_congr rfl fun i _ => by rw [add_sub_cancel_left, abs_mul]
      rw [e1] at h4
      refine (le_abs_self _).trans ?_
      rw [abs_mul, abs_mul]
      refine (mul_le_mul_of_nonneg_left h4 (mul_nonneg (abs_nonneg _) (abs_nonneg _))).trans (le_of_eq ?_)
      have : |s| * |s| = s * s := abs_mul_abs_self s
      linear_combination (|z r| * (l * ∑ i ∈ Finset.range n, |z i|)) * this
    have e2 : s * P = ∑ r ∈ Finset.range n, (v r + s * z r - v r) *
        (act n M a r + act n A v r + act n B u r - f r) + ∑ r ∈ Finset.range n, s * z r * g v r := by
      rw [hP, Finset.mul_sum, ← Finset.sum_add_distrib]
      exact Finset.sum_congr rfl fun r _ => by ring
    have e3 : ∑ r ∈ Finset.range n, s * z r * (g (fun r => v r + s * z r) r - g v r) =
        -(∑ r ∈ Finset.range n, (v r - (v r + s * z r)) * g (fun r => v r + s * z r) r) -
          ∑ r ∈ Finset.range n, s * z r * g v r := by
      rw [← Finset.sum_neg_distrib, ← Finset.sum_sub_distrib]
      exact Finset.sum_congr rfl fun r _ => by ring
    linarith
  by_contra hne
  have h1 := key (-P / (2 * (K + 1)))
  have hpos : 0 < P * P := mul_self_pos.2 hne
  have e1 : -P / (2 * (K + 1)) * P + -P / (2 * (K + 1)) * (-P / (2 * (K + 1))) * K =
      -(P * P) * (K + 2) / (4 * (K + 1) ^ 2) := by
    field_simp
    ring
  rw [e1] at h1
  have : -(P * P) * (K + 2) / (4 * (K + 1) ^ 2) < 0 :=
    div_neg_of_neg_of_pos (by nlinarith) (by positivity)
  linarith

/-- What decreases during the motion: the energy of the state relative to the state of rest, with terms
that couple displacement and velocity. -/
noncomputable def restFunctional (n : ℕ) (M A B : ℕ → ℕ → ℝ) (ε : ℝ) (E v : ℕ → ℝ) : ℝ :=
  quad n M v + quad n B E + 2 * ε * bilin n M v E + ε * quad n A E

theorem two_mul_bilin_le (hM : StoresEnergy n M) (t : ℝ) (x y : ℕ → ℝ) :
    0 ≤ quad n M x * (t * t) + 2 * bilin n M x y * t + quad n M y := by
  rw [← quad_along hM.symm]
  exact hM.nonneg _

/-- The inequalities of one step. -/
theorem settling_arithmetic {ε τ m κ k Mvv Mvw Mww MvE X BE Bww BwE Q AE Aww AwE AE' ME' W G : ℝ}
    (hε : 0 < ε) (hε1 : ε * (2 * m + k ^ 2) ≤ 1) (hτ : 0 < τ) (hm0 : 0 ≤ m) (hκ0 : 0 ≤ κ)
    (f1 : Mww - Mvw + τ * Aww + τ * (BwE + τ * Bww) + τ * W = 0)
    (f2 : X - (MvE + τ * Mvw) + τ * (AwE + τ * Aww) + τ * Q + τ * G = 0) (gw : 0 ≤ W)
    (gE : -(2 * G) ≤ k ^ 2 * Aww + Q) (c1 : Mww ≤ m * Aww) (c2 : ME' ≤ m * AE') (c3 : AE' ≤ κ * Q)
    (i1 : 0 ≤ Mww * ((1 + ε * τ) * (1 + ε * τ)) - 2 * Mvw * (1 + ε * τ) + Mvv)
    (i2 : 2 * ε * X ≤ ε * ε * ME' + Mww) (x1 : Q = Bww * (τ * τ) + 2 * BwE * τ + BE)
    (x2 : AE' = Aww * (τ * τ) + 2 * AwE * τ + AE) (hAw : 0 ≤ Aww) (hAE : 0 ≤ AE')
    (hBw : 0 ≤ Bww) :
    (1 + ε / (1 + 2 * ε * κ) * τ) * (Mww + Q + 2 * ε * X + ε * AE') ≤
      Mvv + BE + 2 * ε * MvE + ε * AE := by
  have hετ : 0 ≤ ε * τ := by positivity
  have hm1 : ε * m ≤ 1 := by nlinarith [mul_nonneg hε.le (sq_nonneg k), mul_nonneg hε.le hm0]
  have dec : Mww + Q + 2 * ε * X + ε * AE' + τ * Aww + ε * τ * Q ≤ Mvv + BE + 2 * ε * MvE + ε * AE := by
    have p1 := mul_le_mul_of_nonneg_left gE hετ
    have p2 := mul_le_mul_of_nonneg_left c1 (by positivity : 0 ≤ 2 * (ε * τ) + ε * τ * (ε * τ))
    have p3 := mul_le_mul_of_nonneg_right hε1 (mul_nonneg hτ.le hAw)
    have p4 := mul_le_mul_of_nonneg_right hm1 (mul_nonneg (mul_nonneg hετ hτ.le) hAw)
    have p5 : 0 ≤ τ * τ * Bww := by positivity
    have p6 : 0 ≤ τ * W := mul_nonneg hτ.le gw
    have p7 : ε * (X - (MvE + τ * Mvw) + τ * (AwE + τ * Aww) + τ * Q + τ * G) = 0 := by
      rw [f2, mul_zero]
    have p8 : ε * AE' = ε * (Aww * (τ * τ) + 2 * AwE * τ + AE) := by rw [x2]
    linarith
  have up : Mww + Q + 2 * ε * X + ε * AE' ≤ 2 * m * Aww + (1 + 2 * ε * κ) * Q := by
    have h2 := mul_le_mul_of_nonneg_left c2 (mul_nonneg hε.le hε.le)
    have h3 := mul_le_mul_of_nonneg_right hm1 (mul_nonneg hε.le hAE)
    have h4 := mul_le_mul_of_nonneg_left c3 hε.le
    linarith
  have hden : 0 < 1 + 2 * ε * κ := by positivity
  have hq : ε / (1 + 2 * ε * κ) * (Mww + Q + 2 * ε * X + ε * AE') ≤ Aww + ε * Q := by
    have h1 : ε / (1 + 2 * ε * κ) ≤ ε := div_le_self hε.le (by nlinarith [mul_nonneg hε.le hκ0])
    have h2 : 0 ≤ ε / (1 + 2 * ε * κ) := by positivity
    have h3 := mul_le_mul_of_nonneg_left up h2
    have h4 : ε / (1 + 2 * ε * κ) * ((1 + 2 * ε * κ) * Q) = ε * Q := by
      field_simp
    have h5 : ε / (1 + 2 * ε * κ) * (2 * m * Aww) ≤ Aww := by
      have h6 : ε / (1 + 2 * ε * κ) * (2 * m) ≤ 1 := by
        have : ε / (1 + 2 * ε * κ) * (2 * m) ≤ ε * (2 * m) := mul_le_mul_of_nonneg_right h1 (by positivity)
        nlinarith [mul_nonneg hε.le (sq_nonneg k)]
      nlinarith
    rw [mul_add] at h3
    linarith
  have hq' := mul_le_mul_of_nonneg_left hq hτ.le
  linarith

/-- One step. -/
theorem settling_step (hM : StoresEnergy n M) (hA : StoresEnergy n A) (hB : StoresEnergy n B) {l : ℝ}
    (hl : 0 ≤ l) (hg : SmoothContact n J g l) (hg0 : ∀ r < n, g (fun _ => 0) r = 0) {m κ k ε τ : ℝ}
    (hr : DampingRates n D M A B g m κ k) (hε : 0 < ε) (hε1 : ε * (2 * m + k ^ 2) ≤ 1) (hτ : 0 < τ)
    {f u v w r₀ : ℕ → ℝ} (h₀ : LoadsBalanced n D B f r₀) (hE : Still n D fun i => u i - r₀ i) (hw : Still n D w)
    (h : Balanced n D M A B J f (fun i => u i + τ * w i) w fun i => (w i - v i) / τ) :
    (1 + ε / (1 + 2 * ε * κ) * τ) * restFunctional n M A B ε (fun i => u i + τ * w i - r₀ i) w ≤
      restFunctional n M A B ε (fun i => u i - r₀ i) v := by
  obtain ⟨hm0, hκ0, hk0⟩ := hr.nonneg
  set E : ℕ → ℝ := fun i => u i - r₀ i with hEdef
  set E' : ℕ → ℝ := fun i => u i + τ * w i - r₀ i with hE'def
  have e0 : E' = fun i => E i + τ * w i := by funext i; simp only [hE'def, hEdef]; ring
  have hE' : Still n D E' := fun r hr hD => by
    rw [e0]
    beta_reduce
    rw [hE r hr hD, hw r hr hD, mul_zero, add_zero]
  have force : ∀ z, Still n D z → bilin n M z w - bilin n M z v + τ * bilin n A z w +
      τ * bilin n B z E' + τ * ∑ r ∈ Finset.range n, z r * g w r = 0 := by
    intro z hz
    have h1 := balanced_forces hl hg hw h z hz
    have h2 : ∑ r ∈ Finset.range n, z r * (act n B r₀ r - f r) = 0 :=
      Finset.sum_eq_zero fun r hr => by
        by_cases hD : D r
        · rw [hz r (Finset.mem_range.1 hr) hD, zero_mul]
        · rw [h₀ r (Finset.mem_range.1 hr) hD, sub_self, mul_zero]
    have e1 : ∀ r, act n M (fun i => (w i - v i) / τ) r = (act n M w r - act n M v r) / τ := by
      intro r
      unfold act
      rw [← Finset.sum_sub_distrib, Finset.sum_div]
      exact Finset.sum_congr rfl fun s _ => by ring
    have e2 : ∀ r, act n B E' r = act n B (fun i => u i + τ * w i) r - act n B r₀ r := by
      intro r
      unfold act
      rw [← Finset.sum_sub_distrib]
      exact Finset.sum_congr rfl fun s _ => by simp only [hE'def]; ring
    simp only [← sum_mul_act, Finset.mul_sum, ← Finset.sum_add_distrib, ← Finset.sum_sub_distrib]
    rw [← mul_zero τ, ← sub_zero (0 : ℝ)]
    nth_rewrite 1 [← h1]
    rw [← h2, ← Finset.sum_sub_distrib, Finset.mul_sum]
    refine Finset.sum_congr rfl fun r _ => ?_
    rw [e1, e2]
    field_simp
    ring
  have f1 := force w hw
  have f2 := force E' hE'
  have gw : 0 ≤ ∑ r ∈ Finset.range n, w r * g w r := by
    have h1 := hg.subgradient w fun _ => 0
    have h2 := hg.subgradient (fun _ => 0) w
    have e1 : ∑ r ∈ Finset.range n, (w r - 0) * g (fun _ => 0) r = 0 :=
      Finset.sum_eq_zero fun r hr => by rw [hg0 r (Finset.mem_range.1 hr), mul_zero]
    have e2 : ∑ r ∈ Finset.range n, (0 - w r) * g w r = -∑ r ∈ Finset.range n, w r * g w r := by
      rw [← Finset.sum_neg_distrib]
      exact Finset.sum_congr rfl fun r _ => by ring
    rw [e1] at h2
    rw [e2] at h1
    linarith
  have gE := hr.contact w hw E' hE'
  set G := ∑ r ∈ Finset.range n, E' r * g w r with hG
  set W := ∑ r ∈ Finset.range n, w r * g w r with hW
  have hQ := hB.nonneg E'
  have hAE := hA.nonneg E'
  have hAw := hA.nonneg w
  have hBw := hB.nonneg w
  have gE' : -(2 * G) ≤ k ^ 2 * quad n A w + quad n B E' := by
    have : (-(2 * G)) ^ 2 ≤ (k ^ 2 * quad n A w + quad n B E') ^ 2 := by
      nlinarith [sq_nonneg (k ^ 2 * quad n A w - quad n B E')]
    exact abs_le_of_sq_le_sq' this (by positivity) |>.2
  have c1 := hr.kinetic w hw
  have c2 := hr.kinetic E' hE'
  have c3 := hr.dissipated E' hE'
  have i1 := two_mul_bilin_le hM (-(1 + ε * τ)) w v
  have i2 := two_mul_bilin_le hM (-ε) E' w
  have sM : bilin n M v w = bilin n M w v := bilin_symm n M hM.symm v w
  have sE : bilin n M E' w = bilin n M w E' := bilin_symm n M hM.symm _ _
  have x1 : quad n B E' = quad n B w * (τ * τ) + 2 * bilin n B w E * τ + quad n B E := by
    rw [e0]; exact quad_along hB.symm _ _ _
  have x2 : quad n A E' = quad n A w * (τ * τ) + 2 * bilin n A w E * τ + quad n A E := by
    rw [e0]; exact quad_along hA.symm _ _ _
  have x3 : bilin n B w E' = bilin n B w E + τ * quad n B w := by
    rw [e0, bilin_add_right, bilin_smul_right, quad_eq_bilin]
  have x4 : bilin n A E' w = bilin n A w E + τ * quad n A w := by
    rw [bilin_symm n A hA.symm, e0, bilin_add_right, bilin_smul_right, quad_eq_bilin]
  have x5 : bilin n M E' v = bilin n M v E + τ * bilin n M w v := by
    rw [bilin_symm n M hM.symm, e0, bilin_add_right, bilin_smul_right, sM]
  have x6 : bilin n B E' E' = quad n B E' := (quad_eq_bilin _ _ _).symm
  have x7 : bilin n M w w = quad n M w := (quad_eq_bilin _ _ _).symm
  have x8 : bilin n A w w = quad n A w := (quad_eq_bilin _ _ _).symm
  rw [x7, x8, x3] at f1
  rw [sE, x5, x4, x6] at f2
  refine settling_arithmetic hε hε1 hτ hm0 hκ0 f1 f2 gw gE' c1 c2 c3 ?_ ?_ x1 x2 hAw hAE hBw
  · linarith
  · rw [sE] at i2
    linarith

/-- The functional bounds the energy. -/
theorem restFunctional_lower (hM : StoresEnergy n M) (hA : StoresEnergy n A) {m κ k ε : ℝ}
    (hr : DampingRates n D M A B g m κ k) (hε : 0 < ε) (hε1 : ε * (2 * m + k ^ 2) ≤ 1) {E : ℕ → ℝ}
    (hE : Still n D E) (v : ℕ → ℝ) :
    quad n B E + quad n M v ≤ 2 * restFunctional n M A B ε E v - quad n B E := by
  obtain ⟨hm0, -, -⟩ := hr.nonneg
  unfold restFunctional
  have h1 := two_mul_bilin_le hM (2 * ε) E v
  have h2 := hr.kinetic E hE
  have h3 := mul_le_mul_of_nonneg_left h2 (by positivity : 0 ≤ 4 * ε * ε)
  have h5 : ε * m ≤ 1 / 2 := by nlinarith [mul_nonneg hε.le (sq_nonneg k)]
  have h4 := mul_le_mul_of_nonneg_right h5 (mul_nonneg hε.le (hA.nonneg E))
  rw [bilin_symm n M hM.symm E v] at h1
  linarith

theorem restFunctional_upper (hM : StoresEnergy n M) (hA : StoresEnergy n A) {m κ k ε : ℝ}
    (hr : DampingRates n D M A B g m κ k) (hε : 0 < ε) (hε1 : ε * (2 * m + k ^ 2) ≤ 1) {E : ℕ → ℝ}
    (hE : Still n D E) (v : ℕ → ℝ) :
    restFunctional n M A B ε E v ≤ 2 * quad n M v + quad n B E + 2 * ε * quad n A E := by
  obtain ⟨hm0, -, -⟩ := hr.nonneg
  unfold restFunctional
  have h1 := two_mul_bilin_le hM (-ε) E v
  have h2 := hr.kinetic E hE
  have h3 := mul_le_mul_of_nonneg_left h2 (by positivity : 0 ≤ ε * ε)
  have h5 : ε * m ≤ 1 := by nlinarith [mul_nonneg hε.le (sq_nonneg k), mul_nonneg hε.le hm0]
  have h4 := mul_le_mul_of_nonneg_right h5 (mul_nonneg hε.le (hA.nonneg E))
  rw [bilin_symm n M hM.symm E v] at h1
  linarith

/-- Every body has such constants. -/
theorem exists_dampingRates (hA : StoresEnergy n A) (hB : StoresEnergy n B) (hAd : DefiniteOn n D A)
    (hBd : DefiniteOn n D B) (M : ℕ → ℕ → ℝ) {l : ℝ} (hl : 0 ≤ l) (hg : SmoothContact n J g l)
    (hg0 : ∀ r < n, g (fun _ => 0) r = 0) : ∃ m κ k, DampingRates n D M A B g m κ k := by
  obtain ⟨a, ha0, ha⟩ := exists_coercive hA hAd
  obtain ⟨b, hb0, hb⟩ := exists_coercive hB hBd
  have hrest : ∀ x : ℕ → ℝ, ∀ r < n, x r = extendZero n (fun i : Fin n => x i) r := fun x r hr => by
    simp [extendZero, hr]
  have hstill : ∀ x, Still n D x → Still n D (extendZero n fun i : Fin n => x i) := fun x hx r hr hD => by
    rw [← hrest x r hr]; exact hx r hr hD
  have hq : ∀ (Q : ℕ → ℕ → ℝ) (x : ℕ → ℝ), quad n Q x = quad n Q (extendZero n fun i : Fin n => x i) :=
    fun Q x => quad_same (hrest x)
  set N : (ℕ → ℕ → ℝ) → ℝ := fun Q => ∑ r ∈ Finset.range n, ∑ s ∈ Finset.range n, |Q r s| with hN
  have hN0 : ∀ Q, 0 ≤ N Q := fun Q => Finset.sum_nonneg fun _ _ => Finset.sum_nonneg fun _ _ => abs_nonneg _
  refine ⟨N M * a, N A * b, n * n * l * Real.sqrt (a * b), ⟨mul_nonneg (hN0 M) ha0,
    mul_nonneg (hN0 A) hb0, by positivity⟩, fun x hx => ?_, fun x hx => ?_, fun x hx y hy => ?_⟩
  · rw [hq M, hq A]
    refine (quad_extendZero_le _).trans ?_
    rw [mul_assoc]
    exact mul_le_mul_of_nonneg_left (ha _ (hstill x hx)) (hN0 M)
  · rw [hq A, hq B]
    refine (quad_extendZero_le _).trans ?_
    rw [mul_assoc]
    exact mul_le_mul_of_nonneg_left (hb _ (hstill x hx)) (hN0 A)
  · set x' : Fin n → ℝ := fun i => x i with hx'
    set y' : Fin n → ℝ := fun i => y i with hy'
    have h1 : ∀ r < n, |g x r| ≤ l * (n * ‖x'‖) := by
      intro r hr
      have := hg.lipschitz x (fun _ => 0) r hr
      rw [hg0 r hr, sub_zero] at this
      refine this.trans (mul_le_mul_of_nonneg_left ?_ hl)
      refine le_trans (le_of_eq ?_) (sum_abs_extendZero n x')
      exact Finset.sum_congr rfl fun s hs => by
        rw [sub_zero, hrest x s (Finset.mem_range.1 hs)]
    have h2 : |∑ r ∈ Finset.range n, y r * g x r| ≤ n * ‖y'‖ * (l * (n * ‖x'‖)) := by
      refine (Finset.abs_sum_le_sum_abs _ _).trans ?_
      calc ∑ r ∈ Finset.range n, |y r * g x r| ≤ ∑ r ∈ Finset.range n, |y r| * (l * (n * ‖x'‖)) :=
            Finset.sum_le_sum fun r hr => by
              rw [abs_mul]
              exact mul_le_mul_of_nonneg_left (h1 r (Finset.mem_range.1 hr)) (abs_nonneg _)
        _ = (∑ r ∈ Finset.range n, |y r|) * (l * (n * ‖x'‖)) := by rw [Finset.sum_mul]
        _ ≤ n * ‖y'‖ * (l * (n * ‖x'‖)) := by
            refine mul_le_mul_of_nonneg_right ?_ (by positivity)
            refine le_trans (le_of_eq ?_) (sum_abs_extendZero n y')
            exact Finset.sum_congr rfl fun s hs => by rw [hrest y s (Finset.mem_range.1 hs)]
    have h3 := ha _ (hstill x hx)
    have h4 := hb _ (hstill y hy)
    rw [hq A, hq B]
    calc (∑ r ∈ Finset.range n, y r * g x r) ^ 2 ≤ (n * ‖y'‖ * (l * (n * ‖x'‖))) ^ 2 :=
          sq_le_sq.2 (h2.trans (le_abs_self _))
      _ = (n * n * l) ^ 2 * (‖x'‖ ^ 2 * ‖y'‖ ^ 2) := by ring
      _ ≤ (n * n * l) ^ 2 * ((a * quad n A (extendZero n x')) * (b * quad n B (extendZero n y'))) :=
          mul_le_mul_of_nonneg_left (mul_le_mul h3 h4 (by positivity)
            (mul_nonneg ha0 (hA.nonneg _))) (by positivity)
      _ = (n * n * l * Real.sqrt (a * b)) ^ 2 * quad n A (extendZero n x') *
            quad n B (extendZero n y') := by
          rw [mul_pow _ (Real.sqrt _), Real.sq_sqrt (mul_nonneg ha0 hb0)]
          ring

end

section
variable {V : Type} {n : ℕ} {D : ℕ → Prop} {M A B : ℕ → ℕ → ℝ} {J : (ℕ → ℝ) → ℝ}
  {g : (ℕ → ℝ) → ℕ → ℝ}

/-- How the functional changes from one state of a run to a later one. -/
def Settles (n : ℕ) (D : ℕ → Prop) (M A B : ℕ → ℕ → ℝ) (r₀ : ℕ → ℝ) (ε q dt : ℝ) (e : Engine ℝ)
    (s s' : Snapshot ℝ) : Prop :=
  ∃ k : ℕ, s'.time = s.time + k * dt ∧
    (Still n D (fun i => State.flatten e.grid s.displacement i - r₀ i) →
      Still n D (fun i => State.flatten e.grid s'.displacement i - r₀ i) ∧
      (1 + q * dt) ^ k * restFunctional n M A B ε
          (fun i => State.flatten e.grid s'.displacement i - r₀ i) (State.flatten e.grid s'.velocity) ≤
        restFunctional n M A B ε
          (fun i => State.flatten e.grid s.displacement i - r₀ i) (State.flatten e.grid s.velocity))

theorem settles_refl (r₀ : ℕ → ℝ) (ε q dt : ℝ) (e : Engine ℝ) (s : Snapshot ℝ) :
    Settles n D M A B r₀ ε q dt e s s := ⟨0, by simp, fun h => ⟨h, by simp⟩⟩

theorem settles_trans (r₀ : ℕ → ℝ) {ε q dt : ℝ} (hq : 0 ≤ q * dt) (e : Engine ℝ) (a b c : Snapshot ℝ)
    (h : Settles n D M A B r₀ ε q dt e a b) (h' : Settles n D M A B r₀ ε q dt e b c) :
    Settles n D M A B r₀ ε q dt e a c := by
  obtain ⟨k, t1, h1⟩ := h
  obtain ⟨k', t2, h2⟩ := h'
  refine ⟨k + k', by rw [t2, t1]; push_cast; ring, fun hs => ?_⟩
  obtain ⟨h3, h4⟩ := h1 hs
  obtain ⟨h5, h6⟩ := h2 h3
  refine ⟨h5, le_trans ?_ h4⟩
  rw [pow_add, mul_assoc]
  exact mul_le_mul_of_nonneg_left h6 (pow_nonneg (by linarith) _)

/-- Runs whose steps balance the forces. -/
theorem settles_run (e : Engine ℝ) (hM : StoresEnergy n M) (hA : StoresEnergy n A)
    (hB : StoresEnergy n B) {l : ℝ} (hl : 0 ≤ l) (hg : SmoothContact n J g l)
    (hg0 : ∀ r < n, g (fun _ => 0) r = 0) {m κ k ε : ℝ} (hr : DampingRates n D M A B g m κ k)
    (hε : 0 < ε) (hε1 : ε * (2 * m + k ^ 2) ≤ 1) (f : ℕ → ℝ) (r₀ : ℕ → ℝ)
    (h₀ : LoadsBalanced n D B f r₀) (a : Engine.Arguments ℝ) (solver : SolverState ℝ)
    (hdt : 0 < solver.timeStep) (hc : solver.currentTime = 0)
    (hi : Still n D fun i => State.flatten e.grid a.initialDisplacement i - r₀ i)
    (hstep : ∀ sim sim' : Simulation ℝ V,
      Between e solver.timeStep sim.solver sim.state.toSnapshot → e.step .velocity sim = .ok sim' →
      Between e solver.timeStep sim'.solver sim'.state.toSnapshot ∧
      StepOf n D M A B J (fun _ => f) solver.timeStep e sim.state.toSnapshot sim'.state.toSnapshot)
    (store : ProductStore ℝ V) (rs : List (State ℝ)) (sim : Simulation ℝ V)
    (h : e.timeDependentSolve a solver store = .ok (rs, sim)) (s : State ℝ) (hmem : s ∈ rs) :
    ∃ j : ℕ, s.time = j * solver.timeStep ∧
      energyDistance n M B (State.flatten e.grid s.displacement) (State.flatten e.grid s.velocity)
          r₀ (fun _ => 0) ^ 2 * (1 + ε / (1 + 2 * ε * κ) * solver.timeStep) ^ j ≤
        2 * (2 * quad n M (State.flatten e.grid a.initialVelocity) +
          quad n B (fun i => State.flatten e.grid a.initialDisplacement i - r₀ i) +
          2 * ε * quad n A (fun i => State.flatten e.grid a.initialDisplacement i - r₀ i)) := by
  obtain ⟨hm0, hκ0, hk0⟩ := hr.nonneg
  have hq : 0 ≤ ε / (1 + 2 * ε * κ) * solver.timeStep := by positivity
  have := timeDependent_relation e a solver store hc
    (Settles n D M A B r₀ ε (ε / (1 + 2 * ε * κ)) solver.timeStep e)
    (settles_refl r₀ _ _ _ e) (settles_trans r₀ hq e)
    (fun sim sim' hb hst => by
      obtain ⟨h1, h2⟩ := hstep sim sim' hb hst
      refine ⟨h1, 1, by rw [h2.time]; push_cast; ring, fun hs => ⟨fun r hr hD => ?_, ?_⟩⟩
      · have h3 := hs r hr hD
        have h4 := h2.held r hr hD
        rw [h2.displacement]
        beta_reduce at h3 ⊢
        rw [h4, mul_zero, add_zero]
        exact h3
      · rw [pow_one, h2.displacement]
        exact settling_step hM hA hB hl hg hg0 hr hε hε1 hdt h₀ hs h2.held h2.balanced) rs sim h
  obtain ⟨j, ht, h1⟩ := (List.pairwise_cons.1 this).1 s.toSnapshot (List.mem_map_of_mem hmem)
  obtain ⟨h2, h3⟩ := h1 hi
  refine ⟨j, by simpa [State.new] using ht, ?_⟩
  have h4 := restFunctional_lower hM hA hr hε hε1 h2 (State.flatten e.grid s.velocity)
  have h5 := restFunctional_upper hM hA hr hε hε1 hi (State.flatten e.grid a.initialVelocity)
  have h6 := hB.nonneg fun i => State.flatten e.grid s.toSnapshot.displacement i - r₀ i
  have h7 := hM.nonneg (State.flatten e.grid s.velocity)
  have e1 : energyDistance n M B (State.flatten e.grid s.displacement) (State.flatten e.grid s.velocity)
      r₀ (fun _ => 0) ^ 2 = quad n B (fun i => State.flatten e.grid s.displacement i - r₀ i) +
      quad n M (State.flatten e.grid s.velocity) := by
    unfold energyDistance
    simp only [sub_zero]
    exact Real.sq_sqrt (add_nonneg h6 h7)
  rw [e1]
  have hpow : 0 ≤ (1 + ε / (1 + 2 * ε * κ) * solver.timeStep) ^ j := pow_nonneg (by linarith) _
  have h8 := mul_le_mul_of_nonneg_right (h4.trans (sub_le_self _ h6)) hpow
  refine h8.trans ?_
  change _ ≤ _ at h3
  have h9 : restFunctional n M A B ε (fun i => State.flatten e.grid a.initialDisplacement i - r₀ i)
    (State.flatten e.grid a.initialVelocity) ≤ _ := h5
  rw [mul_assoc, mul_comm (restFunctional _ _ _ _ _ _ _)]
  exact mul_le_mul_of_nonneg_left (h3.trans h9) (by norm_num)

/-- C107, dynamic elasticity with constant loads. The distance to a displacement that balances the loads,
and to velocity zero, decreases geometrically with the number of steps; the rate per unit of time does not
depend on the time step. -/
theorem C107_dynamic {c : ProblemClass} (e : Engine ℝ) (hk : e.kind = .dynamicVelocity)
    (hr : Registered c e.cls e.kind) (hne : e.cls ≠ .direct) {d : ℕ} (hdim : e.ops.dimension = d)
    (D : ℕ → Prop) [DecidablePred D] (hv : ValidBoundaries e.ops.nodesCount e.boundaries)
    (hd : DirichletData e.ops.nodesCount 2 e.boundaries D fun _ => 0)
    (hM : StoresEnergy (d * e.ops.nodesCount) e.ops.acceleration)
    (hA : StoresEnergy (d * e.ops.nodesCount) e.ops.viscosity)
    (hB : StoresEnergy (d * e.ops.nodesCount) e.ops.elasticity)
    {l : ℝ} (hl : 0 ≤ l) (hg : SmoothContact (d * e.ops.nodesCount) J g l)
    (hg0 : ∀ r < d * e.ops.nodesCount, g (fun _ => 0) r = 0) {m κ k ε : ℝ}
    (hrate : DampingRates (d * e.ops.nodesCount) D e.ops.acceleration e.ops.viscosity e.ops.elasticity g
      m κ k)
    (hε : 0 < ε) (hε1 : ε * (2 * m + k ^ 2) ≤ 1) (f r₀ : ℕ → ℝ) (hf : ∀ t, e.ops.force t = f)
    (h₀ : LoadsBalanced (d * e.ops.nodesCount) D e.ops.elasticity f r₀)
    (a : Engine.Arguments ℝ) (solver : SolverState ℝ)
    (hdt : 0 < solver.timeStep) (hc : solver.currentTime = 0)
    (hi : Still (d * e.ops.nodesCount) D fun i => State.flatten e.grid a.initialDisplacement i - r₀ i)
    (hs : ContactSolve e (d * e.ops.nodesCount) D solver.timeStep J)
    (store : ProductStore ℝ V) (rs : List (State ℝ)) (sim : Simulation ℝ V)
    (h : e.timeDependentSolve a solver store = .ok (rs, sim)) (s : State ℝ) (hmem : s ∈ rs) :
    ∃ j : ℕ, s.time = j * solver.timeStep ∧
      energyDistance (d * e.ops.nodesCount) e.ops.acceleration e.ops.elasticity
          (State.flatten e.grid s.displacement) (State.flatten e.grid s.velocity)
          r₀ (fun _ => 0) ^ 2 * (1 + ε / (1 + 2 * ε * κ) * solver.timeStep) ^ j ≤
        2 * (2 * quad (d * e.ops.nodesCount) e.ops.acceleration (State.flatten e.grid a.initialVelocity) +
          quad (d * e.ops.nodesCount) e.ops.elasticity
            (fun i => State.flatten e.grid a.initialDisplacement i - r₀ i) +
          2 * ε * quad (d * e.ops.nodesCount) e.ops.viscosity
            (fun i => State.flatten e.grid a.initialDisplacement i - r₀ i)) :=
  settles_run e hM hA hB hl hg hg0 hrate hε hε1 f r₀ h₀ a solver hdt hc hi
    (fun sim sim' hb hst => by
      have := dynamic_balanced e hk hr hne hdim D hv hd _ J hs sim sim' hb hst
      have hf' : e.ops.force = fun _ => f := funext hf
      rwa [hf'] at this) store rs sim h s hmem

/-- C107, quasistatic elasticity with constant loads. -/
theorem C107_quasistatic {c : ProblemClass} (e : Engine ℝ) (hk : e.kind = .quasistaticVelocity)
    (hr : Registered c e.cls e.kind) (hne : e.cls ≠ .direct) {d : ℕ} (hdim : e.ops.dimension = d)
    (D : ℕ → Prop) [DecidablePred D] (hv : ValidBoundaries e.ops.nodesCount e.boundaries)
    (hd : DirichletData e.ops.nodesCount 2 e.boundaries D fun _ => 0)
    (hA : StoresEnergy (d * e.ops.nodesCount) e.ops.viscosity)
    (hB : StoresEnergy (d * e.ops.nodesCount) e.ops.elasticity)
    {l : ℝ} (hl : 0 ≤ l) (hg : SmoothContact (d * e.ops.nodesCount) J g l)
    (hg0 : ∀ r < d * e.ops.nodesCount, g (fun _ => 0) r = 0) {κ k ε : ℝ}
    (hrate : DampingRates (d * e.ops.nodesCount) D (fun _ _ => 0) e.ops.viscosity e.ops.elasticity g
      0 κ k)
    (hε : 0 < ε) (hε1 : ε * k ^ 2 ≤ 1) (f r₀ : ℕ → ℝ) (hf : ∀ t, e.ops.force t = f)
    (h₀ : LoadsBalanced (d * e.ops.nodesCount) D e.ops.elasticity f r₀)
    (a : Engine.Arguments ℝ) (solver : SolverState ℝ)
    (hdt : 0 < solver.timeStep) (hc : solver.currentTime = 0)
    (hi : Still (d * e.ops.nodesCount) D fun i => State.flatten e.grid a.initialDisplacement i - r₀ i)
    (hs : ContactSolve e (d * e.ops.nodesCount) D solver.timeStep J)
    (store : ProductStore ℝ V) (rs : List (State ℝ)) (sim : Simulation ℝ V)
    (h : e.timeDependentSolve a solver store = .ok (rs, sim)) (s : State ℝ) (hmem : s ∈ rs) :
    ∃ j : ℕ, s.time = j * solver.timeStep ∧
      strainDistance (d * e.ops.nodesCount) e.ops.elasticity
          (State.flatten e.grid s.displacement) r₀ ^ 2 *
          (1 + ε / (1 + 2 * ε * κ) * solver.timeStep) ^ j ≤
        2 * (quad (d * e.ops.nodesCount) e.ops.elasticity
            (fun i => State.flatten e.grid a.initialDisplacement i - r₀ i) +
          2 * ε * quad (d * e.ops.nodesCount) e.ops.viscosity
            (fun i => State.flatten e.grid a.initialDisplacement i - r₀ i)) := by
  obtain ⟨j, h1, h2⟩ := settles_run e ⟨fun _ _ _ _ => rfl, fun x => (quad_zero_matrix _ x).ge⟩ hA hB hl hg
    hg0 hrate hε (by simpa using hε1) f r₀ h₀ a solver hdt hc hi
    (fun sim sim' hb hst => by
      have := quasistatic_balanced e hk hr hne hdim D hv hd _ J hs sim sim' hb hst
      have hf' : e.ops.force = fun _ => f := funext hf
      rwa [hf'] at this) store rs sim h s hmem
  refine ⟨j, h1, ?_⟩
  simp only [energyDistance, quad_zero_matrix, add_zero, mul_zero, zero_add] at h2
  exact h2

/-- After a time which does not depend on the time step, all states are close to rest. -/
theorem settling_time {q C δ : ℝ} (hq : 0 < q) (hδ : 0 < δ) {dt x : ℝ} {j : ℕ} (hdt : 0 < dt)
    (hT : C / (q * δ ^ 2) ≤ j * dt) (h : x ^ 2 * (1 + q * dt) ^ j ≤ C) : |x| ≤ δ := by
  have h1 : 1 + j * (q * dt) ≤ (1 + q * dt) ^ j := one_add_mul_le_pow (by nlinarith [mul_pos hq hdt]) j
  have h2 : x ^ 2 * (1 + j * (q * dt)) ≤ C := (mul_le_mul_of_nonneg_left h1 (sq_nonneg x)).trans h
  rw [div_le_iff₀ (by positivity)] at hT
  refine abs_le_of_sq_le_sq (not_lt.1 fun hlt => ?_) hδ.le
  have h3 : 0 ≤ j * (q * dt) := by positivity
  have h4 := mul_le_mul_of_nonneg_right hlt.le h3
  nlinarith

/-! ### Bodies on triangular meshes -/

/-- C107: a viscous supported body on a triangular mesh in contact with an obstacle of the slope law,
under constant loads. Whatever the time step, its states approach the displacement returned by the static
solver for the same body, loads and supports: the square of the distance decreases geometrically, and after
a time that does not depend on the time step it is below any bound. Dynamic and quasistatic problems. -/
theorem C107_body {c c₀ : ProblemClass} (e : Engine ℝ) (M : ℕ → ℕ → ℝ)
    (hk : e.kind = .dynamicVelocity ∧ M = e.ops.acceleration ∨
      e.kind = .quasistaticVelocity ∧ M = fun _ _ => 0)
    (hr : Registered c e.cls e.kind) (hne : e.cls ≠ .direct) (hdim : e.ops.dimension = 2)
    {elements : List (List ℕ)} {nodes : ℕ → ℕ → ℝ} (hve : ValidElements 2 e.ops.nodesCount elements)
    (hnd : Nondegenerate2 elements nodes)
    (density mu lam theta zeta : ℝ) (hdensity : 0 ≤ density) (hmu : 0 < mu) (hlam : 0 ≤ lam)
    (htheta : 0 < theta) (hzeta : 0 ≤ zeta)
    (hacc : e.ops.acceleration =
      Plane.acceleration e.ops.nodesCount (basicMatrices2 elements nodes).U density)
    (hel : e.ops.elasticity =
      Plane.constitutive e.ops.nodesCount (basicMatrices2 elements nodes).W mu lam)
    (hvis : e.ops.viscosity =
      Plane.constitutive e.ops.nodesCount (basicMatrices2 elements nodes).W theta zeta)
    (D : ℕ → Prop) [DecidablePred D] (hv : ValidBoundaries e.ops.nodesCount e.boundaries)
    (hd : DirichletData e.ops.nodesCount 2 e.boundaries D fun _ => 0)
    (hh : ∀ p < e.ops.nodesCount,
      Held elements (fun q => q < e.ops.nodesCount ∧ D q ∧ D (e.ops.nodesCount + q)) p)
    (slope : ℝ) (hslope : 0 ≤ slope) (d : ContactData ℝ) (hd2 : d.variableDimension = 2)
    (he : ∀ s ∈ d.surfaces, s.edge ≠ [])
    (hn : ∀ s ∈ d.surfaces, ∀ node ∈ s.edge, node < e.ops.nodesCount)
    (hap : ContactApart e.ops.nodesCount D d)
    (data : SolverState ℝ → ContactData ℝ)
    (hdata : ∀ S, (data S).variableDimension = 2 ∧ (data S).nodes = d.nodes ∧
      (data S).surfaces = d.surfaces)
    (impl : SolverState ℝ → (ℕ → ℝ) → ℕ → ℝ)
    (hsolve : ∀ S guess, e.solve S guess =
      solverSolve (impl S) e.ops.nodesCount 2 e.boundaries guess)
    (hs : ∀ (S : SolverState ℝ) (guess : ℕ → ℝ) (var : Variables ℝ) (dt : ℝ), 0 < dt →
      var.timeStep = some dt → e.kind.update e.ops e.boundaries var = .ok S.system →
      Minimises (fun y => costFunctional Real.sqrt (frictionless (slopePotential slope)) (data S)
        (2 * e.ops.nodesCount) S.system.lhs S.system.rhs ⟨2 * e.ops.nodesCount, y⟩) (impl S guess))
    (hf : ∀ t, e.ops.force t = e.ops.force 0)
    -- the static problem
    (e₀ : Engine ℝ) (hk₀ : e₀.kind = .staticDisplacement) (hr₀ : Registered c₀ e₀.cls e₀.kind)
    (hops : e₀.ops = e.ops) (hbs : e₀.boundaries = e.boundaries)
    (inv : ℕ → (ℕ → ℕ → ℝ) → ℕ → ℕ → ℝ) (contactCount : ℕ) (dv : Bool) (dt₀ : ℝ) (solver₀ : SolverState ℝ)
    (hi₀ : solverInit inv e₀.cls e₀.kind e₀.ops e₀.boundaries contactCount dv dt₀ = .ok solver₀)
    (hs₀ : SolvesHeld e₀ (2 * e.ops.nodesCount) solver₀)
    (initial : ℕ → ℕ → ℝ) (products : List ℕ) (store₀ : ProductStore ℝ V) (rest : State ℝ)
    (sim₀ : Simulation ℝ V) (hrest : e₀.staticSolve initial products solver₀ store₀ = .ok (rest, sim₀)) :
    ∃ q : ℝ, 0 < q ∧ ∀ u₀ v₀ : ℕ → ℕ → ℝ, Still (2 * e.ops.nodesCount) D (State.flatten e.grid u₀) →
      ∃ C : ℝ, 0 ≤ C ∧ ∀ (a : Engine.Arguments ℝ) (solver : SolverState ℝ) (store : ProductStore ℝ V)
        (rs : List (State ℝ)) (sim : Simulation ℝ V),
        a.initialDisplacement = u₀ → a.initialVelocity = v₀ → 0 < solver.timeStep →
        solver.currentTime = 0 → e.timeDependentSolve a solver store = .ok (rs, sim) →
        ∀ s ∈ rs, ∃ j : ℕ, s.time = j * solver.timeStep ∧
          energyDistance (2 * e.ops.nodesCount) M e.ops.elasticity
            (State.flatten e.grid s.displacement) (State.flatten e.grid s.velocity)
            (State.flatten e₀.grid rest.displacement) (fun _ => 0) ^ 2 *
            (1 + q * solver.timeStep) ^ j ≤ C ∧
          ∀ δ : ℝ, 0 < δ → C / (q * δ ^ 2) ≤ s.time →
            energyDistance (2 * e.ops.nodesCount) M e.ops.elasticity
              (State.flatten e.grid s.displacement) (State.flatten e.grid s.velocity)
              (State.flatten e₀.grid rest.displacement) (fun _ => 0) ≤ δ := by
  obtain ⟨o1, o2, -, -, -⟩ := C71_operators2 hve hnd density mu lam theta zeta 0 hdensity hmu.le hlam
    htheta.le hzeta
  obtain ⟨-, o3, -, -, -⟩ := C71_operators2 hve hnd 0 theta zeta mu lam 0 le_rfl htheta.le hzeta hmu.le hlam
  rw [← hacc] at o1
  rw [← hel] at o2
  rw [← hvis] at o3
  have hAd : DefiniteOn (2 * e.ops.nodesCount) D e.ops.viscosity := by
    rw [hvis]; exact C74_elastic2 hve hnd theta zeta htheta hzeta D hh
  have hBd : DefiniteOn (2 * e.ops.nodesCount) D e.ops.elasticity := by
    rw [hel]; exact C74_elastic2 hve hnd mu lam hmu hlam D hh
  have hM : StoresEnergy (2 * e.ops.nodesCount) M := by
    rcases hk with ⟨-, rfl⟩ | ⟨-, rfl⟩
    · exact o1
    · exact ⟨fun _ _ _ _ => rfl, fun x => (quad_zero_matrix _ x).ge⟩
  have hkd : e.kind.dimensionIn e.ops.dimension = d.variableDimension := by
    rcases hk with ⟨h, -⟩ | ⟨h, -⟩ <;> rw [hd2, h] <;> rfl
  set J := fun y => contactCostFunctional Real.sqrt (frictionless (slopePotential slope)) d
      ⟨2 * e.ops.nodesCount, y⟩ with hJ
  have hcs : ∀ dt, 0 < dt → ContactSolve e (2 * e.ops.nodesCount) D dt J := by
    intro dt hdt
    have := C105_law e D d (by omega) hkd hv
      (by rw [hd2]; exact hd) dt (by
        rw [hd2]
        rcases hk with ⟨hk, -⟩ | ⟨hk, -⟩
        · rw [hk]
          intro var lhs hvar h
          obtain rfl : (fun r s => e.ops.viscosity r s + 1 / dt * e.ops.acceleration r s +
              e.ops.elasticity r s * dt) = lhs := by
            simpa [updateLhs, dynamicLhs, quasistaticLhs, hvar, required, bind, Except.bind, pure,
              Except.pure] using h
          intro r hr s hs
          beta_reduce
          rw [o1.symm r hr s hs, o2.symm r hr s hs, o3.symm r hr s hs]
        · rw [hk]
          exact fun var lhs hvar h => (quasistatic_lhs e.ops var lhs dt hdt hvar h o3 hAd o2).1)
      (slopePotential slope) (fun _ _ _ _ _ => rfl) (fun b c => C47_convex slope b c hslope) hn hap data
      (by rw [hd2]; exact hdata) impl (by rw [hd2]; exact hsolve) (by
        rw [hd2]
        exact fun S guess var hvar h => hs S guess var dt hdt hvar h)
    rw [hd2] at this
    exact this
  obtain ⟨l, hl, hg⟩ := C105_slope slope hslope d (by omega) e.ops.nodesCount he hn
  rw [hd2] at hg
  have hg0 : ∀ r < 2 * e.ops.nodesCount, contactForces Real.sqrt (slopeSubderivative slope) d
      e.ops.nodesCount (fun _ => 0) r = 0 := by
    intro r _
    unfold contactForces contactForce pressure
    refine List.sum_eq_zero fun x hx => ?_
    obtain ⟨s, -, rfl⟩ := List.mem_map.1 hx
    have z : ∀ b : ℕ → ℝ, normalComponent d.variableDimension (fun _ => (0 : ℝ)) b = 0 := by
      intro b
      simp [normalComponent]
    have z' : meanOver s.edge (fun _ _ => (0 : ℝ)) = fun _ => 0 := by
      funext i
      simp [meanOver]
    beta_reduce
    rw [z', z]
    simp [slopeSubderivative]
  obtain ⟨hr1, hr2⟩ := C75_static e₀ hk₀ hr₀ D (fun _ => 0) (by rw [hops, hbs]; exact hv)
    (by rw [hops, hbs, hdim]; exact hd) inv contactCount dv dt₀ solver₀ hi₀
    (by rw [hops, hdim]; exact hs₀) initial products store₀ rest sim₀ hrest
  rw [hops, hdim] at hr1 hr2
  obtain ⟨m, κ, k, hrate⟩ := exists_dampingRates o3 o2 hAd hBd M hl hg hg0
  obtain ⟨hm0, hκ0, hk0⟩ := hrate.nonneg
  have hε : 0 < 1 / (2 * m + k ^ 2 + 1) := by positivity
  have hε1 : 1 / (2 * m + k ^ 2 + 1) * (2 * m + k ^ 2) ≤ 1 := by
    rw [one_div, inv_mul_le_iff₀ (by positivity)]
    linarith
  refine ⟨1 / (2 * m + k ^ 2 + 1) / (1 + 2 * (1 / (2 * m + k ^ 2 + 1)) * κ), by positivity,
    fun u₀ v₀ hu₀ => ⟨2 * (2 * quad (2 * e.ops.nodesCount) M (State.flatten e.grid v₀) +
          quad (2 * e.ops.nodesCount) e.ops.elasticity
            (fun i => State.flatten e.grid u₀ i - State.flatten e₀.grid rest.displacement i) +
          2 * (1 / (2 * m + k ^ 2 + 1)) * quad (2 * e.ops.nodesCount) e.ops.viscosity
            (fun i => State.flatten e.grid u₀ i - State.flatten e₀.grid rest.displacement i)), ?_, ?_⟩⟩
  · have h1 := hM.nonneg (State.flatten e.grid v₀)
    have h2 := o2.nonneg fun i => State.flatten e.grid u₀ i - State.flatten e₀.grid rest.displacement i
    have h3 := o3.nonneg fun i => State.flatten e.grid u₀ i - State.flatten e₀.grid rest.displacement i
    positivity
  · rintro a solver store rs sim rfl rfl hdt hc h s hmem
    have hf' : e.ops.force = fun _ => e.ops.force 0 := funext hf
    have main := settles_run e hM o3 o2 hl hg hg0 hrate hε hε1 (e.ops.force 0)
      (State.flatten e₀.grid rest.displacement)
      (fun r hr hD => ?_) a solver hdt hc
      (fun r hr hD => ?_) (fun sim sim' hb hst => ?_) store rs sim h s hmem
    · obtain ⟨j, h1, h2⟩ := main
      exact ⟨j, h1, h2, fun δ hδ hT =>
        (le_abs_self _).trans (settling_time (by positivity) hδ hdt (by rw [← h1]; exact hT) h2)⟩
    · exact hr2 r hr hD
    · beta_reduce
      rw [hu₀ r hr hD, hr1 r hr hD, sub_zero]
    · rcases hk with ⟨hk, rfl⟩ | ⟨hk, rfl⟩
      · have := dynamic_balanced e hk hr hne hdim D hv hd _ J (hcs _ hdt) sim sim' hb hst
        rwa [hf'] at this
      · have := quasistatic_balanced e hk hr hne hdim D hv hd _ J (hcs _ hdt) sim sim' hb hst
        rwa [hf'] at this

/-! ### A square held by its upper side, touching the ground and loaded by its weight -/

noncomputable def heavySquareOps : Operators ℝ :=
  { heldSquareOps with
    acceleration := Plane.acceleration 4 (basicMatrices2 heldSquareElements heldSquareNodes).U 1
    force := fun _ r => if r < 4 then 0 else -1 }

/-- A solution of the system, if there is one. -/
noncomputable def solutionIfAny (n : ℕ) (S : System ℝ) : ℕ → ℝ :=
  open Classical in if h : ∃ x, Solves n S x then h.choose else fun _ => 0

noncomputable def restingSquare : Engine ℝ :=
  { grid := ⟨4, 2, heldSquareNodes⟩, cls := .staticGlobal, kind := .staticDisplacement
    ops := heavySquareOps, boundaries := heldSquareBoundaries
    solve := fun S _ => solutionIfAny 8 S.system }

/-- All hypotheses of `C107_body` are met by the square: the displacement of the static problem exists, and
the runs of the dynamic problem approach it. -/
example (store : ProductStore ℝ V) (solver : SolverState ℝ) (h0 : solver.currentTime = 0) :
    ∃ (solver₀ : SolverState ℝ) (rest : State ℝ) (sim₀ : Simulation ℝ V) (e : Engine ℝ) (q : ℝ),
      solverInit (fun _ A => A) restingSquare.cls restingSquare.kind restingSquare.ops
        restingSquare.boundaries 2 false 1 = .ok solver₀ ∧
      restingSquare.staticSolve (fun _ _ => 0) [] solver₀ store = .ok (rest, sim₀) ∧
      e.kind = .dynamicVelocity ∧ e.ops = heavySquareOps ∧ e.boundaries = heldSquareBoundaries ∧ 0 < q ∧
      ∀ v₀ : ℕ → ℕ → ℝ, ∃ C : ℝ, ∀ (dt : ℝ) (a : Engine.Arguments ℝ), 0 < dt →
        a.initialDisplacement = (fun _ _ => 0) → a.initialVelocity = v₀ → a.products = [] →
        ∃ (rs : List (State ℝ)) (sim : Simulation ℝ V),
          e.timeDependentSolve a { solver with timeStep := dt } store = .ok (rs, sim) ∧
          ∀ s ∈ rs, ∃ j : ℕ, s.time = j * dt ∧
            energyDistance 8 heavySquareOps.acceleration heavySquareOps.elasticity
              (State.flatten e.grid s.displacement) (State.flatten e.grid s.velocity)
              (State.flatten restingSquare.grid rest.displacement) (fun _ => 0) ^ 2 *
              (1 + q * dt) ^ j ≤ C := by
  have hall : ∀ p < heavySquareOps.nodesCount, ∃ t ∈ heldSquareElements, p ∈ t := by
    change ∀ p < 4, ∃ t ∈ heldSquareElements, p ∈ t
    unfold heldSquareElements
    decide
  obtain ⟨impl, himpl⟩ := C105_solver heavySquareOps rfl heldSquare_mesh.1 heldSquare_mesh.2 hall 1 4 5 2 3
    (by norm_num) (by norm_num) (by norm_num) (by norm_num) (by norm_num) rfl rfl rfl heldSquareBoundaries
    _ heldSquare_boundaries.1 heldSquare_boundaries.2 10 (by norm_num) (fun _ => heldSquareContact)
    (fun _ => rfl)
  have hreg : Registered .DynamicDisplacementProblem .dynamicSchur .dynamicVelocity :=
    ⟨⟨.dynamic, by decide +kernel, by decide +kernel⟩, Or.inl (by decide +kernel)⟩
  have hreg₀ : Registered .StaticDisplacementProblem .staticGlobal .staticDisplacement :=
    ⟨⟨.static, by decide +kernel, by decide +kernel⟩, Or.inl (by decide +kernel)⟩
  have hdef : DefiniteOn (2 * 4) (fun r => r < 2 * 4 ∧ 2 ≤ r % 4) heldSquareOps.elasticity :=
    C74_elastic2 heldSquare_mesh.1 heldSquare_mesh.2 4 5 (by norm_num) (by norm_num) _ heldSquare_held
  have hu := C74_definite 4 2 heldSquareBoundaries ⟨heldSquareOps.elasticity, heavySquareOps.force 0⟩ _ _
    heldSquare_boundaries.1 heldSquare_boundaries.2 hdef
  let e : Engine ℝ :=
    { grid := ⟨4, 2, heldSquareNodes⟩, cls := .dynamicSchur, kind := .dynamicVelocity
      ops := heavySquareOps, boundaries := heldSquareBoundaries
      solve := fun S guess => solverSolve (impl S) 4 2 heldSquareBoundaries guess }
  obtain ⟨solver₀, hsolver⟩ : ∃ solver₀, solverInit (fun _ A => A) restingSquare.cls restingSquare.kind
      restingSquare.ops restingSquare.boundaries 2 false 1 = .ok solver₀ := ⟨_, rfl⟩
  have hsys : solver₀.system =
      applyDirichlet 4 2 heldSquareBoundaries ⟨heldSquareOps.elasticity, heavySquareOps.force 0⟩ := by
    rw [← Except.ok.inj hsolver]; rfl
  obtain ⟨rest, sim₀, hrest⟩ : ∃ rest sim₀,
      restingSquare.staticSolve (fun _ _ => 0) [] solver₀ store = .ok (rest, sim₀) := ⟨_, _, rfl⟩
  obtain ⟨q, hq, h1⟩ := C107_body (V := V) e heavySquareOps.acceleration (Or.inl ⟨rfl, rfl⟩) hreg
    SolverClass.noConfusion rfl heldSquare_mesh.1 heldSquare_mesh.2 1 4 5 2 3
    (by norm_num) (by norm_num) (by norm_num) (by norm_num) (by norm_num) rfl rfl rfl
    (fun r => r < 2 * 4 ∧ 2 ≤ r % 4) heldSquare_boundaries.1 heldSquare_boundaries.2 heldSquare_held
    10 (by norm_num) heldSquareContact rfl (by simp [heldSquareContact, segmentData])
    (by
      intro s hs node hn
      simp only [heldSquareContact, segmentData, List.mem_singleton] at hs
      subst hs
      change node < 4
      rcases List.mem_pair.1 hn with h | h <;> omega)
    (by
      intro s hs node hn i hi
      simp only [heldSquareContact, segmentData, List.mem_singleton] at hs
      subst hs
      change ¬ (i * 4 + node < 2 * 4 ∧ 2 ≤ (i * 4 + node) % 4)
      rcases List.mem_pair.1 hn with h | h <;> omega)
    (fun _ => heldSquareContact) (fun _ => ⟨rfl, rfl, rfl⟩) impl (fun _ _ => rfl) himpl (fun _ => rfl)
    restingSquare rfl hreg₀ rfl rfl (fun _ A => A) 2 false 1 solver₀ hsolver
    (by
      intro S guess h2 _
      obtain ⟨x, hx, -⟩ := hu
      have hex : ∃ x, Solves 8 S.system x := ⟨x, by rw [h2, hsys]; exact hx⟩
      change Solves 8 S.system (solutionIfAny 8 S.system)
      unfold solutionIfAny
      rw [dif_pos hex]
      exact hex.choose_spec)
    (fun _ _ => 0) [] store rest sim₀ hrest
  refine ⟨solver₀, rest, sim₀, e, q, hsolver, hrest, rfl, rfl, rfl, hq, fun v₀ => ?_⟩
  obtain ⟨C, -, h2⟩ := h1 (fun _ _ => 0) v₀ (fun _ _ _ => rfl)
  refine ⟨C, fun dt a hdt h3 h4 h5 => ?_⟩
  obtain ⟨rs, sim, h⟩ := C105_runs e hreg SolverClass.noConfusion (fun _ => ⟨_, rfl⟩) a h5
    { solver with timeStep := dt } store
  refine ⟨rs, sim, h, fun s hs => ?_⟩
  obtain ⟨j, h6, h7, -⟩ := h2 a { solver with timeStep := dt } store rs sim h3 h4 hdt h0 h s hs
  exact ⟨j, h6, h7⟩

end
end Conmech
