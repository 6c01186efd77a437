import Verif.Lemmas.MotionExists
import Mathlib.Analysis.InnerProductSpace.PiL2
import Mathlib.Topology.MetricSpace.Contracting
import Mathlib.Algebra.Order.Chebyshev
/-!
Equations with strongly monotone Lipschitz operators have solutions.
-/
namespace Conmech
open Spec

/-- A vector of `n` numbers, continued by zero; the entries in `D` are removed. -/
noncomputable def cleared (n : ℕ) (D : ℕ → Prop) [DecidablePred D] (x : EuclideanSpace ℝ (Fin n)) : ℕ → ℝ :=
  fun i => if h : i < n then if D i then 0 else x ⟨i, h⟩ else 0

theorem real_contraction {a b c m L : ℝ} (hm : 0 < m) (hL : 0 < L) (h1 : m * a ≤ b)
    (h2 : c ≤ L * a) : a - 2 * (m / L) * b + (m / L) ^ 2 * c ≤ (1 - m ^ 2 / L) * a := by
  have e1 : (m / L) ^ 2 * c ≤ (m / L) ^ 2 * (L * a) := mul_le_mul_of_nonneg_left h2 (by positivity)
  have e2 : 2 * (m / L) * (m * a) ≤ 2 * (m / L) * b := mul_le_mul_of_nonneg_left h1 (by positivity)
  have e3 : (m / L) ^ 2 * (L * a) = m ^ 2 / L * a := by field_simp
  have e4 : 2 * (m / L) * (m * a) = 2 * (m ^ 2 / L * a) := by ring
  rw [e3] at e1
  rw [e4] at e2
  linarith

theorem exists_zero (n : ℕ) (D : ℕ → Prop) [DecidablePred D] (F : (ℕ → ℝ) → ℕ → ℝ) {m L : ℝ} (hm : 0 < m)
    (hL : 0 < L) (hmL : m ^ 2 ≤ L)
    (hmon : ∀ x y, Still n D x → Still n D y → m * ∑ r ∈ Finset.range n, (x r - y r) ^ 2 ≤
      ∑ r ∈ Finset.range n, (x r - y r) * (F x r - F y r))
    (hlip : ∀ x y, ∑ r ∈ Finset.range n, (F x r - F y r) ^ 2 ≤ L * ∑ r ∈ Finset.range n, (x r - y r) ^ 2) :
    ∃ x, Still n D x ∧ ∀ r < n, ¬ D r → F x r = 0 := by
  have hstill : ∀ x : EuclideanSpace ℝ (Fin n), Still n D (cleared n D x) := by
    intro x r hr hD
    simp [cleared, hr, hD]
  set G : EuclideanSpace ℝ (Fin n) → EuclideanSpace ℝ (Fin n) := fun x =>
    WithLp.toLp 2 fun i => if D i then 0 else cleared n D x i - m / L * F (cleared n D x) i with hG
  have hc : ∀ x y : EuclideanSpace ℝ (Fin n),
      ∑ r ∈ Finset.range n, (cleared n D x r - cleared n D y r) ^ 2 ≤ dist x y ^ 2 := by
    intro x y
    rw [EuclideanSpace.dist_eq, Real.sq_sqrt (Finset.sum_nonneg fun _ _ => sq_nonneg _), Finset.sum_range]
    refine Finset.sum_le_sum fun i _ => ?_
    rw [Real.dist_eq, sq_abs]
    by_cases hD : D i
    · simp [cleared, hD]; positivity
    · simp [cleared, hD]
  have hk : 0 ≤ 1 - m ^ 2 / L := by
    rw [sub_nonneg, div_le_one hL]; exact hmL
  have hk1 : 1 - m ^ 2 / L < 1 := by have : 0 < m ^ 2 / L := by positivity
                                     linarith
  have hd : ∀ x y, dist (G x) (G y) ^ 2 ≤ (1 - m ^ 2 / L) * dist x y ^ 2 := by
    intro x y
    refine le_trans ?_ (mul_le_mul_of_nonneg_left (hc x y) hk)
    refine le_trans ?_ (real_contraction hm hL (hmon _ _ (hstill x) (hstill y)) (hlip _ _))
    rw [EuclideanSpace.dist_eq, Real.sq_sqrt (Finset.sum_nonneg fun _ _ => sq_nonneg _), Finset.mul_sum,
      Finset.mul_sum, ← Finset.sum_sub_distrib, ← Finset.sum_add_distrib, Finset.sum_range]
    refine Finset.sum_le_sum fun i _ => ?_
    rw [Real.dist_eq, sq_abs]
    simp only [hG]
    by_cases hD : D i
    · simp only [hD, if_true, sub_self]
      have e : cleared n D x i - cleared n D y i = 0 := by
        rw [hstill x i i.2 hD, hstill y i i.2 hD, sub_self]
      rw [e]
      have := mul_nonneg (sq_nonneg (m / L)) (sq_nonneg (F (cleared n D x) i - F (cleared n D y) i))
      nlinarith
    · simp only [hD, if_false]
      exact le_of_eq (by ring)
  have hcon : ContractingWith (Real.toNNReal (Real.sqrt (1 - m ^ 2 / L))) G := by
    refine ⟨?_, LipschitzWith.of_dist_le_mul fun x y => ?_⟩
    · rw [Real.toNNReal_lt_one, Real.sqrt_lt' one_pos]
      linarith
    · rw [Real.coe_toNNReal _ (Real.sqrt_nonneg _)]
      refine abs_le_of_sq_le_sq' ?_ (by positivity) |>.2
      rw [mul_pow, Real.sq_sqrt hk]
      exact hd x y
  have hfix := hcon.fixedPoint_isFixedPt
  set z := ContractingWith.fixedPoint G hcon
  refine ⟨cleared n D z, hstill z, fun r hr hD => ?_⟩
  have h1 : G z ⟨r, hr⟩ = z ⟨r, hr⟩ := by rw [hfix]
  have h2 : cleared n D z r = z ⟨r, hr⟩ := by simp [cleared, hr, hD]
  simp only [hG, hD, if_false] at h1
  rw [h2] at h1
  have h3 : m / L * F (cleared n D z) r = 0 := by linarith
  exact (mul_eq_zero.1 h3).resolve_left (by positivity)

/-- The squares of the entries of an operator with entries of Lipschitz constant `k`. -/
theorem lipschitz_squares {n : ℕ} {F : (ℕ → ℝ) → ℕ → ℝ} {k : ℝ}
    (h : ∀ x y, ∀ r < n, |F x r - F y r| ≤ k * ∑ s ∈ Finset.range n, |x s - y s|) (x y : ℕ → ℝ) :
    ∑ r ∈ Finset.range n, (F x r - F y r) ^ 2 ≤
      (k ^ 2 * n ^ 2) * ∑ r ∈ Finset.range n, (x r - y r) ^ 2 := by
  have h1 : (∑ s ∈ Finset.range n, |x s - y s|) ^ 2 ≤ n * ∑ s ∈ Finset.range n, (x s - y s) ^ 2 := by
    have := sq_sum_le_card_mul_sum_sq (s := Finset.range n) (f := fun s => |x s - y s|)
    simpa only [Finset.card_range, sq_abs] using this
  calc ∑ r ∈ Finset.range n, (F x r - F y r) ^ 2
      ≤ ∑ _r ∈ Finset.range n, k ^ 2 * (n * ∑ s ∈ Finset.range n, (x s - y s) ^ 2) := by
        refine Finset.sum_le_sum fun r hr => ?_
        rw [← sq_abs]
        refine (pow_le_pow_left₀ (abs_nonneg _) (h x y r (Finset.mem_range.1 hr)) 2).trans ?_
        rw [mul_pow]
        exact mul_le_mul_of_nonneg_left h1 (sq_nonneg _)
    _ = _ := by rw [Finset.sum_const, Finset.card_range, nsmul_eq_mul]; ring

theorem smooth_monotone {n : ℕ} {J : (ℕ → ℝ) → ℝ} {g : (ℕ → ℝ) → ℕ → ℝ} {k : ℝ} (h : SmoothContact n J g k)
    (x y : ℕ → ℝ) : 0 ≤ ∑ r ∈ Finset.range n, (x r - y r) * (g x r - g y r) := by
  have h1 := h.subgradient x y
  have h2 := h.subgradient y x
  have e : ∑ r ∈ Finset.range n, (x r - y r) * (g x r - g y r) =
      -(∑ r ∈ Finset.range n, (y r - x r) * g x r) - ∑ r ∈ Finset.range n, (x r - y r) * g y r := by
    rw [← Finset.sum_neg_distrib, ← Finset.sum_sub_distrib]
    exact Finset.sum_congr rfl fun r _ => by ring
  rw [e]; linarith

/-- Every time step of a body with mass has a solution. -/
theorem exists_balanced {n : ℕ} {D : ℕ → Prop} {M A B : ℕ → ℕ → ℝ} {J : (ℕ → ℝ) → ℝ}
    (hM : StoresEnergy n M) (hdef : DefiniteOn n D M) (hA : Dissipates n A) (hB : StoresEnergy n B)
    {g : (ℕ → ℝ) → ℕ → ℝ} {k : ℝ} (hk : 0 ≤ k) (hg : SmoothContact n J g k) (f u v : ℕ → ℝ) {τ : ℝ}
    (hτ : 0 < τ) : ∃ w, Still n D w ∧
      Balanced n D M A B J f (fun i => u i + τ * w i) w fun i => (w i - v i) / τ := by
  classical
  set F : (ℕ → ℝ) → ℕ → ℝ := fun w r => act n M (fun i => (w i - v i) / τ) r + act n A w r +
    act n B (fun i => u i + τ * w i) r - f r + g w r with hF
  have hact : ∀ (M' : ℕ → ℕ → ℝ) (x y : ℕ → ℝ) r, act n M' x r - act n M' y r =
      act n M' (fun i => x i - y i) r := by
    intro M' x y r
    unfold act
    rw [← Finset.sum_sub_distrib]
    exact Finset.sum_congr rfl fun s _ => by ring
  have hscale : ∀ (M' : ℕ → ℕ → ℝ) (c : ℝ) (x : ℕ → ℝ) r, act n M' (fun i => c * x i) r = c * act n M' x r := by
    intro M' c x r
    unfold act
    rw [Finset.mul_sum]
    exact Finset.sum_congr rfl fun s _ => by ring
  have hdiff : ∀ x y r, F x r - F y r = τ⁻¹ * act n M (fun i => x i - y i) r +
      act n A (fun i => x i - y i) r + τ * act n B (fun i => x i - y i) r + (g x r - g y r) := by
    intro x y r
    rw [← hscale M, ← hscale B, ← hact A]
    have e1 : act n M (fun i => τ⁻¹ * (x i - y i)) r = act n M (fun i => (x i - v i) / τ) r -
        act n M (fun i => (y i - v i) / τ) r := by
      rw [hact]; congr 1; funext i; field_simp; ring
    have e2 : act n B (fun i => τ * (x i - y i)) r = act n B (fun i => u i + τ * x i) r -
        act n B (fun i => u i + τ * y i) r := by
      rw [hact]; congr 1; funext i; ring
    rw [e1, e2]
    simp only [hF]
    ring
  obtain ⟨c, hc0, hc⟩ := exists_coercive hM hdef
  have hcoer : ∀ x, Still n D x → ∑ r ∈ Finset.range n, x r ^ 2 ≤ (n * c + 1) * quad n M x := by
    intro x hx
    have e : ∀ r < n, extendZero n (fun i : Fin n => x i) r = x r := fun r hr => by simp [extendZero, hr]
    have h1 := hc (fun i => x i) fun r hr hD => by rw [e r hr]; exact hx r hr hD
    have h2 : quad n M (extendZero n fun i : Fin n => x i) = quad n M x := by
      rw [quad_eq_act, quad_eq_act]
      unfold act
      refine Finset.sum_congr rfl fun r hr => ?_
      rw [e r (Finset.mem_range.1 hr)]
      congr 1
      exact Finset.sum_congr rfl fun s hs => by rw [e s (Finset.mem_range.1 hs)]
    rw [h2] at h1
    have h3 := hM.nonneg x
    calc ∑ r ∈ Finset.range n, x r ^ 2 ≤ ∑ _r ∈ Finset.range n, c * quad n M x := by
          refine Finset.sum_le_sum fun r hr => le_trans ?_ h1
          rw [← sq_abs]
          refine pow_le_pow_left₀ (abs_nonneg _) ?_ 2
          exact norm_le_pi_norm (fun i : Fin n => x i) ⟨r, Finset.mem_range.1 hr⟩
      _ = n * c * quad n M x := by rw [Finset.sum_const, Finset.card_range, nsmul_eq_mul]; ring
      _ ≤ _ := by linarith
  have hpos : 0 < (n * c + 1) * τ := by positivity
  set K : ℝ := τ⁻¹ * (∑ r ∈ Finset.range n, ∑ s ∈ Finset.range n, |M r s|) +
    (∑ r ∈ Finset.range n, ∑ s ∈ Finset.range n, |A r s|) +
    τ * (∑ r ∈ Finset.range n, ∑ s ∈ Finset.range n, |B r s|) + k with hK
  have habs : ∀ (M' : ℕ → ℕ → ℝ) (x : ℕ → ℝ), ∀ r < n, |act n M' x r| ≤
      (∑ r ∈ Finset.range n, ∑ s ∈ Finset.range n, |M' r s|) * ∑ s ∈ Finset.range n, |x s| := by
    intro M' x r hr
    unfold act
    refine (Finset.abs_sum_le_sum_abs _ _).trans ?_
    rw [Finset.mul_sum]
    refine Finset.sum_le_sum fun s hs => ?_
    rw [abs_mul]
    refine mul_le_mul_of_nonneg_right ?_ (abs_nonneg _)
    refine (Finset.single_le_sum (f := fun s => |M' r s|) (fun _ _ => abs_nonneg _) hs).trans ?_
    exact Finset.single_le_sum (f := fun r => ∑ s ∈ Finset.range n, |M' r s|)
      (fun _ _ => Finset.sum_nonneg fun _ _ => abs_nonneg _) (Finset.mem_range.2 hr)
  have hlip : ∀ x y, ∀ r < n, |F x r - F y r| ≤ K * ∑ s ∈ Finset.range n, |x s - y s| := by
    intro x y r hr
    rw [hdiff]
    have a1 := habs M (fun i => x i - y i) r hr
    have a2 := habs A (fun i => x i - y i) r hr
    have a3 := habs B (fun i => x i - y i) r hr
    have a4 := hg.lipschitz x y r hr
    have b1 := abs_add_le (τ⁻¹ * act n M (fun i => x i - y i) r + act n A (fun i => x i - y i) r +
      τ * act n B (fun i => x i - y i) r) (g x r - g y r)
    have b2 := abs_add_le (τ⁻¹ * act n M (fun i => x i - y i) r + act n A (fun i => x i - y i) r)
      (τ * act n B (fun i => x i - y i) r)
    have b3 := abs_add_le (τ⁻¹ * act n M (fun i => x i - y i) r) (act n A (fun i => x i - y i) r)
    rw [abs_mul, abs_of_pos (inv_pos.2 hτ)] at b3
    rw [abs_mul, abs_of_pos hτ] at b2
    have c1 := mul_le_mul_of_nonneg_left a1 (inv_pos.2 hτ).le
    have c3 := mul_le_mul_of_nonneg_left a3 hτ.le
    rw [hK]
    linarith
  obtain ⟨w, hw, hz⟩ := exists_zero n D F (m := ((n * c + 1) * τ)⁻¹)
    (L := K ^ 2 * n ^ 2 + (((n * c + 1) * τ)⁻¹) ^ 2) (inv_pos.2 hpos)
    (by positivity) (by nlinarith [sq_nonneg (K * n)])
    (fun x y hx hy => by
      have h1 := hcoer (fun i => x i - y i) fun r hr hD => by beta_reduce; rw [hx r hr hD, hy r hr hD, sub_self]
      have h2 : ∑ r ∈ Finset.range n, (x r - y r) * (F x r - F y r) =
          τ⁻¹ * quad n M (fun i => x i - y i) + quad n A (fun i => x i - y i) +
          τ * quad n B (fun i => x i - y i) + ∑ r ∈ Finset.range n, (x r - y r) * (g x r - g y r) := by
        rw [quad_eq_act, quad_eq_act, quad_eq_act, Finset.mul_sum, Finset.mul_sum, ← Finset.sum_add_distrib,
          ← Finset.sum_add_distrib, ← Finset.sum_add_distrib]
        exact Finset.sum_congr rfl fun r _ => by rw [hdiff]; ring
      rw [h2]
      have h3 := smooth_monotone hg x y
      have h4 := hA.nonneg fun i => x i - y i
      have h5 := mul_nonneg hτ.le (hB.nonneg fun i => x i - y i)
      have h6 : ((n * c + 1) * τ)⁻¹ * ∑ r ∈ Finset.range n, (x r - y r) ^ 2 ≤
          ((n * c + 1) * τ)⁻¹ * ((n * c + 1) * quad n M (fun i => x i - y i)) :=
        mul_le_mul_of_nonneg_left h1 (inv_pos.2 hpos).le
      have h7 : ((n * c + 1) * τ)⁻¹ * ((n * c + 1) * quad n M (fun i => x i - y i)) =
          τ⁻¹ * quad n M (fun i => x i - y i) := by
        have : (n : ℝ) * c + 1 ≠ 0 := by positivity
        field_simp
      linarith)
    (fun x y => (lipschitz_squares hlip x y).trans (mul_le_mul_of_nonneg_right
      (le_add_of_nonneg_right (by positivity)) (Finset.sum_nonneg fun _ _ => sq_nonneg _)))
  refine ⟨w, hw, fun y hy => ?_⟩
  have h1 := hg.subgradient w y
  have h2 : ∑ r ∈ Finset.range n, (y r - w r) * (act n M (fun i => (w i - v i) / τ) r + act n A w r +
      act n B (fun i => u i + τ * w i) r - f r) = -∑ r ∈ Finset.range n, (y r - w r) * g w r := by
    rw [← Finset.sum_neg_distrib]
    refine Finset.sum_congr rfl fun r hr => ?_
    by_cases hD : D r
    · rw [hy r (Finset.mem_range.1 hr) hD, hw r (Finset.mem_range.1 hr) hD]; ring
    · have := hz r (Finset.mem_range.1 hr) hD
      simp only [hF] at this
      rw [show act n M (fun i => (w i - v i) / τ) r + act n A w r +
        act n B (fun i => u i + τ * w i) r - f r = -g w r by linarith]
      ring
  rw [h2]
  linarith

end Conmech
