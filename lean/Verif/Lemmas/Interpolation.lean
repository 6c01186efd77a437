import Mathlib.Analysis.Calculus.MeanValue
import Mathlib.Analysis.Calculus.LocalExtr.Rolle
import Verif.Lemmas.Green
/-!
The error of interpolation on a triangle.
-/
namespace Conmech
open Spec MeasureTheory

theorem convex_triangle (X : ℕ → ℕ → ℝ) : Convex ℝ (triangle X) := by
  rintro p ⟨a, b, c, ha, hb, hc, h1, rfl⟩ q ⟨a', b', c', ha', hb', hc', h1', rfl⟩ s t hs ht hst
  refine ⟨s * a + t * a', s * b + t * b', s * c + t * c', by positivity, by positivity, by positivity, ?_, ?_⟩
  · linear_combination s * h1 + t * h1' + hst
  · ext <;> simp only [Prod.fst_add, Prod.snd_add, Prod.smul_fst, Prod.smul_snd, smul_eq_mul] <;> ring

theorem near_combination {a b c x y w z h : ℝ} (ha : 0 ≤ a) (hb : 0 ≤ b) (hc : 0 ≤ c) (h1 : a + b + c = 1)
    (hx : |x - z| ≤ h) (hy : |y - z| ≤ h) (hw : |w - z| ≤ h) : |a * x + b * y + c * w - z| ≤ h := by
  have e : a * x + b * y + c * w - z = a * (x - z) + b * (y - z) + c * (w - z) := by
    linear_combination z * h1
  have e' : h = a * h + b * h + c * h := by linear_combination -h * h1
  rw [abs_le] at *
  rw [e]
  constructor <;> nlinarith [mul_le_mul_of_nonneg_left hx.1 ha, mul_le_mul_of_nonneg_left hx.2 ha,
    mul_le_mul_of_nonneg_left hy.1 hb, mul_le_mul_of_nonneg_left hy.2 hb,
    mul_le_mul_of_nonneg_left hw.1 hc, mul_le_mul_of_nonneg_left hw.2 hc]

/-- Points of a triangle are not further apart than its corners. -/
theorem triangle_diameter {X : ℕ → ℕ → ℝ} {h : ℝ} (hh : ∀ i < 3, ∀ j < 3, ∀ k < 2, |X i k - X j k| ≤ h)
    {p q : ℝ × ℝ} (hp : p ∈ triangle X) (hq : q ∈ triangle X) : ‖p - q‖ ≤ h := by
  obtain ⟨a, b, c, ha, hb, hc, h1, rfl⟩ := hp
  obtain ⟨a', b', c', ha', hb', hc', h1', rfl⟩ := hq
  have key : ∀ k < 2, |a * X 0 k + b * X 1 k + c * X 2 k - (a' * X 0 k + b' * X 1 k + c' * X 2 k)| ≤ h := by
    intro k hk
    have inner : ∀ i < 3, |X i k - (a' * X 0 k + b' * X 1 k + c' * X 2 k)| ≤ h := by
      intro i hi
      rw [abs_sub_comm]
      exact near_combination ha' hb' hc' h1' (hh 0 (by omega) i hi k hk) (hh 1 (by omega) i hi k hk)
        (hh 2 (by omega) i hi k hk)
    exact near_combination ha hb hc h1 (inner 0 (by omega)) (inner 1 (by omega)) (inner 2 (by omega))
  rw [Prod.norm_def, max_le_iff]
  exact ⟨key 0 (by omega), key 1 (by omega)⟩

/-- A function with bounded partial derivatives on a triangle. -/
theorem triangle_lipschitz {X : ℕ → ℕ → ℝ} {f : ℝ × ℝ → ℝ} (hf : Differentiable ℝ f) {M h : ℝ}
    (hM : ∀ l < 2, ∀ p ∈ triangle X, |partialDeriv f l p| ≤ M)
    (hh : ∀ i < 3, ∀ j < 3, ∀ k < 2, |X i k - X j k| ≤ h) {p q : ℝ × ℝ} (hp : p ∈ triangle X)
    (hq : q ∈ triangle X) : |f p - f q| ≤ 2 * M * h := by
  have hM0 : 0 ≤ M := (abs_nonneg _).trans (hM 0 (by omega) p hp)
  have hb : ∀ x ∈ triangle X, ‖fderiv ℝ f x‖ ≤ 2 * M := by
    intro x hx
    refine ContinuousLinearMap.opNorm_le_bound _ (by positivity) fun v => ?_
    obtain ⟨a, b⟩ := v
    rw [fderiv_partial hf.differentiableAt, Real.norm_eq_abs]
    have h0 := hM 0 (by omega) x hx
    have h1 := hM 1 (by omega) x hx
    have n1 : |a| ≤ ‖((a, b) : ℝ × ℝ)‖ := by rw [Prod.norm_def]; exact le_max_left _ _
    have n2 : |b| ≤ ‖((a, b) : ℝ × ℝ)‖ := by rw [Prod.norm_def]; exact le_max_right _ _
    calc |a * partialDeriv f 0 x + b * partialDeriv f 1 x| ≤ |a| * |partialDeriv f 0 x| + |b| * |partialDeriv f 1 x| := by
          rw [← abs_mul, ← abs_mul]; exact abs_add_le _ _
      _ ≤ ‖((a, b) : ℝ × ℝ)‖ * M + ‖((a, b) : ℝ × ℝ)‖ * M := by gcongr
      _ = 2 * M * ‖((a, b) : ℝ × ℝ)‖ := by ring
  have := Convex.norm_image_sub_le_of_norm_fderiv_le (𝕜 := ℝ) (fun x _ => hf.differentiableAt) hb
    (convex_triangle X) hq hp
  rw [Real.norm_eq_abs] at this
  refine this.trans ?_
  exact mul_le_mul_of_nonneg_left (triangle_diameter hh hp hq) (by positivity)

/-- Along an edge the derivative of the error of interpolation vanishes somewhere. -/
theorem edge_rolle {u : ℝ × ℝ → ℝ} (hu : Differentiable ℝ u) {a b : ℕ → ℝ} {c : ℝ} {G : ℕ → ℝ}
    (ha : u (a 0, a 1) = c + G 0 * a 0 + G 1 * a 1) (hb : u (b 0, b 1) = c + G 0 * b 0 + G 1 * b 1) :
    ∃ r : ℝ, 0 < r ∧ r < 1 ∧
      (b 0 - a 0) * (partialDeriv u 0 ((1 - r) * a 0 + r * b 0, (1 - r) * a 1 + r * b 1) - G 0) +
      (b 1 - a 1) * (partialDeriv u 1 ((1 - r) * a 0 + r * b 0, (1 - r) * a 1 + r * b 1) - G 1) = 0 := by
  have one : ∀ r x y : ℝ, HasDerivAt (fun r : ℝ => (1 - r) * x + r * y) (y - x) r := by
    intro r x y
    refine ((((hasDerivAt_const r (1 : ℝ)).sub (hasDerivAt_id r)).mul_const x).add
      ((hasDerivAt_id r).mul_const y)).congr_deriv ?_
    ring
  have hγ : ∀ r : ℝ, HasDerivAt (fun r : ℝ => (((1 - r) * a 0 + r * b 0, (1 - r) * a 1 + r * b 1) : ℝ × ℝ))
      (b 0 - a 0, b 1 - a 1) r := by
    intro r
    exact (one _ _ _).prodMk (one _ _ _)
  have hφ : ∀ r : ℝ, HasDerivAt (fun r : ℝ => u ((1 - r) * a 0 + r * b 0, (1 - r) * a 1 + r * b 1) -
      (c + G 0 * ((1 - r) * a 0 + r * b 0) + G 1 * ((1 - r) * a 1 + r * b 1)))
      ((b 0 - a 0) * (partialDeriv u 0 ((1 - r) * a 0 + r * b 0, (1 - r) * a 1 + r * b 1) - G 0) +
      (b 1 - a 1) * (partialDeriv u 1 ((1 - r) * a 0 + r * b 0, (1 - r) * a 1 + r * b 1) - G 1)) r := by
    intro r
    have h1 := HasFDerivAt.comp_hasDerivAt r (f := fun r : ℝ =>
      (((1 - r) * a 0 + r * b 0, (1 - r) * a 1 + r * b 1) : ℝ × ℝ)) (l := u) hu.differentiableAt.hasFDerivAt (hγ r)
    rw [fderiv_partial hu.differentiableAt] at h1
    have h2 : HasDerivAt (fun r : ℝ => c + G 0 * ((1 - r) * a 0 + r * b 0) + G 1 * ((1 - r) * a 1 + r * b 1))
        (G 0 * (b 0 - a 0) + G 1 * (b 1 - a 1)) r :=
      (((one r _ _).const_mul (G 0)).const_add c).add ((one r _ _).const_mul (G 1))
    refine (h1.sub h2).congr_deriv ?_
    ring
  have h0 : (fun r : ℝ => u ((1 - r) * a 0 + r * b 0, (1 - r) * a 1 + r * b 1) -
      (c + G 0 * ((1 - r) * a 0 + r * b 0) + G 1 * ((1 - r) * a 1 + r * b 1))) 0 = 0 := by
    simp [ha]
  have h1 : (fun r : ℝ => u ((1 - r) * a 0 + r * b 0, (1 - r) * a 1 + r * b 1) -
      (c + G 0 * ((1 - r) * a 0 + r * b 0) + G 1 * ((1 - r) * a 1 + r * b 1))) 1 = 0 := by
    simp [hb]
  obtain ⟨r, hr, hz⟩ := exists_hasDerivAt_eq_zero (zero_lt_one (α := ℝ))
    (fun r _ => (hφ r).continuousAt.continuousWithinAt) (h0.trans h1.symm) fun r _ => hφ r
  exact ⟨r, hr.1, hr.2, hz⟩

/-- The gradient of the affine function with the values of `u` at the corners. -/
theorem interpolation_gradient {X : ℕ → ℕ → ℝ} (hX : det2 X ≠ 0) {u : ℝ × ℝ → ℝ} (hu : ContDiff ℝ 2 u) {M h : ℝ}
    (hM : ∀ k < 2, ∀ l < 2, ∀ p ∈ triangle X, |partialDeriv (partialDeriv u k) l p| ≤ M)
    (hh : ∀ i < 3, ∀ j < 3, ∀ k < 2, |X i k - X j k| ≤ h) {c : ℝ} {G : ℕ → ℝ}
    (hG : ∀ i < 3, u (X i 0, X i 1) = c + G 0 * X i 0 + G 1 * X i 1) {p : ℝ × ℝ} (hp : p ∈ triangle X) :
    ∀ k < 2, |partialDeriv u k p - G k| ≤ 8 * M * h ^ 3 / |det2 X| := by
  have hu1 : Differentiable ℝ u := hu.differentiable (by simp)
  have hd : ∀ k, Differentiable ℝ (partialDeriv u k) := fun k =>
    (contDiff_partialDeriv (n := 1) (by rw [show (1 : WithTop ℕ∞) + 1 = 2 from one_add_one_eq_two]; exact hu) k).differentiable (by simp)
  have hM0 : 0 ≤ M := (abs_nonneg _).trans (hM 0 (by omega) 0 (by omega) p hp)
  have hh0 : 0 ≤ h := (abs_nonneg _).trans (hh 0 (by omega) 0 (by omega) 0 (by omega))
  have hlip : ∀ k < 2, ∀ q ∈ triangle X, |partialDeriv u k p - partialDeriv u k q| ≤ 2 * M * h :=
    fun k hk q hq => triangle_lipschitz (hd k) (hM k hk) hh hp hq
  have edge : ∀ i, i = 1 ∨ i = 2 → |(X i 0 - X 0 0) * (partialDeriv u 0 p - G 0) +
      (X i 1 - X 0 1) * (partialDeriv u 1 p - G 1)| ≤ 4 * M * h ^ 2 := by
    intro i hi
    have hi3 : i < 3 := by omega
    obtain ⟨r, hr0, hr1, hr⟩ := edge_rolle hu1 (hG 0 (by omega)) (hG i hi3)
    have hq : ((1 - r) * X 0 0 + r * X i 0, (1 - r) * X 0 1 + r * X i 1) ∈ triangle X := by
      rcases hi with rfl | rfl
      · exact ⟨1 - r, r, 0, by linarith, hr0.le, le_rfl, by ring, by simp⟩
      · exact ⟨1 - r, 0, r, by linarith, le_rfl, hr0.le, by ring, by simp⟩
    generalize ((1 - r) * X 0 0 + r * X i 0, (1 - r) * X 0 1 + r * X i 1) = q at hr hq
    have e0 := hlip 0 (by omega) q hq
    have e1 := hlip 1 (by omega) q hq
    have d0 := hh i hi3 0 (by omega) 0 (by omega)
    have d1 := hh i hi3 0 (by omega) 1 (by omega)
    have : (X i 0 - X 0 0) * (partialDeriv u 0 p - G 0) + (X i 1 - X 0 1) * (partialDeriv u 1 p - G 1) =
        (X i 0 - X 0 0) * (partialDeriv u 0 p - partialDeriv u 0 q) +
        (X i 1 - X 0 1) * (partialDeriv u 1 p - partialDeriv u 1 q) := by
      linear_combination hr
    rw [this]
    calc _ ≤ |X i 0 - X 0 0| * |partialDeriv u 0 p - partialDeriv u 0 q| +
          |X i 1 - X 0 1| * |partialDeriv u 1 p - partialDeriv u 1 q| := by
          rw [← abs_mul, ← abs_mul]; exact abs_add_le _ _
      _ ≤ h * (2 * M * h) + h * (2 * M * h) := by gcongr
      _ = 4 * M * h ^ 2 := by ring
  have e1 := edge 1 (Or.inl rfl)
  have e2 := edge 2 (Or.inr rfl)
  have solve : ∀ {x y z A B : ℝ}, |x| ≤ h → |y| ≤ h → |A| ≤ 4 * M * h ^ 2 → |B| ≤ 4 * M * h ^ 2 →
      z * det2 X = x * A - y * B → |z| ≤ 8 * M * h ^ 3 / |det2 X| := by
    intro x y z A B hx hy hA hB hz
    rw [le_div_iff₀ (abs_pos.2 hX), ← abs_mul, hz]
    calc |x * A - y * B| ≤ |x| * |A| + |y| * |B| := by
          rw [← abs_mul, ← abs_mul]; exact abs_sub _ _
      _ ≤ h * (4 * M * h ^ 2) + h * (4 * M * h ^ 2) := by gcongr
      _ = 8 * M * h ^ 3 := by ring
  intro k hk
  interval_cases k
  · refine solve (hh 2 (by omega) 0 (by omega) 1 (by omega)) (hh 1 (by omega) 0 (by omega) 1 (by omega)) e1 e2 ?_
    unfold det2
    ring
  · refine solve (hh 1 (by omega) 0 (by omega) 0 (by omega)) (hh 2 (by omega) 0 (by omega) 0 (by omega)) e2 e1 ?_
    unfold det2
    ring

end Conmech
