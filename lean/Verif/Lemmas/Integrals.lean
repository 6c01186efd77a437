import Mathlib.MeasureTheory.Function.Jacobian
import Mathlib.MeasureTheory.Integral.Prod
import Mathlib.Analysis.SpecialFunctions.Integrals.Basic
import Mathlib.MeasureTheory.Measure.Lebesgue.EqHaar
import Mathlib.LinearAlgebra.Determinant
import Mathlib.LinearAlgebra.Matrix.ToLin
import Verif.Spec.Integrals
/-!
Integrals over triangles.
-/
namespace Conmech
open Spec MeasureTheory

/-- The interior of the reference triangle. -/
def refTriangle : Set (ℝ × ℝ) := {q | 0 < q.1 ∧ 0 < q.2 ∧ q.1 + q.2 < 1}

theorem isOpen_refTriangle : IsOpen refTriangle := by
  have h1 : IsOpen {q : ℝ × ℝ | 0 < q.1} := isOpen_lt continuous_const continuous_fst
  have h2 : IsOpen {q : ℝ × ℝ | 0 < q.2} := isOpen_lt continuous_const continuous_snd
  have h3 : IsOpen {q : ℝ × ℝ | q.1 + q.2 < 1} :=
    isOpen_lt (continuous_fst.add continuous_snd) continuous_const
  exact h1.inter (h2.inter h3)

theorem refTriangle_subset : refTriangle ⊆ Set.Icc 0 1 ×ˢ Set.Icc 0 1 := by
  rintro ⟨s, t⟩ ⟨h1, h2, h3⟩
  simp only at h1 h2 h3
  exact ⟨⟨h1.le, by linarith⟩, ⟨h2.le, by linarith⟩⟩

theorem integrableOn_refTriangle {g : ℝ × ℝ → ℝ} (hg : Continuous g) : IntegrableOn g refTriangle :=
  (hg.continuousOn.integrableOn_compact (isCompact_Icc.prod isCompact_Icc)).mono_set refTriangle_subset

/-- Integrals over the reference triangle are iterated integrals. -/
theorem integral_refTriangle {g : ℝ × ℝ → ℝ} (hg : Continuous g) :
    ∫ q in refTriangle, g q = ∫ s in (0 : ℝ)..1, ∫ t in (0 : ℝ)..(1 - s), g (s, t) := by
  rw [← integral_indicator isOpen_refTriangle.measurableSet, Measure.volume_eq_prod,
    integral_prod _ (by
      rw [← Measure.volume_eq_prod]
      exact (integrable_indicator_iff isOpen_refTriangle.measurableSet).2 (integrableOn_refTriangle hg)),
    intervalIntegral.integral_of_le zero_le_one, ← integral_indicator measurableSet_Ioc]
  refine integral_congr_ae ?_
  have h0 : ∀ᵐ s : ℝ, s ≠ 1 := by simp [ae_iff, measure_singleton]
  filter_upwards [h0] with s hs
  by_cases h : s ∈ Set.Ioc (0 : ℝ) 1
  · rw [Set.indicator_of_mem h, intervalIntegral.integral_of_le (by linarith [h.2]),
      integral_Ioc_eq_integral_Ioo, ← integral_indicator measurableSet_Ioo]
    congr 1
    funext t
    by_cases ht : t ∈ Set.Ioo (0 : ℝ) (1 - s)
    · rw [Set.indicator_of_mem ht, Set.indicator_of_mem]
      exact ⟨h.1, ht.1, by simp only; linarith [ht.2]⟩
    · rw [Set.indicator_of_notMem ht, Set.indicator_of_notMem]
      rintro ⟨-, h2, h3⟩
      simp only at h2 h3
      exact ht ⟨h2, by linarith⟩
  · rw [Set.indicator_of_notMem h]
    refine integral_eq_zero_of_ae (Filter.Eventually.of_forall fun t => ?_)
    refine Set.indicator_of_notMem ?_ _
    rintro ⟨h1, h2, h3⟩
    simp only at h1 h2 h3
    exact h ⟨h1, by linarith⟩

/-- The integral of a polynomial of degree two over the reference triangle. -/
theorem integral_refTriangle_quadratic (c1 cs ct css cst ctt : ℝ) :
    ∫ q in refTriangle, (c1 + cs * q.1 + ct * q.2 + css * q.1 ^ 2 + cst * (q.1 * q.2) + ctt * q.2 ^ 2) =
      c1 / 2 + cs / 6 + ct / 6 + css / 12 + cst / 24 + ctt / 12 := by
  rw [integral_refTriangle (by fun_prop)]
  have inner : ∀ s : ℝ, ∫ t in (0 : ℝ)..(1 - s),
      (c1 + cs * s + ct * t + css * s ^ 2 + cst * (s * t) + ctt * t ^ 2) =
      (c1 + cs * s + css * s ^ 2) * (1 - s) + (ct + cst * s) * ((1 - s) ^ 2 / 2) + ctt * ((1 - s) ^ 3 / 3) := by
    intro s
    have : ∀ t : ℝ, HasDerivAt (fun t : ℝ => (c1 + cs * s + css * s ^ 2) * t + (ct + cst * s) * (t ^ 2 / 2) +
        ctt * (t ^ 3 / 3)) (c1 + cs * s + ct * t + css * s ^ 2 + cst * (s * t) + ctt * t ^ 2) t := by
      intro t
      have h1 := (hasDerivAt_id t).const_mul (c1 + cs * s + css * s ^ 2)
      have h2 := ((hasDerivAt_pow 2 t).div_const 2).const_mul (ct + cst * s)
      have h3 := ((hasDerivAt_pow 3 t).div_const 3).const_mul ctt
      refine ((h1.add h2).add h3).congr_deriv ?_
      push_cast
      ring
    rw [intervalIntegral.integral_eq_sub_of_hasDerivAt (fun t _ => this t)
      (Continuous.intervalIntegrable (by fun_prop) _ _)]
    ring
  simp only [inner]
  have : ∀ s : ℝ, HasDerivAt (fun s : ℝ => (c1 + ct / 2 + ctt / 3) * s + (cs - c1 - ct + cst / 2 - ctt) * (s ^ 2 / 2) +
      (css - cs + ct / 2 - cst + ctt) * (s ^ 3 / 3) + (-css + cst / 2 - ctt / 3) * (s ^ 4 / 4))
      ((c1 + cs * s + css * s ^ 2) * (1 - s) + (ct + cst * s) * ((1 - s) ^ 2 / 2) + ctt * ((1 - s) ^ 3 / 3)) s := by
    intro s
    have h1 := (hasDerivAt_id s).const_mul (c1 + ct / 2 + ctt / 3)
    have h2 := ((hasDerivAt_pow 2 s).div_const 2).const_mul (cs - c1 - ct + cst / 2 - ctt)
    have h3 := ((hasDerivAt_pow 3 s).div_const 3).const_mul (css - cs + ct / 2 - cst + ctt)
    have h4 := ((hasDerivAt_pow 4 s).div_const 4).const_mul (-css + cst / 2 - ctt / 3)
    refine (((h1.add h2).add h3).add h4).congr_deriv ?_
    push_cast
    ring
  rw [intervalIntegral.integral_eq_sub_of_hasDerivAt (fun s _ => this s)
    (Continuous.intervalIntegrable (by fun_prop) _ _)]
  ring

/-- The point of the triangle with the given coordinates in the reference triangle. -/
def place (X : ℕ → ℕ → ℝ) (q : ℝ × ℝ) : ℝ × ℝ :=
  (X 0 0 + (X 1 0 - X 0 0) * q.1 + (X 2 0 - X 0 0) * q.2,
    X 0 1 + (X 1 1 - X 0 1) * q.1 + (X 2 1 - X 0 1) * q.2)

/-- The interior of a triangle. -/
def openTriangle (X : ℕ → ℕ → ℝ) : Set (ℝ × ℝ) := place X '' refTriangle

/-- The linear part of `place`. -/
noncomputable def placeLinear (X : ℕ → ℕ → ℝ) : (ℝ × ℝ) →L[ℝ] (ℝ × ℝ) :=
  (((X 1 0 - X 0 0) • ContinuousLinearMap.fst ℝ ℝ ℝ + (X 2 0 - X 0 0) • ContinuousLinearMap.snd ℝ ℝ ℝ).prod
    ((X 1 1 - X 0 1) • ContinuousLinearMap.fst ℝ ℝ ℝ + (X 2 1 - X 0 1) • ContinuousLinearMap.snd ℝ ℝ ℝ))

theorem place_eq (X : ℕ → ℕ → ℝ) (q : ℝ × ℝ) : place X q = (X 0 0, X 0 1) + placeLinear X q := by
  simp only [place, placeLinear, ContinuousLinearMap.prod_apply, _root_.add_apply,
    _root_.smul_apply, ContinuousLinearMap.coe_fst', ContinuousLinearMap.coe_snd',
    smul_eq_mul, Prod.mk_add_mk]
  ext <;> simp only <;> ring

theorem det_placeLinear (X : ℕ → ℕ → ℝ) : (placeLinear X).det = det2 X := by
  rw [ContinuousLinearMap.det, ← LinearMap.det_toMatrix (Module.Basis.finTwoProd ℝ), Matrix.det_fin_two]
  simp [LinearMap.toMatrix_apply, placeLinear, det2, Module.Basis.finTwoProd]
  ring

theorem hasFDerivAt_place (X : ℕ → ℕ → ℝ) (q : ℝ × ℝ) : HasFDerivAt (place X) (placeLinear X) q := by
  have : place X = fun q => (X 0 0, X 0 1) + placeLinear X q := funext (place_eq X)
  rw [this]
  exact (placeLinear X).hasFDerivAt.const_add _

theorem continuous_place (X : ℕ → ℕ → ℝ) : Continuous (place X) := by
  unfold place
  fun_prop

theorem place_injective {X : ℕ → ℕ → ℝ} (h : det2 X ≠ 0) : Function.Injective (place X) := by
  rintro ⟨s, t⟩ ⟨s', t'⟩ he
  simp only [place, Prod.mk.injEq] at he
  obtain ⟨h1, h2⟩ := he
  unfold det2 at h
  have e1 : ((X 1 0 - X 0 0) * (X 2 1 - X 0 1) - (X 1 1 - X 0 1) * (X 2 0 - X 0 0)) * (s - s') = 0 := by
    linear_combination (X 2 1 - X 0 1) * h1 - (X 2 0 - X 0 0) * h2
  have e2 : ((X 1 0 - X 0 0) * (X 2 1 - X 0 1) - (X 1 1 - X 0 1) * (X 2 0 - X 0 0)) * (t - t') = 0 := by
    linear_combination (X 1 0 - X 0 0) * h2 - (X 1 1 - X 0 1) * h1
  have f1 := (mul_eq_zero.1 e1).resolve_left h
  have f2 := (mul_eq_zero.1 e2).resolve_left h
  exact Prod.ext (by simp only; linarith) (by simp only; linarith)

instance : (volume : Measure (ℝ × ℝ)).IsAddHaarMeasure := by
  rw [Measure.volume_eq_prod]
  infer_instance

/-- Change of variables. -/
theorem integral_openTriangle {X : ℕ → ℕ → ℝ} (h : det2 X ≠ 0) (f : ℝ × ℝ → ℝ) :
    ∫ p in openTriangle X, f p = |det2 X| * ∫ q in refTriangle, f (place X q) := by
  unfold openTriangle
  rw [integral_image_eq_integral_abs_det_fderiv_smul volume isOpen_refTriangle.measurableSet
    (fun q _ => (hasFDerivAt_place X q).hasFDerivWithinAt) (place_injective h).injOn]
  simp only [det_placeLinear, smul_eq_mul]
  rw [integral_const_mul]

/-- The coordinates in the reference triangle. -/
noncomputable def unplace (X : ℕ → ℕ → ℝ) (p : ℝ × ℝ) : ℝ × ℝ :=
  (((p.1 - X 0 0) * (X 2 1 - X 0 1) - (p.2 - X 0 1) * (X 2 0 - X 0 0)) / det2 X,
    ((X 1 0 - X 0 0) * (p.2 - X 0 1) - (X 1 1 - X 0 1) * (p.1 - X 0 0)) / det2 X)

theorem place_unplace {X : ℕ → ℕ → ℝ} (h : det2 X ≠ 0) (p : ℝ × ℝ) : place X (unplace X p) = p := by
  unfold place unplace
  ext
  · simp only
    field_simp
    unfold det2
    ring
  · simp only
    field_simp
    unfold det2
    ring

theorem unplace_place {X : ℕ → ℕ → ℝ} (h : det2 X ≠ 0) (q : ℝ × ℝ) : unplace X (place X q) = q :=
  place_injective h (place_unplace h _)

theorem continuous_unplace (X : ℕ → ℕ → ℝ) : Continuous (unplace X) := by
  unfold unplace
  fun_prop

theorem isOpen_openTriangle {X : ℕ → ℕ → ℝ} (h : det2 X ≠ 0) : IsOpen (openTriangle X) := by
  unfold openTriangle
  rw [Set.image_eq_preimage_of_inverse (unplace_place h) (place_unplace h)]
  exact isOpen_refTriangle.preimage (continuous_unplace X)

/-- The closed reference triangle. -/
def closedRef : Set (ℝ × ℝ) := {q | 0 ≤ q.1 ∧ 0 ≤ q.2 ∧ q.1 + q.2 ≤ 1}

theorem triangle_eq (X : ℕ → ℕ → ℝ) : triangle X = place X '' closedRef := by
  ext p
  constructor
  · rintro ⟨a, b, c, ha, hb, hc, hs, rfl⟩
    refine ⟨(b, c), ⟨hb, hc, by simp only; linarith⟩, ?_⟩
    have : a = 1 - b - c := by linarith
    subst this
    unfold place
    ext <;> simp only <;> ring
  · rintro ⟨⟨s, t⟩, ⟨h1, h2, h3⟩, rfl⟩
    simp only at h1 h2 h3
    refine ⟨1 - s - t, s, t, by linarith, h1, h2, by ring, ?_⟩
    unfold place
    ext <;> simp only <;> ring

theorem isClosed_closedRef : IsClosed closedRef := by
  have h1 : IsClosed {q : ℝ × ℝ | 0 ≤ q.1} := isClosed_le continuous_const continuous_fst
  have h2 : IsClosed {q : ℝ × ℝ | 0 ≤ q.2} := isClosed_le continuous_const continuous_snd
  have h3 : IsClosed {q : ℝ × ℝ | q.1 + q.2 ≤ 1} :=
    isClosed_le (continuous_fst.add continuous_snd) continuous_const
  exact h1.inter (h2.inter h3)

theorem isCompact_closedRef : IsCompact closedRef := by
  refine (isCompact_Icc.prod isCompact_Icc : IsCompact (Set.Icc (0 : ℝ) 1 ×ˢ Set.Icc (0 : ℝ) 1)).of_isClosed_subset
    isClosed_closedRef ?_
  rintro ⟨s, t⟩ ⟨h1, h2, h3⟩
  simp only at h1 h2 h3
  exact ⟨⟨h1, by linarith⟩, ⟨h2, by linarith⟩⟩

theorem isCompact_triangle (X : ℕ → ℕ → ℝ) : IsCompact (triangle X) := by
  rw [triangle_eq]
  exact isCompact_closedRef.image (continuous_place X)

theorem refTriangle_subset_closedRef : refTriangle ⊆ closedRef := fun _ h => ⟨h.1.le, h.2.1.le, h.2.2.le⟩

theorem openTriangle_subset (X : ℕ → ℕ → ℝ) : openTriangle X ⊆ triangle X := by
  rw [triangle_eq]
  exact Set.image_mono refTriangle_subset_closedRef

theorem openTriangle_subset_interior {X : ℕ → ℕ → ℝ} (h : det2 X ≠ 0) :
    openTriangle X ⊆ interior (triangle X) :=
  interior_maximal (openTriangle_subset X) (isOpen_openTriangle h)

theorem volume_ref_boundary : volume (closedRef \ refTriangle) = 0 := by
  rw [Measure.volume_eq_prod]
  refine Measure.measure_prod_null_of_ae_null
    (isClosed_closedRef.measurableSet.diff isOpen_refTriangle.measurableSet) ?_
  have h0 : ∀ᵐ s : ℝ, s ≠ 0 := by simp [ae_iff, measure_singleton]
  filter_upwards [h0] with s hs
  refine measure_mono_null (t := {0, 1 - s}) ?_ (Set.Finite.measure_zero (by simp) _)
  rintro t ⟨⟨h1, h2, h3⟩, h4⟩
  simp only at h1 h2 h3
  by_contra h
  simp only [Set.mem_insert_iff, Set.mem_singleton_iff, not_or] at h
  refine h4 ⟨lt_of_le_of_ne h1 (Ne.symm hs), lt_of_le_of_ne h2 (Ne.symm h.1), lt_of_le_of_ne h3 fun he => h.2 ?_⟩
  simp only at he
  linarith

/-- The boundary of a triangle has no area. -/
theorem triangle_ae (X : ℕ → ℕ → ℝ) : triangle X =ᵐ[MeasureTheory.volume] openTriangle X := by
  refine (ae_eq_set.2 ⟨?_, by rw [Set.sdiff_eq_empty.2 (openTriangle_subset X), measure_empty]⟩)
  have h : triangle X \ openTriangle X ⊆ place X '' (closedRef \ refTriangle) := by
    rw [triangle_eq]
    rintro p ⟨⟨q, hq, rfl⟩, h⟩
    exact ⟨q, ⟨hq, fun h' => h ⟨q, h', rfl⟩⟩, rfl⟩
  refine measure_mono_null h (addHaar_image_eq_zero_of_differentiableOn_of_addHaar_eq_zero volume
    (fun q _ => (hasFDerivAt_place X q).differentiableAt.differentiableWithinAt) volume_ref_boundary)

theorem integral_triangle {X : ℕ → ℕ → ℝ} (h : det2 X ≠ 0) (f : ℝ × ℝ → ℝ) :
    ∫ p in triangle X, f p = |det2 X| * ∫ q in refTriangle, f (place X q) := by
  rw [setIntegral_congr_set (triangle_ae X), integral_openTriangle h]

/-- An affine function in the coordinates of the reference triangle. -/
theorem affine_place (X : ℕ → ℕ → ℝ) (c g h : ℝ) (q : ℝ × ℝ) :
    c + g * (place X q).1 + h * (place X q).2 = (c + g * X 0 0 + h * X 0 1) +
      ((c + g * X 1 0 + h * X 1 1) - (c + g * X 0 0 + h * X 0 1)) * q.1 +
      ((c + g * X 2 0 + h * X 2 1) - (c + g * X 0 0 + h * X 0 1)) * q.2 := by
  simp only [place]
  ring

/-- The integral of the product of two affine functions with the given values at the corners. -/
theorem integral_product {X : ℕ → ℕ → ℝ} (hX : det2 X ≠ 0) {c g h c' g' h' : ℝ} {v w : ℕ → ℝ}
    (hv : ∀ i < 3, v i = c + g * X i 0 + h * X i 1) (hw : ∀ i < 3, w i = c' + g' * X i 0 + h' * X i 1) :
    ∫ p in triangle X, (c + g * p.1 + h * p.2) * (c' + g' * p.1 + h' * p.2) =
      area X / 12 * ((v 0 + v 1 + v 2) * (w 0 + w 1 + w 2) + (v 0 * w 0 + v 1 * w 1 + v 2 * w 2)) := by
  rw [integral_triangle hX]
  simp only [affine_place]
  rw [← hv 0 (by omega), ← hv 1 (by omega), ← hv 2 (by omega), ← hw 0 (by omega), ← hw 1 (by omega),
    ← hw 2 (by omega)]
  have := integral_refTriangle_quadratic (v 0 * w 0) (v 0 * (w 1 - w 0) + (v 1 - v 0) * w 0)
    (v 0 * (w 2 - w 0) + (v 2 - v 0) * w 0) ((v 1 - v 0) * (w 1 - w 0))
    ((v 1 - v 0) * (w 2 - w 0) + (v 2 - v 0) * (w 1 - w 0)) ((v 2 - v 0) * (w 2 - w 0))
  rw [integral_congr_ae (g := fun q : ℝ × ℝ => v 0 * w 0 + (v 0 * (w 1 - w 0) + (v 1 - v 0) * w 0) * q.1 +
    (v 0 * (w 2 - w 0) + (v 2 - v 0) * w 0) * q.2 + (v 1 - v 0) * (w 1 - w 0) * q.1 ^ 2 +
    ((v 1 - v 0) * (w 2 - w 0) + (v 2 - v 0) * (w 1 - w 0)) * (q.1 * q.2) +
    (v 2 - v 0) * (w 2 - w 0) * q.2 ^ 2) (Filter.Eventually.of_forall fun q => by beta_reduce; ring), this]
  unfold area
  ring

/-- The integral of an affine function. -/
theorem integral_affine {X : ℕ → ℕ → ℝ} (hX : det2 X ≠ 0) {c g h : ℝ} {v : ℕ → ℝ}
    (hv : ∀ i < 3, v i = c + g * X i 0 + h * X i 1) :
    ∫ p in triangle X, (c + g * p.1 + h * p.2) = area X * ((v 0 + v 1 + v 2) / 3) := by
  have := integral_product hX (c' := 1) (g' := 0) (h' := 0) hv (w := fun _ => 1) (by simp)
  simp only [zero_mul, add_zero, mul_one] at this
  rw [this]
  ring

theorem integral_constant {X : ℕ → ℕ → ℝ} (hX : det2 X ≠ 0) (c : ℝ) : ∫ _p in triangle X, c = area X * c := by
  have := integral_affine hX (c := c) (g := 0) (h := 0) (v := fun _ => c) (by simp)
  simp only [zero_mul, add_zero] at this
  rw [this]
  ring

theorem volume_triangle {X : ℕ → ℕ → ℝ} (hX : det2 X ≠ 0) : volume (triangle X) = ENNReal.ofReal (area X) := by
  have h := integral_constant hX 1
  rw [setIntegral_const, smul_eq_mul, mul_one, mul_one] at h
  rw [← h, Measure.real, ENNReal.ofReal_toReal (isCompact_triangle X).measure_lt_top.ne]

section
variable {nodes : ℕ → ℕ → ℝ} {elements : List (List ℕ)}

theorem getD_mem_eq {t : ℕ} (ht : t < elements.length) : elements.getD t [] = elements[t] := by
  simp [List.getD, ht]

theorem det2_getD (hn : Nondegenerate2 elements nodes) {t : ℕ} (ht : t < elements.length) :
    det2 (vertices nodes (elements.getD t [])) ≠ 0 := by
  rw [getD_mem_eq ht]
  exact hn _ (List.getElem_mem ht)

theorem strictlyInside_of_mem {X : ℕ → ℕ → ℝ} {p : ℝ × ℝ} (h : p ∈ openTriangle X) :
    StrictlyInside 2 X fun k => if k = 0 then p.1 else p.2 := by
  obtain ⟨⟨s, t⟩, ⟨h1, h2, h3⟩, rfl⟩ := h
  simp only at h1 h2 h3
  refine ⟨fun i => if i = 0 then 1 - s - t else if i = 1 then s else t, fun i hi => ?_, ?_, fun k hk => ?_⟩
  · beta_reduce
    split_ifs <;> linarith
  · simp [Finset.sum_range_succ]
    ring
  · interval_cases k <;> simp [Finset.sum_range_succ, place] <;> ring

theorem disjoint_triangles (ho : NonOverlapping 2 elements nodes) :
    Set.Pairwise (↑(Finset.range elements.length)) (Function.onFun Disjoint fun t =>
      openTriangle (vertices nodes (elements.getD t []))) := by
  intro t ht t' ht' hne
  simp only [Finset.coe_range, Set.mem_Iio] at ht ht'
  refine Set.disjoint_left.2 fun p hp hp' => ?_
  exact ho t ht t' ht' hne _ (strictlyInside_of_mem hp) (strictlyInside_of_mem hp')

theorem body_eq (nodes : ℕ → ℕ → ℝ) (elements : List (List ℕ)) : body nodes elements =
    ⋃ t ∈ Finset.range elements.length, triangle (vertices nodes (elements.getD t [])) := by
  ext p
  simp only [body, Set.mem_ofPred_eq, Set.mem_iUnion, Finset.mem_range, exists_prop]
  constructor
  · rintro ⟨e, he, hp⟩
    obtain ⟨t, ht, rfl⟩ := List.mem_iff_getElem.1 he
    exact ⟨t, ht, by rwa [getD_mem_eq ht]⟩
  · rintro ⟨t, ht, hp⟩
    rw [getD_mem_eq ht] at hp
    exact ⟨_, List.getElem_mem ht, hp⟩

theorem body_ae (nodes : ℕ → ℕ → ℝ) (elements : List (List ℕ)) : body nodes elements =ᵐ[MeasureTheory.volume]
    ⋃ t ∈ Finset.range elements.length, openTriangle (vertices nodes (elements.getD t [])) := by
  rw [body_eq]
  exact Filter.EventuallyEq.countable_bUnion (S := (↑(Finset.range elements.length) : Set ℕ))
    (Set.to_countable _) fun t _ => triangle_ae _

/-- The integral over the body is the sum of the integrals over the triangles. -/
theorem integral_body (hn : Nondegenerate2 elements nodes) (ho : NonOverlapping 2 elements nodes)
    {f : ℝ × ℝ → ℝ} (hf : ∀ t < elements.length, IntegrableOn f (openTriangle (vertices nodes (elements.getD t [])))) :
    ∫ p in body nodes elements, f p =
      ∑ t ∈ Finset.range elements.length, ∫ p in openTriangle (vertices nodes (elements.getD t [])), f p := by
  rw [setIntegral_congr_set (body_ae nodes elements),
    integral_biUnion_finset _ (fun t ht => (isOpen_openTriangle (det2_getD hn (Finset.mem_range.1 ht))).measurableSet)
      (disjoint_triangles ho) fun t ht => hf t (Finset.mem_range.1 ht)]

/-- The integral over the body of a function that is continuous on each triangle. -/
theorem integral_body_pieces (hn : Nondegenerate2 elements nodes) (ho : NonOverlapping 2 elements nodes)
    {f : ℝ × ℝ → ℝ} {g : ℕ → ℝ × ℝ → ℝ} (hg : ∀ t < elements.length, Continuous (g t))
    (hf : ∀ t < elements.length, ∀ p ∈ openTriangle (vertices nodes (elements.getD t [])), f p = g t p) :
    ∫ p in body nodes elements, f p =
      sumElements elements fun t e => ∫ p in triangle (vertices nodes e), g t p := by
  have hm : ∀ t < elements.length, MeasurableSet (openTriangle (vertices nodes (elements.getD t []))) :=
    fun t ht => (isOpen_openTriangle (det2_getD hn ht)).measurableSet
  rw [integral_body hn ho]
  · refine Finset.sum_congr rfl fun t ht => ?_
    have ht := Finset.mem_range.1 ht
    show _ = ∫ p in triangle _, g t p
    rw [setIntegral_congr_set (triangle_ae _)]
    exact setIntegral_congr_fun (hm t ht) fun p hp => hf t ht p hp
  · intro t ht
    refine IntegrableOn.congr_fun ?_ (fun p hp => (hf t ht p hp).symm) (hm t ht)
    exact ((hg t ht).continuousOn.integrableOn_compact (isCompact_triangle _)).mono_set (openTriangle_subset _)

end

end Conmech
