import Verif.Props.Integrals
import Verif.Props.NestedMeshes
/-!
C108 on generated meshes: the body is the rectangle.
-/
namespace Conmech
open Spec MeasureTheory

section
variable {nodes : ℕ → ℕ → ℝ} {elements : List (List ℕ)}

/-- The area of the body. -/
theorem volume_body (hn : Nondegenerate2 elements nodes) (ho : NonOverlapping 2 elements nodes) :
    MeasureTheory.volume (body nodes elements) =
      ENNReal.ofReal (sumElements elements fun _ e => area (vertices nodes e)) := by
  have hpos : ∀ t, 0 ≤ area (vertices nodes (elements.getD t [])) := fun t => by unfold area; positivity
  rw [measure_congr (body_ae nodes elements), measure_biUnion_finset (disjoint_triangles ho)
    fun t ht => (isOpen_openTriangle (det2_getD hn (Finset.mem_range.1 ht))).measurableSet]
  unfold sumElements
  rw [ENNReal.ofReal_sum_of_nonneg fun t _ => hpos t]
  refine Finset.sum_congr rfl fun t ht => ?_
  rw [← measure_congr (triangle_ae _), volume_triangle (det2_getD hn (Finset.mem_range.1 ht))]

/-- The closed rectangle. -/
def Spec.rectangle (width height : ℝ) : Set (ℝ × ℝ) := Set.Icc 0 width ×ˢ Set.Icc 0 height

theorem volume_rectangle {width height : ℝ} (hw : 0 ≤ width) :
    MeasureTheory.volume (rectangle width height) = ENNReal.ofReal (width * height) := by
  unfold rectangle
  rw [Measure.volume_eq_prod, Measure.prod_prod, Real.volume_Icc, Real.volume_Icc, sub_zero, sub_zero,
    ENNReal.ofReal_mul hw]

theorem body_subset {width height : ℝ} (h : ∀ e ∈ elements, ∀ i < 3,
    0 ≤ vertices nodes e i 0 ∧ vertices nodes e i 0 ≤ width ∧ 0 ≤ vertices nodes e i 1 ∧
      vertices nodes e i 1 ≤ height) : body nodes elements ⊆ rectangle width height := by
  rintro p ⟨e, he, a, b, c, ha, hb, hc, hs, rfl⟩
  obtain ⟨x1, x2, x3, x4⟩ := h e he 0 (by omega)
  obtain ⟨y1, y2, y3, y4⟩ := h e he 1 (by omega)
  obtain ⟨z1, z2, z3, z4⟩ := h e he 2 (by omega)
  have key : ∀ x y z m : ℝ, x ≤ m → y ≤ m → z ≤ m → a * x + b * y + c * z ≤ m := by
    intro x y z m h1 h2 h3
    have := mul_le_mul_of_nonneg_left h1 ha
    have := mul_le_mul_of_nonneg_left h2 hb
    have := mul_le_mul_of_nonneg_left h3 hc
    have e : m = a * m + b * m + c * m := by rw [← add_mul, ← add_mul, hs, one_mul]
    linarith
  exact ⟨⟨by positivity, key _ _ _ _ x2 y2 z2⟩, ⟨by positivity, key _ _ _ _ x4 y4 z4⟩⟩

variable [Inhabited (ℝ × ℝ)]

/-- The nodes of a generated mesh lie in the rectangle. -/
theorem nodes_in_rectangle {perimeter width height : ℝ}
    (hp : 0 < perimeter) (hw : 0 < width) (hh : 0 < height) (htol : 1 / 10000 ≤ perimeter / 2)
    (hw' : 1 / 10000 ≤ width) (hh' : 1 / 10000 ≤ height) {nodes : List (ℝ × ℝ)}
    {elements : List (ℕ × ℕ × ℕ)} (hm : crossMesh perimeter width height = some (nodes, elements))
    (isContact isDirichlet : ℝ × ℝ → Bool) :
    let m := identifyBoundaries centre nodes (elementRows elements) isContact isDirichlet
    ∀ e ∈ m.elements, ∀ i < 3, 0 ≤ vertices (coordinates m.nodes) e i 0 ∧
      vertices (coordinates m.nodes) e i 0 ≤ width ∧ 0 ≤ vertices (coordinates m.nodes) e i 1 ∧
      vertices (coordinates m.nodes) e i 1 ≤ height := by
  intro m e he i hi
  obtain ⟨ρ, h⟩ := generated hp hw hh htol hw' hh' hm isContact isDirichlet
  have hlt := getD_lt h.valid he hi
  obtain ⟨g, hg, hgi⟩ := h.grid.onto _ hlt
  have := h.grid.at_grid g hg
  rw [hgi] at this
  have hval : m.nodes.getD (e.getD i 0) (0, 0) =
      halfPoint (width / ⌈width / perimeter⌉₊) (height / ⌈height / perimeter⌉₊) g := by
    rw [List.getD_eq_getElem?_getD, this]
    rfl
  simp only [vertices, coordinates, hval, halfPoint]
  have x0 : (0 : ℝ) < ⌈width / perimeter⌉₊ := by exact_mod_cast h.sx_pos
  have y0 : (0 : ℝ) < ⌈height / perimeter⌉₊ := by exact_mod_cast h.sy_pos
  have g1 : (g.1 : ℝ) ≤ 2 * ⌈width / perimeter⌉₊ := by exact_mod_cast hg.1
  have g2 : (g.2 : ℝ) ≤ 2 * ⌈height / perimeter⌉₊ := by exact_mod_cast hg.2.1
  simp only [if_true, one_ne_zero, if_false]
  refine ⟨by positivity, ?_, by positivity, ?_⟩
  · rw [← mul_div_assoc, div_le_iff₀ x0]
    nlinarith
  · rw [← mul_div_assoc, div_le_iff₀ y0]
    nlinarith

/-- C108: the triangles of a generated rectangle make up the rectangle, up to a set without area. So all
integrals over the body are integrals over the rectangle.

Missing: perimeters and rectangles smaller than the tolerance 1e-4 of the mesh generator (see C52). -/
theorem C108_rectangle_partial {perimeter width height : ℝ}
    (hp : 0 < perimeter) (hw : 0 < width) (hh : 0 < height) (htol : 1 / 10000 ≤ perimeter / 2)
    (hw' : 1 / 10000 ≤ width) (hh' : 1 / 10000 ≤ height) {nodes : List (ℝ × ℝ)}
    {elements : List (ℕ × ℕ × ℕ)} (hm : crossMesh perimeter width height = some (nodes, elements))
    (isContact isDirichlet : ℝ × ℝ → Bool) :
    let m := identifyBoundaries centre nodes (elementRows elements) isContact isDirichlet
    body (coordinates m.nodes) m.elements =ᵐ[MeasureTheory.volume] rectangle width height ∧
    ∀ f : ℝ × ℝ → ℝ, ∫ p in body (coordinates m.nodes) m.elements, f p = ∫ p in rectangle width height, f p := by
  intro m
  have hA := crossMesh_area hp hw hh htol hw' hh' hm centre isContact isDirichlet
  obtain ⟨⟨-, hn, ho⟩, -⟩ := C86_generated hp hw hh htol hw' hh' hm centre isContact isDirichlet
  have hsub := body_subset (nodes_in_rectangle hp hw hh htol hw' hh' hm isContact isDirichlet)
  have hb : MeasurableSet (body (coordinates m.nodes) m.elements) := by
    rw [body_eq]
    exact Finset.measurableSet_biUnion _ fun t _ => (isCompact_triangle _).measurableSet
  have hae : body (coordinates m.nodes) m.elements =ᵐ[MeasureTheory.volume] rectangle width height := by
    refine ae_eq_of_subset_of_measure_ge hsub ?_ hb.nullMeasurableSet ?_
    · rw [volume_rectangle hw.le, volume_body hn ho]
      exact le_of_eq (congrArg _ hA.symm)
    · rw [volume_rectangle hw.le]
      exact ENNReal.ofReal_ne_top
  exact ⟨hae, fun f => setIntegral_congr_set hae⟩

end
end Conmech
