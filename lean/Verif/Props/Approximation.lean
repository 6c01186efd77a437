import Verif.Lemmas.Flow
import Verif.Lemmas.Interpolation
import Verif.Props.Integrals
import Verif.Props.RectangleIntegrals
/-!
C109, C110: solutions on a mesh against exact solutions of the boundary value problems.
-/
namespace Conmech
open Spec MeasureTheory

/-- `T` is the temperature which `PoissonSolver.solve` returns for a problem on the mesh with the heat
`c` per area, the heat `q` per length of the loaded sides and the temperatures `g` of the supported
nodes; `f` are the loads of the nodes. -/
def Spec.PoissonWith (sqrt : ℝ → ℝ) (m : SupportedMesh ℝ) (k c q : ℝ) (g f T : ℕ → ℝ) : Prop :=
  ∃ e : Engine ℝ, e.ops.nodesCount = m.count ∧
    e.ops.poisson = poissonMatrix 2 (basicMatrices2 m.elements m.nodes).W k ∧
    e.ops.bodyTemperature 0 = f ∧
    integrateForces sqrt 2 m.count (basicMatrices2 m.elements m.nodes).volumeAtNodes m.sides m.nodes
      (fun _ _ => c) (fun _ _ => q) = some f ∧
    PoissonResult e (fun r => r < m.count ∧ m.supported r) g T

/-- `u` is the displacement which `StaticSolver.solve` returns for a problem on the mesh with the force
`c` per area, the force `q` per length of the loaded sides and the displacements `g` of the supported
nodes; `f` are the loads of the nodes. -/
def Spec.StaticWith (sqrt : ℝ → ℝ) (m : SupportedMesh ℝ) (mu lam : ℝ) (c q g f u : ℕ → ℝ) : Prop :=
  ∃ e : Engine ℝ, PlaneBody e m.count m.elements m.nodes mu lam ∧ e.ops.force 0 = f ∧
    integrateForces sqrt 2 m.count (basicMatrices2 m.elements m.nodes).volumeAtNodes m.sides m.nodes
      (fun _ => c) (fun _ => q) = some f ∧
    StaticResult e (fun r => r < 2 * m.count ∧ m.supported (r % m.count)) g u

section
variable {m : SupportedMesh ℝ} {nodes : ℕ → ℕ → ℝ} {elements : List (List ℕ)}

/-- Integrals over the triangles of a square that is multiplied out. -/
theorem sumElements_square {g₁ g₂ g₃ g₄ : ℕ → ℝ × ℝ → ℝ} (h2 : ∀ t < elements.length, Continuous (g₂ t))
    (h3 : ∀ t < elements.length, Continuous (g₃ t)) (h4 : ∀ t < elements.length, Continuous (g₄ t))
    (h : ∀ t p, g₁ t p = g₂ t p + g₃ t p + 2 * g₄ t p) :
    (sumElements elements fun t e => ∫ p in triangle (vertices nodes e), g₁ t p) =
      (sumElements elements fun t e => ∫ p in triangle (vertices nodes e), g₂ t p) +
      (sumElements elements fun t e => ∫ p in triangle (vertices nodes e), g₃ t p) +
      2 * sumElements elements fun t e => ∫ p in triangle (vertices nodes e), g₄ t p := by
  rw [← sumElements_mul, ← sumElements_add, ← sumElements_add]
  refine sumElements_congr fun t ht => ?_
  have hint : ∀ f : ℝ × ℝ → ℝ, Continuous f → IntegrableOn f (triangle (vertices nodes (elements.getD t []))) :=
    fun f hf => hf.continuousOn.integrableOn_compact (isCompact_triangle _)
  rw [← integral_const_mul, ← integral_add (hint _ (h2 t ht)) (hint _ (h3 t ht)),
    ← integral_add (hint (fun p => g₂ t p + g₃ t p) ((h2 t ht).add (h3 t ht)))
      (hint (fun p => 2 * g₄ t p) (continuous_const.mul (h4 t ht)))]
  simp only [h]

theorem bilin_form (n : ℕ) (A : ℕ → ℕ → ℝ) (x y : ℕ → ℝ) : bilin n A x y = form n n A x y := by
  unfold bilin form
  refine Finset.sum_congr rfl fun r _ => ?_
  rw [Finset.mul_sum]
  exact Finset.sum_congr rfl fun s _ => by ring

theorem continuous_partial {u : ℝ × ℝ → ℝ} (hu : ContDiff ℝ 2 u) (k : ℕ) : Continuous (partialDeriv u k) :=
  (contDiff_partialDeriv (n := 1) (by rw [show (1 : WithTop ℕ∞) + 1 = 2 from one_add_one_eq_two]; exact hu)
    k).continuous

/-- C109: let `u` be a temperature whose flow of heat `k² ∇u` is balanced by the constant sources and
boundary sources of the problem. The temperature computed on a mesh, with the values of `u` at the
supported nodes, is the best approximation: the distance of the gradients of `u` and of any other
piecewise affine function with the same values at the supported nodes is larger, by the distance of that
function from the computed one. -/
theorem C109_best (hm : m.Good) (ho : NonOverlapping 2 m.elements m.nodes) (hb : LoadsBoundary m)
    {sqrt : ℝ → ℝ} (hs : IsSqrt sqrt) (k c q : ℝ) {u : ℝ × ℝ → ℝ} (hu : ContDiff ℝ 2 u)
    (hflow : Flow m (fun i p => k ^ 2 * partialDeriv u i p) c q) {g f T : ℕ → ℝ}
    (hT : PoissonWith sqrt m k c q g f T)
    (hg : ∀ p < m.count, m.supported p → g p = u (m.nodes p 0, m.nodes p 1)) {y : ℕ → ℝ}
    (hy : ∀ p < m.count, m.supported p → y p = u (m.nodes p 0, m.nodes p 1)) {Th v : ℝ × ℝ → ℝ}
    (hTh : Interpolates m.nodes m.elements T Th) (hv : Interpolates m.nodes m.elements y v) :
    ∫ p in body m.nodes m.elements, k ^ 2 * ((partialDeriv u 0 p - partialDeriv v 0 p) ^ 2 +
        (partialDeriv u 1 p - partialDeriv v 1 p) ^ 2) =
      (∫ p in body m.nodes m.elements, k ^ 2 * ((partialDeriv u 0 p - partialDeriv Th 0 p) ^ 2 +
        (partialDeriv u 1 p - partialDeriv Th 1 p) ^ 2)) +
      ∫ p in body m.nodes m.elements, k ^ 2 * ((partialDeriv Th 0 p - partialDeriv v 0 p) ^ 2 +
        (partialDeriv Th 1 p - partialDeriv v 1 p) ^ 2) := by
  have hn := hm.nondegenerate
  obtain ⟨c₁, G₁, hG₁, h₁⟩ := hTh.data hn
  obtain ⟨c₂, G₂, hG₂, h₂⟩ := hv.data hn
  have d0 := continuous_partial hu 0
  have d1 := continuous_partial hu 1
  rw [integral_body_pieces hn ho
      (g := fun t p => k ^ 2 * ((partialDeriv u 0 p - G₂ t 0) ^ 2 + (partialDeriv u 1 p - G₂ t 1) ^ 2))
      (fun t _ => by fun_prop) fun t ht p hp => by
        rw [((h₂ t ht).2 p hp).2 0 (by omega), ((h₂ t ht).2 p hp).2 1 (by omega)],
    integral_body_pieces hn ho
      (g := fun t p => k ^ 2 * ((partialDeriv u 0 p - G₁ t 0) ^ 2 + (partialDeriv u 1 p - G₁ t 1) ^ 2))
      (fun t _ => by fun_prop) fun t ht p hp => by
        rw [((h₁ t ht).2 p hp).2 0 (by omega), ((h₁ t ht).2 p hp).2 1 (by omega)],
    integral_body_pieces hn ho (g := fun t _ => k ^ 2 * ((G₁ t 0 - G₂ t 0) ^ 2 + (G₁ t 1 - G₂ t 1) ^ 2))
      (fun t _ => by fun_prop) fun t ht p hp => by
        rw [((h₁ t ht).2 p hp).2 0 (by omega), ((h₁ t ht).2 p hp).2 1 (by omega),
          ((h₂ t ht).2 p hp).2 0 (by omega), ((h₂ t ht).2 p hp).2 1 (by omega)],
    sumElements_square (g₂ := fun t p => k ^ 2 * ((partialDeriv u 0 p - G₁ t 0) ^ 2 +
        (partialDeriv u 1 p - G₁ t 1) ^ 2))
      (g₃ := fun t _ => k ^ 2 * ((G₁ t 0 - G₂ t 0) ^ 2 + (G₁ t 1 - G₂ t 1) ^ 2))
      (g₄ := fun t p => k ^ 2 * ((partialDeriv u 0 p - G₁ t 0) * (G₁ t 0 - G₂ t 0) +
        (partialDeriv u 1 p - G₁ t 1) * (G₁ t 1 - G₂ t 1)))
      (fun t _ => by fun_prop) (fun t _ => by fun_prop) (fun t _ => by fun_prop) fun t p => by ring]
  refine add_eq_left.2 (mul_eq_zero_of_right _ ?_)
  -- the difference of the two piecewise affine functions
  obtain ⟨e, hN, hP, rfl, hf, hres⟩ := hT
  have eq := poisson_equilibrium hres
  rw [hN, hP] at eq
  let z : ℕ → ℝ := fun p => T p - y p
  have hz0 : ∀ p < m.count, m.supported p → z p = 0 := fun p hp hS => by
    simp only [z]
    rw [eq.values p hp ⟨hp, hS⟩, hg p hp hS, hy p hp hS, sub_self]
  have hz : ∀ t < m.elements.length, ∀ i < 3, valuesOn (m.elements.getD t []) z i = (c₁ t - c₂ t) +
      (G₁ t 0 - G₂ t 0) * vertices m.nodes (m.elements.getD t []) i 0 +
      (G₁ t 1 - G₂ t 1) * vertices m.nodes (m.elements.getD t []) i 1 := by
    intro t ht i hi
    have e1 := (h₁ t ht).1 i hi
    have e2 := (h₂ t ht).1 i hi
    simp only [valuesOn, z] at e1 e2 ⊢
    rw [e1, e2]
    ring
  have hweak := hflow.weak hm ho hb hs hz0 (d := fun t => c₁ t - c₂ t) (G := fun t k => G₁ t k - G₂ t k) hz
  have hwork := integrated_coordinate hm.valid hn hm.sides hf 0 z
  simp only [Nat.zero_mul, Nat.zero_add] at hwork
  rw [← hwork] at hweak
  have hbal := eq.work_eq (v := z) fun r hr hD => hz0 r hr hD.2
  have hGz : FieldGradient 2 m.elements m.nodes z fun t k => G₁ t k - G₂ t k := by
    intro t ht
    refine ⟨c₁ t - c₂ t, fun i hi => ?_⟩
    rw [hz t ht i hi, Finset.sum_range_succ, Finset.sum_range_one]
    ring
  have hform : bilin m.count (poissonMatrix 2 (basicMatrices2 m.elements m.nodes).W k) z T =
      sumElements m.elements fun t e => area (vertices m.nodes e) *
        (k ^ 2 * (G₁ t 0 * (G₁ t 0 - G₂ t 0) + G₁ t 1 * (G₁ t 1 - G₂ t 1))) := by
    rw [bilin_form, form_poisson, Finset.sum_range_succ, Finset.sum_range_one]
    refine (congrArg₂ (fun a b => k ^ 2 * (a + b)) (form_stiff (k := 0) (l := 0) hm.valid (Plane.allLocal hn)
      (by omega) (by omega) hGz hG₁) (form_stiff (k := 1) (l := 1) hm.valid (Plane.allLocal hn)
      (by omega) (by omega) hGz hG₁)).trans ?_
    beta_reduce
    rw [← sumElements_add, ← sumElements_mul]
    exact sumElements_congr fun t ht => by ring
  unfold work at hbal
  rw [hbal, hform] at hweak
  have : (sumElements m.elements fun t e => ∫ p in triangle (vertices m.nodes e),
      k ^ 2 * ((partialDeriv u 0 p - G₁ t 0) * (G₁ t 0 - G₂ t 0) +
        (partialDeriv u 1 p - G₁ t 1) * (G₁ t 1 - G₂ t 1))) =
      (sumElements m.elements fun t e => ∫ p in triangle (vertices m.nodes e),
        (k ^ 2 * partialDeriv u 0 p * (G₁ t 0 - G₂ t 0) + k ^ 2 * partialDeriv u 1 p * (G₁ t 1 - G₂ t 1))) -
      sumElements m.elements fun t e => area (vertices m.nodes e) *
        (k ^ 2 * (G₁ t 0 * (G₁ t 0 - G₂ t 0) + G₁ t 1 * (G₁ t 1 - G₂ t 1))) := by
    unfold sumElements
    rw [← Finset.sum_sub_distrib]
    refine Finset.sum_congr rfl fun t ht => ?_
    have hd := det2_getD hn (Finset.mem_range.1 ht)
    have hint : ∀ f : ℝ × ℝ → ℝ, Continuous f →
        IntegrableOn f (triangle (vertices m.nodes (m.elements.getD t []))) :=
      fun f hf => hf.continuousOn.integrableOn_compact (isCompact_triangle _)
    beta_reduce
    rw [← integral_constant hd, ← integral_sub (hint (fun p => k ^ 2 * partialDeriv u 0 p * (G₁ t 0 - G₂ t 0) +
        k ^ 2 * partialDeriv u 1 p * (G₁ t 1 - G₂ t 1)) (by fun_prop)) (hint (fun _ => _) continuous_const)]
    refine integral_congr_ae (Filter.Eventually.of_forall fun p => ?_)
    beta_reduce
    ring
  rw [this, hweak, sub_self]

/-- The interpolating function of `u` has its values at the corners of the elements. -/
theorem interpolation_data {u v : ℝ × ℝ → ℝ} (hn : Nondegenerate2 elements nodes)
    (hv : Interpolates nodes elements (fun p => u (nodes p 0, nodes p 1)) v) (hu : ContDiff ℝ 2 u) {M h κ : ℝ}
    (hM : ∀ k < 2, ∀ l < 2, ∀ p ∈ body nodes elements, |partialDeriv (partialDeriv u k) l p| ≤ M)
    (hh : ∀ e ∈ elements, ∀ i < 3, ∀ j < 3, ∀ k < 2, |vertices nodes e i k - vertices nodes e j k| ≤ h)
    (hκ : 0 < κ) (hd : ∀ e ∈ elements, κ * h ^ 2 ≤ |det2 (vertices nodes e)|) :
    ∃ (c : ℕ → ℝ) (G : ℕ → ℕ → ℝ), ∀ t < elements.length,
      (∀ p ∈ openTriangle (vertices nodes (elements.getD t [])), ∀ k < 2, partialDeriv v k p = G t k) ∧
      (∀ i < 3, u (vertices nodes (elements.getD t []) i 0, vertices nodes (elements.getD t []) i 1) =
        c t + G t 0 * vertices nodes (elements.getD t []) i 0 + G t 1 * vertices nodes (elements.getD t []) i 1) ∧
      ∀ p ∈ triangle (vertices nodes (elements.getD t [])), ∀ k < 2, |partialDeriv u k p - G t k| ≤ 8 * M * h / κ := by
  obtain ⟨c, G, -, h'⟩ := hv.data hn
  refine ⟨c, G, fun t ht => ⟨fun p hp => ((h' t ht).2 p hp).2, (h' t ht).1, fun p hp k hk => ?_⟩⟩
  have he := getD_mem ht
  have hdet := det2_getD hn ht
  have hM0 : 0 ≤ M := (abs_nonneg _).trans (hM 0 (by omega) 0 (by omega) p ⟨_, he, hp⟩)
  have hh0 : 0 ≤ h := (abs_nonneg _).trans (hh _ he 0 (by omega) 0 (by omega) 0 (by omega))
  refine (interpolation_gradient hdet hu (fun k hk l hl p hp => hM k hk l hl p ⟨_, he, hp⟩) (hh _ he)
    (h' t ht).1 hp k hk).trans ?_
  rw [div_le_div_iff₀ (abs_pos.2 hdet) hκ]
  calc 8 * M * h ^ 3 * κ = 8 * M * h * (κ * h ^ 2) := by ring
    _ ≤ 8 * M * h * |det2 (vertices nodes (elements.getD t []))| :=
      mul_le_mul_of_nonneg_left (hd _ he) (by positivity)

/-- The integral over a body of a function bounded by a constant. -/
theorem integral_body_le (hn : Nondegenerate2 elements nodes) (ho : NonOverlapping 2 elements nodes)
    {f : ℝ × ℝ → ℝ} {g : ℕ → ℝ × ℝ → ℝ} (hg : ∀ t < elements.length, Continuous (g t))
    (hf : ∀ t < elements.length, ∀ p ∈ openTriangle (vertices nodes (elements.getD t [])), f p = g t p) {C : ℝ}
    (hC : ∀ t < elements.length, ∀ p ∈ triangle (vertices nodes (elements.getD t [])), g t p ≤ C) :
    ∫ p in body nodes elements, f p ≤ C * (MeasureTheory.volume (body nodes elements)).toReal := by
  have hpos : ∀ t, 0 ≤ area (vertices nodes (elements.getD t [])) := fun t => by unfold area; positivity
  rw [integral_body_pieces hn ho hg hf, volume_body hn ho, ENNReal.toReal_ofReal (sumElements_nonneg _ _ fun t _ => hpos t),
    ← sumElements_mul]
  refine Finset.sum_le_sum fun t ht => ?_
  have ht := Finset.mem_range.1 ht
  beta_reduce
  rw [mul_comm, ← integral_constant (det2_getD hn ht)]
  refine setIntegral_mono_on ?_ ?_ (isCompact_triangle _).measurableSet (hC t ht)
  · exact (hg t ht).continuousOn.integrableOn_compact (isCompact_triangle _)
  · exact continuous_const.continuousOn.integrableOn_compact (isCompact_triangle _)

/-- C109: how far the computed temperature is from the exact one. On a mesh whose triangles have sides
of at most the length `h` in both directions and are not too flat, the error of the gradients is at most
proportional to `h` (in the mean square sense). -/
theorem C109_estimate (hm : m.Good) (ho : NonOverlapping 2 m.elements m.nodes) (hb : LoadsBoundary m)
    {sqrt : ℝ → ℝ} (hs : IsSqrt sqrt) (k c q : ℝ) {u : ℝ × ℝ → ℝ} (hu : ContDiff ℝ 2 u)
    (hflow : Flow m (fun i p => k ^ 2 * partialDeriv u i p) c q) {g f T : ℕ → ℝ}
    (hT : PoissonWith sqrt m k c q g f T)
    (hg : ∀ p < m.count, m.supported p → g p = u (m.nodes p 0, m.nodes p 1)) {Th : ℝ × ℝ → ℝ}
    (hTh : Interpolates m.nodes m.elements T Th) {M h κ : ℝ}
    (hM : ∀ k < 2, ∀ l < 2, ∀ p ∈ body m.nodes m.elements, |partialDeriv (partialDeriv u k) l p| ≤ M)
    (hh : ∀ e ∈ m.elements, ∀ i < 3, ∀ j < 3, ∀ k < 2, |vertices m.nodes e i k - vertices m.nodes e j k| ≤ h)
    (hκ : 0 < κ) (hd : ∀ e ∈ m.elements, κ * h ^ 2 ≤ |det2 (vertices m.nodes e)|) :
    ∫ p in body m.nodes m.elements, k ^ 2 * ((partialDeriv u 0 p - partialDeriv Th 0 p) ^ 2 +
        (partialDeriv u 1 p - partialDeriv Th 1 p) ^ 2) ≤
      k ^ 2 * (2 * (8 * M * h / κ) ^ 2) * (MeasureTheory.volume (body m.nodes m.elements)).toReal := by
  have hn := hm.nondegenerate
  obtain ⟨v, hv⟩ := C108_interpolant hn ho fun p => u (m.nodes p 0, m.nodes p 1)
  have hbest := C109_best hm ho hb hs k c q hu hflow hT hg (fun _ _ _ => rfl) hTh hv
  obtain ⟨c', G, hG⟩ := interpolation_data hn hv hu hM hh hκ hd
  have d0 := continuous_partial hu 0
  have d1 := continuous_partial hu 1
  have hle := integral_body_le hn ho (f := fun p => k ^ 2 * ((partialDeriv u 0 p - partialDeriv v 0 p) ^ 2 +
        (partialDeriv u 1 p - partialDeriv v 1 p) ^ 2))
    (g := fun t p => k ^ 2 * ((partialDeriv u 0 p - G t 0) ^ 2 + (partialDeriv u 1 p - G t 1) ^ 2))
    (C := k ^ 2 * (2 * (8 * M * h / κ) ^ 2)) (fun t _ => by fun_prop)
    (fun t ht p hp => by rw [(hG t ht).1 p hp 0 (by omega), (hG t ht).1 p hp 1 (by omega)])
    (fun t ht p hp => by
      have e0 := (hG t ht).2.2 p hp 0 (by omega)
      have e1 := (hG t ht).2.2 p hp 1 (by omega)
      have s0 := sq_le_sq' (abs_le.1 e0).1 (abs_le.1 e0).2
      have s1 := sq_le_sq' (abs_le.1 e1).1 (abs_le.1 e1).2
      exact mul_le_mul_of_nonneg_left (by linarith) (sq_nonneg k))
  have hnn : 0 ≤ ∫ p in body m.nodes m.elements, k ^ 2 * ((partialDeriv Th 0 p - partialDeriv v 0 p) ^ 2 +
        (partialDeriv Th 1 p - partialDeriv v 1 p) ^ 2) :=
    integral_nonneg fun p => by positivity
  linarith

end
end Conmech
