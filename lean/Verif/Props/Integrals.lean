import Verif.Lemmas.Integrals
import Verif.Props.Elasticity
import Verif.Props.Refinement
/-!
C108: the matrices and the loads are the integrals they stand for.
-/
namespace Conmech
open Spec MeasureTheory

section
variable {N : ℕ} {nodes : ℕ → ℕ → ℝ} {elements : List (List ℕ)}

/-- Partial derivatives of a function that is affine near a point. -/
theorem partialDeriv_affine {u : ℝ × ℝ → ℝ} {c : ℝ} {G : ℕ → ℝ} {p : ℝ × ℝ} {S : Set (ℝ × ℝ)}
    (hS : IsOpen S) (hp : p ∈ S) (h : ∀ q ∈ S, u q = c + G 0 * q.1 + G 1 * q.2) :
    ∀ k < 2, partialDeriv u k p = G k := by
  intro k hk
  interval_cases k
  · have hev : (fun s => u (s, p.2)) =ᶠ[nhds p.1] fun s => c + G 0 * s + G 1 * p.2 := by
      have : ∀ᶠ s in nhds p.1, (s, p.2) ∈ S :=
        (Continuous.prodMk_left p.2).continuousAt.eventually_mem (hS.mem_nhds hp)
      filter_upwards [this] with s hs
      exact h _ hs
    have hd : HasDerivAt (fun s => c + G 0 * s + G 1 * p.2) (G 0) p.1 := by
      have := (((hasDerivAt_id p.1).const_mul (G 0)).const_add c).add_const (G 1 * p.2)
      simpa using this
    exact (hev.deriv_eq).trans hd.deriv
  · have hev : (fun s => u (p.1, s)) =ᶠ[nhds p.2] fun s => c + G 0 * p.1 + G 1 * s := by
      have : ∀ᶠ s in nhds p.2, (p.1, s) ∈ S :=
        (Continuous.prodMk_right p.1).continuousAt.eventually_mem (hS.mem_nhds hp)
      filter_upwards [this] with s hs
      exact h _ hs
    have hd : HasDerivAt (fun s => c + G 0 * p.1 + G 1 * s) (G 1) p.2 := by
      have := ((hasDerivAt_id p.2).const_mul (G 1)).const_add (c + G 0 * p.1)
      simpa using this
    exact (hev.deriv_eq).trans hd.deriv

/-- What an interpolating function is on the triangles. -/
theorem Spec.Interpolates.data (hn : Nondegenerate2 elements nodes) {x : ℕ → ℝ} {u : ℝ × ℝ → ℝ}
    (h : Interpolates nodes elements x u) : ∃ (c : ℕ → ℝ) (G : ℕ → ℕ → ℝ),
    FieldGradient 2 elements nodes x G ∧ ∀ t < elements.length,
      (∀ i < 3, valuesOn (elements.getD t []) x i = c t + G t 0 * vertices nodes (elements.getD t []) i 0 +
        G t 1 * vertices nodes (elements.getD t []) i 1) ∧
      ∀ p ∈ openTriangle (vertices nodes (elements.getD t [])),
        u p = c t + G t 0 * p.1 + G t 1 * p.2 ∧ ∀ k < 2, partialDeriv u k p = G t k := by
  have h' : ∀ t, ∃ c g h : ℝ, t < elements.length →
      (∀ p ∈ interior (triangle (vertices nodes (elements.getD t []))), u p = c + g * p.1 + h * p.2) ∧
      ∀ i < 3, valuesOn (elements.getD t []) x i = c + g * vertices nodes (elements.getD t []) i 0 +
        h * vertices nodes (elements.getD t []) i 1 := by
    intro t
    by_cases ht : t < elements.length
    · obtain ⟨c, g, h, h1, h2⟩ := h _ (getD_mem ht)
      exact ⟨c, g, h, fun _ => ⟨h1, h2⟩⟩
    · exact ⟨0, 0, 0, fun h => absurd h ht⟩
  choose c g g' hh using h'
  refine ⟨c, fun t k => if k = 0 then g t else g' t, fun t ht => ⟨c t, fun i hi => ?_⟩, fun t ht => ⟨fun i hi => ?_,
    fun p hp => ⟨?_, ?_⟩⟩⟩
  · rw [(hh t ht).2 i hi]
    simp [Finset.sum_range_succ]
    ring
  · simpa using (hh t ht).2 i hi
  · simpa using (hh t ht).1 p (openTriangle_subset_interior (det2_getD hn ht) hp)
  · have := partialDeriv_affine (u := u) (c := c t) (G := fun k => if k = 0 then g t else g' t) isOpen_interior
      (openTriangle_subset_interior (det2_getD hn ht) hp) fun q hq => by simpa using (hh t ht).1 q hq
    exact this

theorem interior_closedRef : interior closedRef ⊆ refTriangle := by
  rintro ⟨s, t⟩ h
  obtain ⟨ε, hε, hb⟩ := Metric.isOpen_iff.1 isOpen_interior _ h
  have hm : ∀ a b : ℝ, |a| < ε → |b| < ε → (s + a, t + b) ∈ closedRef := by
    intro a b ha hb'
    refine interior_subset (hb ?_)
    rw [Metric.mem_ball, Prod.dist_eq, max_lt_iff]
    simp only [Real.dist_eq, add_sub_cancel_left]
    exact ⟨ha, hb'⟩
  have e1 : |-(ε / 2)| < ε := by rw [abs_neg, abs_of_pos (by linarith)]; linarith
  have e2 : |ε / 2| < ε := by rw [abs_of_pos (by linarith)]; linarith
  obtain ⟨h1, -, -⟩ := hm (-(ε / 2)) 0 e1 (by simpa using hε)
  obtain ⟨-, h2, -⟩ := hm 0 (-(ε / 2)) (by simpa using hε) e1
  obtain ⟨-, -, h3⟩ := hm (ε / 2) 0 e2 (by simpa using hε)
  simp only at h1 h2 h3
  exact ⟨by simp only; linarith, by simp only; linarith, by simp only; linarith⟩

theorem interior_triangle {X : ℕ → ℕ → ℝ} (h : det2 X ≠ 0) : interior (triangle X) ⊆ openTriangle X := by
  intro p hp
  refine ⟨unplace X p, interior_closedRef ?_, place_unplace h p⟩
  have hsub : place X ⁻¹' interior (triangle X) ⊆ closedRef := by
    intro q hq
    have := interior_subset hq
    rw [triangle_eq] at this
    obtain ⟨q', hq', he⟩ := this
    rwa [← place_injective h he]
  refine interior_maximal hsub (isOpen_interior.preimage (continuous_place X)) ?_
  show place X (unplace X p) ∈ interior (triangle X)
  rwa [place_unplace h]

/-- C108: every nodal field is the values of a function that is affine on each triangle. -/
theorem C108_interpolant (hn : Nondegenerate2 elements nodes) (ho : NonOverlapping 2 elements nodes)
    (x : ℕ → ℝ) : ∃ u, Interpolates nodes elements x u := by
  classical
  obtain ⟨G, hG⟩ := exists_fieldGradient (Plane.allLocal hn) x
  have h' : ∀ t, ∃ c : ℝ, t < elements.length → ∀ i < 3, valuesOn (elements.getD t []) x i =
      c + ∑ k ∈ Finset.range 2, G t k * vertices nodes (elements.getD t []) i k := by
    intro t
    by_cases ht : t < elements.length
    · obtain ⟨c, hc⟩ := hG t ht
      exact ⟨c, fun _ => hc⟩
    · exact ⟨0, fun h => absurd h ht⟩
  choose c hc using h'
  refine ⟨fun p => if h : ∃ t < elements.length, p ∈ openTriangle (vertices nodes (elements.getD t [])) then
    c h.choose + G h.choose 0 * p.1 + G h.choose 1 * p.2 else 0, fun e he => ?_⟩
  obtain ⟨t, ht, rfl⟩ := List.mem_iff_getElem.1 he
  rw [← getD_mem_eq ht]
  refine ⟨c t, G t 0, G t 1, fun p hp => ?_, fun i hi => ?_⟩
  · have hp := interior_triangle (det2_getD hn ht) hp
    have hex : ∃ t < elements.length, p ∈ openTriangle (vertices nodes (elements.getD t [])) := ⟨t, ht, hp⟩
    have : hex.choose = t := by
      by_contra hne
      exact Set.disjoint_left.1 (disjoint_triangles ho (by simpa using hex.choose_spec.1) (by simpa using ht) hne)
        hex.choose_spec.2 hp
    beta_reduce
    rw [dif_pos hex, this]
  · rw [hc t ht i hi, Finset.sum_range_succ, Finset.sum_range_one]
    ring

/-- C108: the area of an element is its area. -/
theorem C108_area (hn : Nondegenerate2 elements nodes) :
    (basicMatrices2 elements nodes).elementVolume =
      elements.map fun e => (MeasureTheory.volume (triangle (vertices nodes e))).toReal := by
  rw [C23_area]
  refine List.map_congr_left fun e he => ?_
  rw [volume_triangle (hn e he), ENNReal.toReal_ofReal (by unfold area; positivity)]

/-- C108: the mass matrix is the matrix of the integrals of products over the body. -/
theorem C108_mass (hv : ValidElements 2 N elements) (hn : Nondegenerate2 elements nodes)
    (ho : NonOverlapping 2 elements nodes) {x y : ℕ → ℝ} {u w : ℝ × ℝ → ℝ}
    (hu : Interpolates nodes elements x u) (hw : Interpolates nodes elements y w) :
    form N N (basicMatrices2 elements nodes).U x y = ∫ p in body nodes elements, u p * w p := by
  obtain ⟨c, G, -, h⟩ := hu.data hn
  obtain ⟨c', G', -, h'⟩ := hw.data hn
  rw [C23_mass_form2 hv hn, integral_body_pieces hn ho (f := fun p => u p * w p)
    (g := fun t p => (c t + G t 0 * p.1 + G t 1 * p.2) * (c' t + G' t 0 * p.1 + G' t 1 * p.2))
    (fun t _ => by fun_prop) fun t ht p hp => by rw [((h t ht).2 p hp).1, ((h' t ht).2 p hp).1]]
  refine sumElements_congr fun t ht => ?_
  exact (integral_product (det2_getD hn ht) (h t ht).1 (h' t ht).1).symm

/-- C108: the gradient blocks are the integrals of a function times a partial derivative. -/
theorem C108_gradient (hv : ValidElements 2 N elements) (hn : Nondegenerate2 elements nodes)
    (ho : NonOverlapping 2 elements nodes) {x y : ℕ → ℝ} {u w : ℝ × ℝ → ℝ}
    (hu : Interpolates nodes elements x u) (hw : Interpolates nodes elements y w) (k : ℕ) (hk : k < 2) :
    form N N ((basicMatrices2 elements nodes).V k) x y =
      ∫ p in body nodes elements, u p * partialDeriv w k p := by
  obtain ⟨c, G, -, h⟩ := hu.data hn
  obtain ⟨c', G', hG', h'⟩ := hw.data hn
  refine (form_grad hv (Plane.allLocal hn) hk x hG').trans ?_
  rw [integral_body_pieces hn ho (f := fun p => u p * partialDeriv w k p)
    (g := fun t p => (c t + G t 0 * p.1 + G t 1 * p.2) * G' t k)
    (fun t _ => by fun_prop) fun t ht p hp => by rw [((h t ht).2 p hp).1, ((h' t ht).2 p hp).2 k hk]]
  refine sumElements_congr fun t ht => ?_
  rw [integral_mul_const, integral_affine (det2_getD hn ht) (h t ht).1]
  simp only [Finset.sum_range_succ, Finset.sum_range_zero, zero_add]
  norm_num
  ring

/-- C108: the stiffness blocks are the integrals of products of partial derivatives. -/
theorem C108_stiffness (hv : ValidElements 2 N elements) (hn : Nondegenerate2 elements nodes)
    (ho : NonOverlapping 2 elements nodes) {x y : ℕ → ℝ} {u w : ℝ × ℝ → ℝ}
    (hu : Interpolates nodes elements x u) (hw : Interpolates nodes elements y w) (k l : ℕ) (hk : k < 2)
    (hl : l < 2) : form N N ((basicMatrices2 elements nodes).W k l) x y =
      ∫ p in body nodes elements, partialDeriv u k p * partialDeriv w l p := by
  obtain ⟨c, G, hG, h⟩ := hu.data hn
  obtain ⟨c', G', hG', h'⟩ := hw.data hn
  refine (form_stiff hv (Plane.allLocal hn) hk hl hG hG').trans ?_
  rw [integral_body_pieces hn ho (f := fun p => partialDeriv u k p * partialDeriv w l p)
    (g := fun t _ => G t k * G' t l)
    (fun t _ => by fun_prop) fun t ht p hp => by rw [((h t ht).2 p hp).2 k hk, ((h' t ht).2 p hp).2 l hl]]
  refine sumElements_congr fun t ht => ?_
  rw [integral_constant (det2_getD hn ht)]

/-- C108: the Poisson matrix is the Dirichlet integral. -/
theorem C108_poisson (hv : ValidElements 2 N elements) (hn : Nondegenerate2 elements nodes)
    (ho : NonOverlapping 2 elements nodes) {x y : ℕ → ℝ} {u w : ℝ × ℝ → ℝ}
    (hu : Interpolates nodes elements x u) (hw : Interpolates nodes elements y w) (k : ℝ) :
    form N N (poissonMatrix 2 (basicMatrices2 elements nodes).W k) x y =
      ∫ p in body nodes elements,
        k ^ 2 * (partialDeriv u 0 p * partialDeriv w 0 p + partialDeriv u 1 p * partialDeriv w 1 p) := by
  obtain ⟨c, G, hG, h⟩ := hu.data hn
  obtain ⟨c', G', hG', h'⟩ := hw.data hn
  rw [form_poisson, Finset.sum_range_succ, Finset.sum_range_one]
  refine (congrArg₂ (fun a b => k ^ 2 * (a + b)) (form_stiff (k := 0) (l := 0) hv (Plane.allLocal hn)
    (by omega) (by omega) hG hG') (form_stiff (k := 1) (l := 1) hv (Plane.allLocal hn)
    (by omega) (by omega) hG hG')).trans ?_
  rw [integral_body_pieces hn ho (f := fun p => k ^ 2 * (partialDeriv u 0 p * partialDeriv w 0 p +
      partialDeriv u 1 p * partialDeriv w 1 p))
    (g := fun t _ => k ^ 2 * (G t 0 * G' t 0 + G t 1 * G' t 1))
    (fun t _ => by fun_prop) fun t ht p hp => by
      rw [((h t ht).2 p hp).2 0 (by omega), ((h' t ht).2 p hp).2 0 (by omega),
        ((h t ht).2 p hp).2 1 (by omega), ((h' t ht).2 p hp).2 1 (by omega)]]
  beta_reduce
  rw [← sumElements_add, ← sumElements_mul]
  refine sumElements_congr fun t ht => ?_
  rw [integral_constant (det2_getD hn ht)]
  ring

/-- C108: the elasticity matrix is the integral of the Hooke density of the two displacement fields. -/
theorem C108_elastic (hv : ValidElements 2 N elements) (hn : Nondegenerate2 elements nodes)
    (ho : NonOverlapping 2 elements nodes) (mu lam : ℝ) {x y : ℕ → ℝ} {u w : ℕ → ℝ × ℝ → ℝ}
    (hu : ∀ a < 2, Interpolates nodes elements (component N x a) (u a))
    (hw : ∀ a < 2, Interpolates nodes elements (component N y a) (w a)) :
    form (2 * N) (2 * N) (Plane.constitutive N (basicMatrices2 elements nodes).W mu lam) x y =
      ∫ p in body nodes elements, hooke 2 mu lam (fun a k => partialDeriv (u a) k p)
        fun a k => partialDeriv (w a) k p := by
  obtain ⟨c0, G0, hG0, h0⟩ := (hu 0 (by omega)).data hn
  obtain ⟨c1, G1, hG1, h1⟩ := (hu 1 (by omega)).data hn
  obtain ⟨d0, H0, hH0, k0⟩ := (hw 0 (by omega)).data hn
  obtain ⟨d1, H1, hH1, k1⟩ := (hw 1 (by omega)).data hn
  rw [C26_hooke hv hn mu lam x y (fun t a => if a = 0 then G0 t else G1 t)
    (fun t a => if a = 0 then H0 t else H1 t)
    (fun a ha => by interval_cases a <;> simpa)
    (fun a ha => by interval_cases a <;> simpa),
    integral_body_pieces hn ho (g := fun t _ => hooke 2 mu lam (fun a => if a = 0 then G0 t else G1 t)
      fun a => if a = 0 then H0 t else H1 t) (fun t _ => by fun_prop)]
  · unfold elasticEnergy
    refine sumElements_congr fun t ht => ?_
    rw [integral_constant (det2_getD hn ht)]
  · intro t ht p hp
    have e0 := ((h0 t ht).2 p hp).2
    have e1 := ((h1 t ht).2 p hp).2
    have f0 := ((k0 t ht).2 p hp).2
    have f1 := ((k1 t ht).2 p hp).2
    simp [hooke, Finset.sum_range_succ, e0, e1, f0, f1]

/-- C108: constant forces. What the body forces of the code do on a field is the integral of the force
times the field. -/
theorem C108_forces_partial (hv : ValidElements 2 N elements) (hn : Nondegenerate2 elements nodes)
    (ho : NonOverlapping 2 elements nodes) {f : ℕ → ℕ → ℝ} (a : ℕ) {F : ℝ × ℝ → ℝ} {y : ℕ → ℝ} {w : ℝ × ℝ → ℝ}
    (hF : Interpolates nodes elements (fun p => f p a) F) (hw : Interpolates nodes elements y w)
    (hc : ∀ e ∈ elements, f (e.getD 1 0) a = f (e.getD 0 0) a ∧ f (e.getD 2 0) a = f (e.getD 0 0) a) :
    ∑ p ∈ Finset.range N, y p * integratedInner N (basicMatrices2 elements nodes).volumeAtNodes f p a =
      ∫ p in body nodes elements, w p * F p := by
  rw [← C108_mass hv hn ho hw hF, C23_mass_form2 hv hn]
  have : ∑ p ∈ Finset.range N, y p * integratedInner N (basicMatrices2 elements nodes).volumeAtNodes f p a =
      form N N (basicMatrices2 elements nodes).volumeAtNodes y fun p => f p a := by
    unfold form integratedInner
    refine Finset.sum_congr rfl fun p _ => ?_
    rw [Finset.mul_sum]
    exact Finset.sum_congr rfl fun q _ => by ring
  rw [this]
  refine (form_vol hv (Plane.allLocal hn) _ _).trans (sumElements_congr fun t ht => ?_)
  obtain ⟨h1, h2⟩ := hc _ (getD_mem ht)
  simp only [Finset.sum_range_succ, Finset.sum_range_zero, zero_add, valuesOn, h1, h2]
  norm_num
  ring

/-- C108 does not hold for the body forces when the force is not constant: by how much the work of the
code falls short of the integral. -/
theorem C108_forces_wrong (hv : ValidElements 2 N elements) (hn : Nondegenerate2 elements nodes)
    (ho : NonOverlapping 2 elements nodes) {f : ℕ → ℕ → ℝ} (a : ℕ) {F : ℝ × ℝ → ℝ}
    (hF : Interpolates nodes elements (fun p => f p a) F)
    (hc : ∃ e ∈ elements, f (e.getD 1 0) a ≠ f (e.getD 0 0) a ∨ f (e.getD 2 0) a ≠ f (e.getD 0 0) a) :
    ∑ p ∈ Finset.range N, f p a * integratedInner N (basicMatrices2 elements nodes).volumeAtNodes f p a <
      ∫ p in body nodes elements, F p * F p := by
  rw [← C108_mass hv hn ho hF hF, C23_mass_form2 hv hn]
  have : ∑ p ∈ Finset.range N, f p a * integratedInner N (basicMatrices2 elements nodes).volumeAtNodes f p a =
      form N N (basicMatrices2 elements nodes).volumeAtNodes (fun p => f p a) fun p => f p a := by
    unfold form integratedInner
    refine Finset.sum_congr rfl fun p _ => ?_
    rw [Finset.mul_sum]
    exact Finset.sum_congr rfl fun q _ => by ring
  rw [this]
  refine lt_of_eq_of_lt (form_vol hv (Plane.allLocal hn) _ _) ?_
  have key : ∀ A u v w : ℝ, A / 12 * ((u + v + w) * (u + v + w) + (u * u + v * v + w * w)) -
      A / ((((2 : ℕ) : ℝ) + 1) * (2 : ℕ)) * ((u + v + w) * (u + v + w) - (u * u + v * v + w * w)) =
      A / 12 * ((v - u) ^ 2 + (w - u) ^ 2 + (v - w) ^ 2) := by
    intro A u v w
    push_cast
    ring
  have hpos : ∀ t < elements.length, 0 < area (vertices nodes (elements.getD t [])) := fun t ht => by
    have := abs_pos.2 (det2_getD hn ht)
    unfold area
    linarith
  refine Finset.sum_lt_sum (fun t ht => ?_) ?_
  · simp only [Finset.sum_range_succ, Finset.sum_range_zero, zero_add]
    rw [← sub_nonneg, key]
    have := hpos t (Finset.mem_range.1 ht)
    positivity
  · obtain ⟨e, he, h⟩ := hc
    obtain ⟨t, ht, rfl⟩ := List.mem_iff_getElem.1 he
    refine ⟨t, Finset.mem_range.2 ht, ?_⟩
    simp only [Finset.sum_range_succ, Finset.sum_range_zero, zero_add]
    rw [← sub_pos, key]
    have hA := hpos t ht
    refine mul_pos (by linarith) ?_
    simp only [valuesOn, getD_mem_eq ht]
    rcases h with h | h
    · have := sq_pos_of_ne_zero (sub_ne_zero.2 h)
      positivity
    · have := sq_pos_of_ne_zero (sub_ne_zero.2 h)
      positivity

end

/-! ### an example -/

/-- The corners of the unit square. -/
noncomputable def twoTriangleNodes : ℕ → ℕ → ℝ
  | 0, 0 => 0 | 0, _ => 0
  | 1, 0 => 1 | 1, _ => 0
  | 2, 0 => 0 | 2, _ => 1
  | _, _ => 1

theorem square_nondegenerate : Nondegenerate2 [[0, 1, 2], [1, 3, 2]] twoTriangleNodes := by
  intro e he
  simp only [List.mem_cons, List.not_mem_nil, or_false] at he
  rcases he with rfl | rfl <;> simp [det2, vertices, twoTriangleNodes]

theorem square_nonOverlapping : NonOverlapping 2 [[0, 1, 2], [1, 3, 2]] twoTriangleNodes := by
  have key : ∀ x, StrictlyInside 2 (vertices twoTriangleNodes [0, 1, 2]) x →
      ¬ StrictlyInside 2 (vertices twoTriangleNodes [1, 3, 2]) x := by
    rintro x ⟨w, w1, w2, w3⟩ ⟨v, v1, v2, v3⟩
    have a0 := w3 0 (by omega)
    have a1 := w3 1 (by omega)
    have b0 := v3 0 (by omega)
    have b1 := v3 1 (by omega)
    have p0 := w1 0 (by omega)
    have p1 := v1 1 (by omega)
    simp only [Finset.sum_range_succ, Finset.sum_range_zero, zero_add, vertices, twoTriangleNodes, List.getD_cons_zero,
      List.getD_cons_succ] at a0 a1 b0 b1 w2 v2
    linarith
  intro t ht t' ht' hne x h h'
  simp only [List.length_cons, List.length_nil, zero_add, Nat.reduceAdd] at ht ht'
  interval_cases t <;> interval_cases t'
  · exact hne rfl
  · exact key x h h'
  · exact key x h' h
  · exact hne rfl

/-- A square of two triangles with a field that is not constant. -/
example : ValidElements 2 4 [[0, 1, 2], [1, 3, 2]] ∧ Nondegenerate2 [[0, 1, 2], [1, 3, 2]] twoTriangleNodes ∧
    NonOverlapping 2 [[0, 1, 2], [1, 3, 2]] twoTriangleNodes ∧
    ∃ u, Interpolates twoTriangleNodes [[0, 1, 2], [1, 3, 2]] (fun p => if p = 1 then 1 else 0) u :=
  ⟨by unfold ValidElements; decide, square_nondegenerate, square_nonOverlapping,
    C108_interpolant square_nondegenerate square_nonOverlapping _⟩

end Conmech
