import Verif.Props.Approximation
/-!
C110: static displacements on a mesh against exact solutions of the equations of elasticity.
-/
namespace Conmech
open Spec MeasureTheory

/-- The stresses of the displacement `w` by Hooke's law. -/
noncomputable def Spec.stressOf (mu lam : ℝ) (w : ℕ → ℝ × ℝ → ℝ) (a k : ℕ) (p : ℝ × ℝ) : ℝ :=
  mu * (partialDeriv (w a) k p + partialDeriv (w k) a p) +
    if a = k then lam * (partialDeriv (w 0) 0 p + partialDeriv (w 1) 1 p) else 0

/-- The difference of the gradients of two displacements at a point. -/
noncomputable def Spec.gradientError (w v : ℕ → ℝ × ℝ → ℝ) (p : ℝ × ℝ) (a k : ℕ) : ℝ :=
  partialDeriv (w a) k p - partialDeriv (v a) k p

section
variable {m : SupportedMesh ℝ} {nodes : ℕ → ℕ → ℝ} {elements : List (List ℕ)}

theorem hooke_plane (mu lam : ℝ) (V U : ℕ → ℕ → ℝ) : hooke 2 mu lam V U =
    2 * mu * (V 0 0 * U 0 0 + V 1 1 * U 1 1 + (V 0 1 + V 1 0) * (U 0 1 + U 1 0) / 2) +
      lam * ((V 0 0 + V 1 1) * (U 0 0 + U 1 1)) := by
  simp only [hooke, Finset.sum_range_succ, Finset.sum_range_zero, zero_add]
  ring

/-- What interpolating vector fields are on the triangles. -/
theorem vector_data {N : ℕ} {x : ℕ → ℝ} {v : ℕ → ℝ × ℝ → ℝ} (hn : Nondegenerate2 elements nodes)
    (h : ∀ a < 2, Interpolates nodes elements (component N x a) (v a)) :
    ∃ (c : ℕ → ℕ → ℝ) (G : ℕ → ℕ → ℕ → ℝ), VectorGradient 2 N elements nodes x G ∧
      ∀ a < 2, ∀ t < elements.length,
      (∀ i < 3, valuesOn (elements.getD t []) (component N x a) i = c t a +
        G t a 0 * vertices nodes (elements.getD t []) i 0 + G t a 1 * vertices nodes (elements.getD t []) i 1) ∧
      ∀ p ∈ openTriangle (vertices nodes (elements.getD t [])), ∀ k < 2, partialDeriv (v a) k p = G t a k := by
  have h' : ∀ a, ∃ (c : ℕ → ℝ) (G : ℕ → ℕ → ℝ), a < 2 → FieldGradient 2 elements nodes (component N x a) G ∧
      ∀ t < elements.length, (∀ i < 3, valuesOn (elements.getD t []) (component N x a) i = c t +
        G t 0 * vertices nodes (elements.getD t []) i 0 + G t 1 * vertices nodes (elements.getD t []) i 1) ∧
      ∀ p ∈ openTriangle (vertices nodes (elements.getD t [])), ∀ k < 2, partialDeriv (v a) k p = G t k := by
    intro a
    by_cases ha : a < 2
    · obtain ⟨c, G, h1, h2⟩ := (h a ha).data hn
      exact ⟨c, G, fun _ => ⟨h1, fun t ht => ⟨(h2 t ht).1, fun p hp => ((h2 t ht).2 p hp).2⟩⟩⟩
    · exact ⟨0, 0, fun h => absurd h ha⟩
  choose c G hG using h'
  exact ⟨fun t a => c a t, fun t a => G a t, fun a ha => (hG a ha).1, fun a ha => (hG a ha).2⟩

/-- C110: let the stresses of a displacement `w` balance the constant forces of the problem, inside and
on the boundary. The displacement computed on a mesh, with the values of `w` at the supported nodes, is
the best approximation in the norm of the stored energy: the energy of the difference of `w` and any
other piecewise affine displacement with the same values at the supported nodes is larger, by the energy
of the difference of that displacement from the computed one. -/
theorem C110_best (hm : m.Good) (ho : NonOverlapping 2 m.elements m.nodes) (hb : LoadsBoundary m)
    {sqrt : ℝ → ℝ} (hs : IsSqrt sqrt) (mu lam : ℝ) (c q : ℕ → ℝ) {w : ℕ → ℝ × ℝ → ℝ}
    (hw : ∀ a < 2, ContDiff ℝ 2 (w a)) (hflow : ∀ a < 2, Flow m (stressOf mu lam w a) (c a) (q a))
    {g f u : ℕ → ℝ} (hu : StaticWith sqrt m mu lam c q g f u)
    (hg : ∀ a < 2, ∀ p < m.count, m.supported p → g (a * m.count + p) = w a (m.nodes p 0, m.nodes p 1))
    {y : ℕ → ℝ}
    (hy : ∀ a < 2, ∀ p < m.count, m.supported p → y (a * m.count + p) = w a (m.nodes p 0, m.nodes p 1))
    {uh v : ℕ → ℝ × ℝ → ℝ} (huh : ∀ a < 2, Interpolates m.nodes m.elements (component m.count u a) (uh a))
    (hv : ∀ a < 2, Interpolates m.nodes m.elements (component m.count y a) (v a)) :
    ∫ p in body m.nodes m.elements, hooke 2 mu lam (gradientError w v p) (gradientError w v p) =
      (∫ p in body m.nodes m.elements, hooke 2 mu lam (gradientError w uh p) (gradientError w uh p)) +
      ∫ p in body m.nodes m.elements, hooke 2 mu lam (gradientError uh v p) (gradientError uh v p) := by
  have hn := hm.nondegenerate
  obtain ⟨c₁, G₁, hG₁, h₁⟩ := vector_data hn huh
  obtain ⟨c₂, G₂, hG₂, h₂⟩ := vector_data hn hv
  have d : ∀ a < 2, ∀ k, Continuous (partialDeriv (w a) k) := fun a ha k => continuous_partial (hw a ha) k
  have d00 := d 0 (by omega) 0
  have d01 := d 0 (by omega) 1
  have d10 := d 1 (by omega) 0
  have d11 := d 1 (by omega) 1
  have z2 : 0 < 2 := by omega
  have o2 : 1 < 2 := by omega
  rw [integral_body_pieces hn ho (f := fun p => hooke 2 mu lam (gradientError w v p) (gradientError w v p))
      (g := fun t p => hooke 2 mu lam (fun a k => partialDeriv (w a) k p - G₂ t a k)
        fun a k => partialDeriv (w a) k p - G₂ t a k)
      (fun t _ => by simp only [hooke_plane]; fun_prop) fun t ht p hp => by
        simp only [hooke_plane, gradientError, (h₂ 0 z2 t ht).2 p hp 0 z2, (h₂ 0 z2 t ht).2 p hp 1 o2,
          (h₂ 1 o2 t ht).2 p hp 0 z2, (h₂ 1 o2 t ht).2 p hp 1 o2],
    integral_body_pieces hn ho (f := fun p => hooke 2 mu lam (gradientError w uh p) (gradientError w uh p))
      (g := fun t p => hooke 2 mu lam (fun a k => partialDeriv (w a) k p - G₁ t a k)
        fun a k => partialDeriv (w a) k p - G₁ t a k)
      (fun t _ => by simp only [hooke_plane]; fun_prop) fun t ht p hp => by
        simp only [hooke_plane, gradientError, (h₁ 0 z2 t ht).2 p hp 0 z2, (h₁ 0 z2 t ht).2 p hp 1 o2,
          (h₁ 1 o2 t ht).2 p hp 0 z2, (h₁ 1 o2 t ht).2 p hp 1 o2],
    integral_body_pieces hn ho (f := fun p => hooke 2 mu lam (gradientError uh v p) (gradientError uh v p))
      (g := fun t _ => hooke 2 mu lam (fun a k => G₁ t a k - G₂ t a k) fun a k => G₁ t a k - G₂ t a k)
      (fun t _ => by fun_prop) fun t ht p hp => by
        simp only [hooke_plane, gradientError, (h₂ 0 z2 t ht).2 p hp 0 z2, (h₂ 0 z2 t ht).2 p hp 1 o2,
          (h₂ 1 o2 t ht).2 p hp 0 z2, (h₂ 1 o2 t ht).2 p hp 1 o2, (h₁ 0 z2 t ht).2 p hp 0 z2,
          (h₁ 0 z2 t ht).2 p hp 1 o2, (h₁ 1 o2 t ht).2 p hp 0 z2, (h₁ 1 o2 t ht).2 p hp 1 o2],
    sumElements_square
      (g₂ := fun t p => hooke 2 mu lam (fun a k => partialDeriv (w a) k p - G₁ t a k)
        fun a k => partialDeriv (w a) k p - G₁ t a k)
      (g₃ := fun t _ => hooke 2 mu lam (fun a k => G₁ t a k - G₂ t a k) fun a k => G₁ t a k - G₂ t a k)
      (g₄ := fun t p => hooke 2 mu lam (fun a k => partialDeriv (w a) k p - G₁ t a k)
        fun a k => G₁ t a k - G₂ t a k)
      (fun t _ => by simp only [hooke_plane]; fun_prop) (fun t _ => by fun_prop)
      (fun t _ => by simp only [hooke_plane]; fun_prop) fun t p => by simp only [hooke_plane]; ring]
  refine add_eq_left.2 (mul_eq_zero_of_right _ ?_)
  obtain ⟨e, hB, rfl, hf, hres⟩ := hu
  have eq := plane_equilibrium hres hB
  have hmod : ∀ (a : ℕ) {p : ℕ}, p < m.count → (a * m.count + p) % m.count = p := fun a p hp => by
    rw [Nat.mul_comm, Nat.mul_add_mod, Nat.mod_eq_of_lt hp]
  let z : ℕ → ℝ := fun r => u r - y r
  have hz0 : ∀ a < 2, ∀ p < m.count, m.supported p → component m.count z a p = 0 := fun a ha p hp hS => by
    simp only [z, component]
    rw [eq.values (a * m.count + p) (by nlinarith) ⟨by nlinarith, by rw [hmod a hp]; exact hS⟩, hg a ha p hp hS,
      hy a ha p hp hS, sub_self]
  have hz : ∀ a < 2, ∀ t < m.elements.length, ∀ i < 3, valuesOn (m.elements.getD t []) (component m.count z a) i =
      (c₁ t a - c₂ t a) + (G₁ t a 0 - G₂ t a 0) * vertices m.nodes (m.elements.getD t []) i 0 +
      (G₁ t a 1 - G₂ t a 1) * vertices m.nodes (m.elements.getD t []) i 1 := by
    intro a ha t ht i hi
    have e1 := (h₁ a ha t ht).1 i hi
    have e2 := (h₂ a ha t ht).1 i hi
    simp only [valuesOn, z, component] at e1 e2 ⊢
    rw [e1, e2]
    ring
  have hweak : ∀ a (ha : a < 2), _ := fun a ha => (hflow a ha).weak hm ho hb hs (hz0 a ha)
    (d := fun t => c₁ t a - c₂ t a) (G := fun t k => G₁ t a k - G₂ t a k) (hz a ha)
  have hwork := integrated_work hm.valid hn hm.sides hf z
  rw [Finset.sum_range_succ, Finset.sum_range_one, ← hweak 0 z2, ← hweak 1 o2] at hwork
  have hbal := eq.work_eq (v := z) (dof_split fun a ha p hp hS => hz0 a ha p hp (by
    rw [hmod a hp] at hS; exact hS.2))
  have hGz : VectorGradient 2 m.count m.elements m.nodes z fun t a k => G₁ t a k - G₂ t a k := by
    intro a ha t ht
    refine ⟨c₁ t a - c₂ t a, fun i hi => ?_⟩
    rw [hz a ha t ht i hi, Finset.sum_range_succ, Finset.sum_range_one]
    ring
  rw [bilin_form, C26_hooke hm.valid hn mu lam z u _ _ hGz hG₁] at hbal
  rw [hbal] at hwork
  have : (sumElements m.elements fun t e => ∫ p in triangle (vertices m.nodes e),
      hooke 2 mu lam (fun a k => partialDeriv (w a) k p - G₁ t a k) fun a k => G₁ t a k - G₂ t a k) =
      ((sumElements m.elements fun t e => ∫ p in triangle (vertices m.nodes e),
        (stressOf mu lam w 0 0 p * (G₁ t 0 0 - G₂ t 0 0) + stressOf mu lam w 0 1 p * (G₁ t 0 1 - G₂ t 0 1))) +
      sumElements m.elements fun t e => ∫ p in triangle (vertices m.nodes e),
        (stressOf mu lam w 1 0 p * (G₁ t 1 0 - G₂ t 1 0) + stressOf mu lam w 1 1 p * (G₁ t 1 1 - G₂ t 1 1))) -
      elasticEnergy 2 area m.elements m.nodes mu lam (fun t a k => G₁ t a k - G₂ t a k) G₁ := by
    unfold elasticEnergy sumElements
    rw [← Finset.sum_add_distrib, ← Finset.sum_sub_distrib]
    refine Finset.sum_congr rfl fun t ht => ?_
    have hd := det2_getD hn (Finset.mem_range.1 ht)
    have hint : ∀ f : ℝ × ℝ → ℝ, Continuous f →
        IntegrableOn f (triangle (vertices m.nodes (m.elements.getD t []))) :=
      fun f hf => hf.continuousOn.integrableOn_compact (isCompact_triangle _)
    beta_reduce
    have cs : ∀ a < 2, ∀ k < 2, Continuous (stressOf mu lam w a k) := fun a ha k hk => (hflow a ha).smooth k hk |>.continuous
    have c00 := cs 0 z2 0 z2
    have c01 := cs 0 z2 1 o2
    have c10 := cs 1 o2 0 z2
    have c11 := cs 1 o2 1 o2
    rw [← integral_constant hd, ← integral_add
        (hint (fun p => stressOf mu lam w 0 0 p * (G₁ t 0 0 - G₂ t 0 0) +
          stressOf mu lam w 0 1 p * (G₁ t 0 1 - G₂ t 0 1)) (by fun_prop))
        (hint (fun p => stressOf mu lam w 1 0 p * (G₁ t 1 0 - G₂ t 1 0) +
          stressOf mu lam w 1 1 p * (G₁ t 1 1 - G₂ t 1 1)) (by fun_prop)),
      ← integral_sub (hint (fun p => stressOf mu lam w 0 0 p * (G₁ t 0 0 - G₂ t 0 0) +
          stressOf mu lam w 0 1 p * (G₁ t 0 1 - G₂ t 0 1) + (stressOf mu lam w 1 0 p * (G₁ t 1 0 - G₂ t 1 0) +
          stressOf mu lam w 1 1 p * (G₁ t 1 1 - G₂ t 1 1))) (by fun_prop)) (hint (fun _ => _) continuous_const)]
    refine integral_congr_ae (Filter.Eventually.of_forall fun p => ?_)
    simp only [hooke_plane, stressOf, if_true, one_ne_zero, zero_ne_one, if_false]
    ring
  rw [this, hwork, sub_self]

/-- C110: how far the computed displacement is from the exact one. On a mesh whose triangles have sides
of at most the length `h` in both directions and are not too flat, the energy of the error is at most
proportional to the square of `h`. -/
theorem C110_estimate (hm : m.Good) (ho : NonOverlapping 2 m.elements m.nodes) (hb : LoadsBoundary m)
    {sqrt : ℝ → ℝ} (hs : IsSqrt sqrt) {mu lam : ℝ} (hmu : 0 ≤ mu) (hlam : 0 ≤ lam) (c q : ℕ → ℝ)
    {w : ℕ → ℝ × ℝ → ℝ}
    (hw : ∀ a < 2, ContDiff ℝ 2 (w a)) (hflow : ∀ a < 2, Flow m (stressOf mu lam w a) (c a) (q a))
    {g f u : ℕ → ℝ} (hu : StaticWith sqrt m mu lam c q g f u)
    (hg : ∀ a < 2, ∀ p < m.count, m.supported p → g (a * m.count + p) = w a (m.nodes p 0, m.nodes p 1))
    {uh : ℕ → ℝ × ℝ → ℝ} (huh : ∀ a < 2, Interpolates m.nodes m.elements (component m.count u a) (uh a))
    {M h κ : ℝ} (hM : ∀ a < 2, ∀ k < 2, ∀ l < 2, ∀ p ∈ body m.nodes m.elements,
      |partialDeriv (partialDeriv (w a) k) l p| ≤ M)
    (hh : ∀ e ∈ m.elements, ∀ i < 3, ∀ j < 3, ∀ k < 2, |vertices m.nodes e i k - vertices m.nodes e j k| ≤ h)
    (hκ : 0 < κ) (hd : ∀ e ∈ m.elements, κ * h ^ 2 ≤ |det2 (vertices m.nodes e)|) :
    ∫ p in body m.nodes m.elements, hooke 2 mu lam (gradientError w uh p) (gradientError w uh p) ≤
      (8 * mu + 4 * lam) * (8 * M * h / κ) ^ 2 * (MeasureTheory.volume (body m.nodes m.elements)).toReal := by
  have hn := hm.nondegenerate
  have z2 : 0 < 2 := by omega
  have o2 : 1 < 2 := by omega
  obtain ⟨v0, hv0⟩ := C108_interpolant hn ho fun p => w 0 (m.nodes p 0, m.nodes p 1)
  obtain ⟨v1, hv1⟩ := C108_interpolant hn ho fun p => w 1 (m.nodes p 0, m.nodes p 1)
  let v : ℕ → ℝ × ℝ → ℝ := fun a => if a = 0 then v0 else v1
  let W : ℕ → ℕ → ℝ := fun a p => w a (m.nodes p 0, m.nodes p 1)
  let y : ℕ → ℝ := fun r => W (r / m.count) (r % m.count)
  have hy : ∀ a, ∀ p < m.count, y (a * m.count + p) = W a p := fun a p hp => component_joined (y := W) hp
  have hcomp : ∀ a (v' : ℝ × ℝ → ℝ), Interpolates m.nodes m.elements (W a) v' →
      Interpolates m.nodes m.elements (component m.count y a) v' := by
    intro a v' h e he
    obtain ⟨c, g, g', h1, h2⟩ := h e he
    refine ⟨c, g, g', h1, fun i hi => ?_⟩
    rw [← h2 i hi]
    exact hy a _ (getD_lt hm.valid he hi)
  have hv : ∀ a < 2, Interpolates m.nodes m.elements (component m.count y a) (v a) := by
    intro a ha
    interval_cases a
    · exact hcomp 0 _ hv0
    · exact hcomp 1 _ hv1
  have hbest := C110_best hm ho hb hs mu lam c q hw hflow hu hg (y := y) (fun a _ p hp _ => hy a p hp) huh hv
  obtain ⟨_, G0, hG0⟩ := interpolation_data hn hv0 (hw 0 z2) (hM 0 z2) hh hκ hd
  obtain ⟨_, G1, hG1⟩ := interpolation_data hn hv1 (hw 1 o2) (hM 1 o2) hh hκ hd
  have d : ∀ a < 2, ∀ k, Continuous (partialDeriv (w a) k) := fun a ha k => continuous_partial (hw a ha) k
  have d00 := d 0 z2 0
  have d01 := d 0 z2 1
  have d10 := d 1 o2 0
  have d11 := d 1 o2 1
  have bound : ∀ {β x1 x2 x3 x4 : ℝ}, |x1| ≤ β → |x2| ≤ β → |x3| ≤ β → |x4| ≤ β →
      2 * mu * (x1 * x1 + x4 * x4 + (x2 + x3) * (x2 + x3) / 2) + lam * ((x1 + x4) * (x1 + x4)) ≤
        (8 * mu + 4 * lam) * β ^ 2 := by
    intro β x1 x2 x3 x4 b1 b2 b3 b4
    have s1 := sq_le_sq' (abs_le.1 b1).1 (abs_le.1 b1).2
    have s2 := sq_le_sq' (abs_le.1 b2).1 (abs_le.1 b2).2
    have s3 := sq_le_sq' (abs_le.1 b3).1 (abs_le.1 b3).2
    have s4 := sq_le_sq' (abs_le.1 b4).1 (abs_le.1 b4).2
    have t1 : x1 * x1 + x4 * x4 + (x2 + x3) * (x2 + x3) / 2 ≤ 4 * β ^ 2 := by nlinarith [sq_nonneg (x2 - x3)]
    have t2 : (x1 + x4) * (x1 + x4) ≤ 4 * β ^ 2 := by nlinarith [sq_nonneg (x1 - x4)]
    nlinarith [mul_le_mul_of_nonneg_left t1 hmu, mul_le_mul_of_nonneg_left t2 hlam]
  have hle := integral_body_le hn ho
    (f := fun p => hooke 2 mu lam (gradientError w v p) (gradientError w v p))
    (g := fun t p => hooke 2 mu lam (fun a k => partialDeriv (w a) k p - if a = 0 then G0 t k else G1 t k)
      fun a k => partialDeriv (w a) k p - if a = 0 then G0 t k else G1 t k)
    (C := (8 * mu + 4 * lam) * (8 * M * h / κ) ^ 2)
    (fun t _ => by
      simp only [hooke_plane, if_true, one_ne_zero, if_false]
      fun_prop)
    (fun t ht p hp => by
      simp only [hooke_plane, gradientError, v, if_true, one_ne_zero, if_false, (hG0 t ht).1 p hp 0 z2,
        (hG0 t ht).1 p hp 1 o2, (hG1 t ht).1 p hp 0 z2, (hG1 t ht).1 p hp 1 o2])
    (fun t ht p hp => by
      simp only [hooke_plane, if_true, one_ne_zero, if_false]
      exact bound ((hG0 t ht).2.2 p hp 0 z2) ((hG0 t ht).2.2 p hp 1 o2) ((hG1 t ht).2.2 p hp 0 z2)
        ((hG1 t ht).2.2 p hp 1 o2))
  have hnn : 0 ≤ ∫ p in body m.nodes m.elements, hooke 2 mu lam (gradientError uh v p) (gradientError uh v p) := by
    refine integral_nonneg fun p => ?_
    simp only [Pi.zero_apply, hooke_plane]
    have : ∀ x : ℝ, 0 ≤ x * x := mul_self_nonneg
    have h1 := this (gradientError uh v p 0 0)
    have h2 := this (gradientError uh v p 1 1)
    have h3 := this (gradientError uh v p 0 1 + gradientError uh v p 1 0)
    have h4 := this (gradientError uh v p 0 0 + gradientError uh v p 1 1)
    positivity
  linarith

end
end Conmech
