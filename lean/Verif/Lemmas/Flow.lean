import Verif.Spec.Flow
import Verif.Lemmas.Green
import Verif.Props.Refinement
import Verif.Spec.Normals
/-!
Flows through bodies and the work of constant loads.
-/
namespace Conmech
open Spec MeasureTheory

theorem length_pos {sqrt : ℝ → ℝ} (hs : IsSqrt sqrt) {x : ℝ} (hx : 0 < x) : 0 < sqrt x := by
  obtain ⟨h1, h2⟩ := hs x hx.le
  rcases h1.lt_or_eq with h | h
  · exact h
  · rw [← h, mul_zero] at h2
    exact absurd h2 hx.ne

/-- The gradient of a shape function points against the outer normal. -/
theorem exists_outerNormal {X : ℕ → ℕ → ℝ} (hX : det2 X ≠ 0) {sqrt : ℝ → ℝ} (hs : IsSqrt sqrt) {j : ℕ}
    (hj : j < 3) : ∃ n, OuterNormal X j n ∧ ∀ k < 2, -2 * (area X * Plane.gradient X j k) =
      segmentLength sqrt (fun i => X ((j + 1 + i) % 3)) * n k := by
  have hD : det2 X = (X ((j + 1) % 3) 1 - X ((j + 2) % 3) 1) * (X j 0 - X ((j + 1) % 3) 0) +
      (X ((j + 2) % 3) 0 - X ((j + 1) % 3) 0) * (X j 1 - X ((j + 1) % 3) 1) := by
    interval_cases j <;> norm_num <;> unfold det2 <;> ring
  have hg : Plane.gradient X j 0 = (X ((j + 1) % 3) 1 - X ((j + 2) % 3) 1) / det2 X ∧
      Plane.gradient X j 1 = (X ((j + 2) % 3) 0 - X ((j + 1) % 3) 0) / det2 X := by
    obtain ⟨h0, h1, h2⟩ := gradient_explicit hX
    interval_cases j
    · exact h0
    · exact h1
    · exact h2
  have hL : segmentLength sqrt (fun i => X ((j + 1 + i) % 3)) =
      sqrt ((X ((j + 1) % 3) 0 - X ((j + 2) % 3) 0) * (X ((j + 1) % 3) 0 - X ((j + 2) % 3) 0) +
        (X ((j + 1) % 3) 1 - X ((j + 2) % 3) 1) * (X ((j + 1) % 3) 1 - X ((j + 2) % 3) 1)) := rfl
  generalize hDD : det2 X = D at *
  obtain ⟨g0, g1⟩ := hg
  have ha : area X = |D| / 2 := by rw [← hDD]; rfl
  have hpos : 0 < (X ((j + 1) % 3) 0 - X ((j + 2) % 3) 0) * (X ((j + 1) % 3) 0 - X ((j + 2) % 3) 0) +
        (X ((j + 1) % 3) 1 - X ((j + 2) % 3) 1) * (X ((j + 1) % 3) 1 - X ((j + 2) % 3) 1) := by
    by_contra h
    have h1 : X ((j + 1) % 3) 0 - X ((j + 2) % 3) 0 = 0 := by nlinarith [sq_nonneg (X ((j + 1) % 3) 0 - X ((j + 2) % 3) 0), sq_nonneg (X ((j + 1) % 3) 1 - X ((j + 2) % 3) 1)]
    have h2 : X ((j + 1) % 3) 1 - X ((j + 2) % 3) 1 = 0 := by nlinarith [sq_nonneg (X ((j + 1) % 3) 0 - X ((j + 2) % 3) 0), sq_nonneg (X ((j + 1) % 3) 1 - X ((j + 2) % 3) 1)]
    refine hX ?_
    rw [hD, h2, show X ((j + 2) % 3) 0 - X ((j + 1) % 3) 0 = -(X ((j + 1) % 3) 0 - X ((j + 2) % 3) 0) by ring, h1]
    ring
  have hl := length_pos hs hpos
  have hl2 := (hs _ hpos.le).2
  rw [← hL] at hl hl2
  generalize segmentLength sqrt (fun i => X ((j + 1 + i) % 3)) = L at *
  have habs : |D| / D * (|D| / D) = 1 := by
    rw [div_mul_div_comm, abs_mul_abs_self, div_self (mul_ne_zero hX hX)]
  have habs' : |D| / D * D = |D| := div_mul_cancel₀ _ hX
  refine ⟨fun k => -(|D| / D) * (if k = 0 then X ((j + 1) % 3) 1 - X ((j + 2) % 3) 1 else
    X ((j + 2) % 3) 0 - X ((j + 1) % 3) 0) / L, ⟨?_, ?_, ?_⟩, ?_⟩
  · simp only [if_true, one_ne_zero, if_false]
    generalize X ((j + 1) % 3) 0 = a0 at *
    generalize X ((j + 1) % 3) 1 = a1 at *
    generalize X ((j + 2) % 3) 0 = b0 at *
    generalize X ((j + 2) % 3) 1 = b1 at *
    rw [div_pow, div_pow, ← add_div, div_eq_one_iff_eq (by positivity)]
    linear_combination ((a1 - b1) ^ 2 + (b0 - a0) ^ 2) * habs - hl2
  · simp only [if_true, one_ne_zero, if_false]
    ring
  · simp only [if_true, one_ne_zero, if_false]
    have : -(|D| / D) * (X ((j + 1) % 3) 1 - X ((j + 2) % 3) 1) / L * (X j 0 - X ((j + 1) % 3) 0) +
        -(|D| / D) * (X ((j + 2) % 3) 0 - X ((j + 1) % 3) 0) / L * (X j 1 - X ((j + 1) % 3) 1) =
        -(|D| / D * D) / L := by
      rw [hD]
      ring
    rw [this, habs', neg_div]
    exact neg_neg_of_pos (div_pos (abs_pos.2 hX) hl)
  · intro k hk
    rw [mul_div_cancel₀ _ hl.ne', ha]
    interval_cases k
    · rw [g0, if_pos rfl]; ring
    · rw [g1, if_neg one_ne_zero]; ring

/-- The flow out of a triangle through one side. -/
theorem flow_through {X : ℕ → ℕ → ℝ} (hX : det2 X ≠ 0) {sqrt : ℝ → ℝ} (hs : IsSqrt sqrt) {j : ℕ} (hj : j < 3)
    {s : ℕ → ℝ × ℝ → ℝ} (hc : ∀ k < 2, Continuous (s k)) {q : ℝ} (h : FlowThrough X j s q) (v w : ℝ) :
    ∑ k ∈ Finset.range 2, -2 * (area X * Plane.gradient X j k *
      edgeWork (s k) (X ((j + 1) % 3)) (X ((j + 2) % 3)) v w) =
      q * (segmentLength sqrt (fun i => X ((j + 1 + i) % 3)) * ((v + w) / 2)) := by
  obtain ⟨n, hn, hk⟩ := exists_outerNormal hX hs hj
  have cont : ∀ k < 2, Continuous fun r : ℝ => n k * (s k ((1 - r) * X ((j + 1) % 3) 0 + r * X ((j + 2) % 3) 0,
      (1 - r) * X ((j + 1) % 3) 1 + r * X ((j + 2) % 3) 1) * ((1 - r) * v + r * w)) := by
    intro k hk
    refine continuous_const.mul ?_
    exact ((hc k hk).comp (by fun_prop : Continuous fun r : ℝ =>
      (((1 - r) * X ((j + 1) % 3) 0 + r * X ((j + 2) % 3) 0,
        (1 - r) * X ((j + 1) % 3) 1 + r * X ((j + 2) % 3) 1) : ℝ × ℝ))).mul (by fun_prop)
  have e : ∀ k < 2, -2 * (area X * Plane.gradient X j k *
      edgeWork (s k) (X ((j + 1) % 3)) (X ((j + 2) % 3)) v w) =
      segmentLength sqrt (fun i => X ((j + 1 + i) % 3)) * (n k *
        edgeWork (s k) (X ((j + 1) % 3)) (X ((j + 2) % 3)) v w) := by
    intro k hk'
    linear_combination edgeWork (s k) (X ((j + 1) % 3)) (X ((j + 2) % 3)) v w * hk k hk'
  rw [Finset.sum_congr rfl fun k hk' => e k (Finset.mem_range.1 hk'), ← Finset.mul_sum, Finset.sum_range_succ,
    Finset.sum_range_one, mul_left_comm]
  congr 1
  unfold edgeWork
  rw [← intervalIntegral.integral_const_mul, ← intervalIntegral.integral_const_mul,
    ← intervalIntegral.integral_add
      (Continuous.intervalIntegrable (cont 0 (by omega)) _ _)
      (Continuous.intervalIntegrable (cont 1 (by omega)) _ _)]
  have : ∀ r ∈ Set.uIcc (0 : ℝ) 1, n 0 * (s 0 ((1 - r) * X ((j + 1) % 3) 0 + r * X ((j + 2) % 3) 0,
      (1 - r) * X ((j + 1) % 3) 1 + r * X ((j + 2) % 3) 1) * ((1 - r) * v + r * w)) +
      n 1 * (s 1 ((1 - r) * X ((j + 1) % 3) 0 + r * X ((j + 2) % 3) 0,
      (1 - r) * X ((j + 1) % 3) 1 + r * X ((j + 2) % 3) 1) * ((1 - r) * v + r * w)) = q * ((1 - r) * v + r * w) := by
    intro r hr
    rw [Set.uIcc_of_le zero_le_one] at hr
    rw [← h n hn r hr.1 hr.2 _ rfl]
    ring
  rw [intervalIntegral.integral_congr this, intervalIntegral.integral_const_mul]
  congr 1
  have hd : ∀ r ∈ Set.uIcc (0 : ℝ) 1, HasDerivAt (fun r : ℝ => r * v + r ^ 2 / 2 * (w - v)) ((1 - r) * v + r * w) r := by
    intro r _
    have h1 := (hasDerivAt_id r).mul_const v
    have h2 := (((hasDerivAt_id r).pow 2).div_const 2).mul_const (w - v)
    refine (h1.add h2).congr_deriv ?_
    simp
    ring
  rw [intervalIntegral.integral_eq_sub_of_hasDerivAt hd (Continuous.intervalIntegrable (by fun_prop) _ _)]
  ring

section
variable {N : ℕ} {m : SupportedMesh ℝ}

/-- The length of the side of an element and of the same side given by its nodes. -/
theorem side_value {elements : List (List ℕ)} (hl : ∀ e ∈ elements, e.length = 3) {nodes : ℕ → ℕ → ℝ}
    (sqrt : ℝ → ℝ) (x : ℕ → ℝ) {t j : ℕ} (ht : t < elements.length) (hj : j < 3) {f : List ℕ}
    (hf : f.length = 2) (h : faceAt elements t j = (f : Multiset ℕ)) :
    segmentLength sqrt (fun i => vertices nodes (elements.getD t []) ((j + 1 + i) % 3)) *
      ((x ((elements.getD t []).getD ((j + 1) % 3) 0) + x ((elements.getD t []).getD ((j + 2) % 3) 0)) / 2) =
    surfaceSize sqrt 2 (vertices nodes f) * ((valuesOn f x 0 + valuesOn f x 1) / 2) := by
  match f, hf with
  | [a, b], _ =>
    rw [faceAt_pair hl ht hj] at h
    simp only [surfaceSize, if_true, segmentLength, vertices, valuesOn, List.getD_cons_zero, List.getD_cons_succ,
      add_zero, show j + 1 + 1 = j + 2 from rfl]
    rcases pair_cases h with ⟨h1, h2⟩ | ⟨h1, h2⟩
    · rw [h1, h2]
    · rw [h1, h2]
      congr 1
      · congr 1
        ring
      · ring

/-- A sum over a list in which at most one entry counts. -/
theorem sum_map_once {α β : Type} [DecidableEq β] (l : List α) (g : α → β) (hl : (l.map g).Nodup) (b : β)
    (φ : α → ℝ) : ((∀ a ∈ l, g a ≠ b) → (l.map fun a => if g a = b then φ a else 0).sum = 0) ∧
      ∀ a ∈ l, g a = b → (l.map fun a => if g a = b then φ a else 0).sum = φ a := by
  induction l with
  | nil => simp
  | cons x l ih =>
    simp only [List.map_cons, List.nodup_cons] at hl
    obtain ⟨i1, i2⟩ := ih hl.2
    simp only [List.map_cons, List.sum_cons]
    constructor
    · intro h
      rw [if_neg (h x (by simp)), i1 fun a ha => h a (by simp [ha]), add_zero]
    · intro a ha hab
      rcases List.mem_cons.1 ha with rfl | ha
      · rw [if_pos hab, i1, add_zero]
        intro a' ha' h
        exact hl.1 (List.mem_map.2 ⟨a', ha', h.trans hab.symm⟩)
      · rw [if_neg, i2 a ha hab, zero_add]
        intro h
        exact hl.1 (List.mem_map.2 ⟨a, ha, hab.trans h.symm⟩)

/-- The integral over the loaded sides as a sum over the faces of the boundary. -/
theorem sum_loaded (hl : ∀ e ∈ m.elements, e.length = 3) (hb : LoadsBoundary m) (φ : List ℕ → ℝ) :
    ∑ n ∈ (faceNumbers 2 m.elements).filter (fun n => BoundaryFace m.elements (faceAt m.elements n.1 n.2)),
      (m.sides.map fun f : List ℕ => if (f : Multiset ℕ) = faceAt m.elements n.1 n.2 then φ f else 0).sum =
    (m.sides.map φ).sum := by
  have swap : ∀ (S : Finset (ℕ × ℕ)) (l : List (List ℕ)) (ψ : ℕ × ℕ → List ℕ → ℝ),
      ∑ n ∈ S, (l.map fun f => ψ n f).sum = (l.map fun f => ∑ n ∈ S, ψ n f).sum := by
    intro S l ψ
    induction l with
    | nil => simp
    | cons f l ih => simp only [List.map_cons, List.sum_cons, Finset.sum_add_distrib, ih]
  rw [swap]
  congr 1
  refine List.map_congr_left fun f hf => ?_
  have hB := hb.boundary f hf
  have hcard := hB
  unfold BoundaryFace at hcard
  rw [count_faces (d := 2) hl] at hcard
  rw [← Finset.sum_filter, Finset.sum_const, Finset.filter_filter]
  have : ((faceNumbers 2 m.elements).filter fun n => BoundaryFace m.elements (faceAt m.elements n.1 n.2) ∧
      (f : Multiset ℕ) = faceAt m.elements n.1 n.2) =
      (faceNumbers 2 m.elements).filter fun n => faceAt m.elements n.1 n.2 = (f : Multiset ℕ) := by
    refine Finset.filter_congr fun n _ => ?_
    constructor
    · rintro ⟨-, h⟩; exact h.symm
    · intro h; exact ⟨by rw [h]; exact hB, h.symm⟩
  rw [this, hcard, one_smul]

/-- Tested with a function that vanishes on the supports, a flow does the work of the constant loads. -/
theorem Spec.Flow.weak (hm : m.Good) (ho : NonOverlapping 2 m.elements m.nodes) (hb : LoadsBoundary m)
    {sqrt : ℝ → ℝ} (hs : IsSqrt sqrt) {s : ℕ → ℝ × ℝ → ℝ} {c q : ℝ} (h : Flow m s c q) {x : ℕ → ℝ}
    (hx0 : ∀ p < m.count, m.supported p → x p = 0) {d : ℕ → ℝ} {G : ℕ → ℕ → ℝ}
    (hx : ∀ t < m.elements.length, ∀ i < 3, valuesOn (m.elements.getD t []) x i = d t +
      G t 0 * vertices m.nodes (m.elements.getD t []) i 0 + G t 1 * vertices m.nodes (m.elements.getD t []) i 1) :
    (sumElements m.elements fun t e => ∫ p in triangle (vertices m.nodes e), (s 0 p * G t 0 + s 1 p * G t 1)) =
      (c * sumElements m.elements fun _ e => area (vertices m.nodes e) *
        ((valuesOn e x 0 + valuesOn e x 1 + valuesOn e x 2) / 3)) +
      q * sideIntegral (surfaceSize sqrt 2) m.nodes m.sides x := by
  classical
  have hl : ∀ e ∈ m.elements, e.length = 3 := fun e he => (hm.valid e he).1
  rw [green_body hm.valid hm.nondegenerate ho h.smooth hx]
  congr 1
  · rw [← sumElements_mul]
    unfold sumElements
    rw [← Finset.sum_neg_distrib]
    refine Finset.sum_congr rfl fun t ht => ?_
    have ht := Finset.mem_range.1 ht
    beta_reduce
    have hd := det2_getD hm.nondegenerate ht
    have : ∀ p ∈ triangle (vertices m.nodes (m.elements.getD t [])),
        (partialDeriv (s 0) 0 p + partialDeriv (s 1) 1 p) * (d t + G t 0 * p.1 + G t 1 * p.2) =
          -c * (d t + G t 0 * p.1 + G t 1 * p.2) := by
      intro p hp
      have := h.inside p ⟨_, getD_mem ht, hp⟩
      rw [← this]
      ring
    rw [setIntegral_congr_fun (isCompact_triangle _).measurableSet this, integral_const_mul,
      integral_affine hd (hx t ht)]
    ring
  · unfold sideIntegral
    rw [← List.sum_map_mul_left, ← sum_loaded hl hb]
    refine Finset.sum_congr rfl fun n hn => ?_
    obtain ⟨t, j⟩ := n
    obtain ⟨hn, hB⟩ := Finset.mem_filter.1 hn
    simp only [faceNumbers, Finset.mem_product, Finset.mem_range] at hn
    obtain ⟨ht, hj⟩ := hn
    have hd := det2_getD hm.nondegenerate ht
    have he := getD_mem ht
    have hcont : ∀ k < 2, Continuous (s k) := fun k hk => (h.smooth k hk).continuous
    obtain ⟨o1, o2⟩ := sum_map_once m.sides (fun f : List ℕ => (f : Multiset ℕ)) hb.once (faceAt m.elements t j)
      fun f => q * (surfaceSize sqrt 2 (vertices m.nodes f) * ((valuesOn f x 0 + valuesOn f x 1) / 2))
    have hlt : ∀ i, (m.elements.getD t []).getD (i % 3) 0 < m.count := fun i =>
      getD_lt hm.valid he (Nat.mod_lt _ (by omega))
    have hmem : ∀ i, i = 1 ∨ i = 2 → (m.elements.getD t []).getD ((j + i) % 3) 0 ∈ faceAt m.elements t j := by
      intro i hi
      rw [faceAt_pair hl ht hj]
      rcases hi with rfl | rfl <;> simp
    rcases h.boundary _ he j hj hB with hS | hF
    · have z : ∀ i, i = 1 ∨ i = 2 → x ((m.elements.getD t []).getD ((j + i) % 3) 0) = 0 := by
        intro i hi
        exact hx0 _ (hlt _) (hS _ (Multiset.mem_coe.1 (hmem i hi)))
      have z0 : ∀ k, sideWork m.nodes m.elements x (s k) (t, j) = 0 := by
        intro k
        simp only [sideWork, z 1 (Or.inl rfl), z 2 (Or.inr rfl), edgeWork, mul_zero, add_zero,
          intervalIntegral.integral_zero]
      simp only [z0, mul_zero, Finset.sum_const_zero]
      by_cases hex : ∃ f ∈ m.sides, (f : Multiset ℕ) = faceAt m.elements t j
      · obtain ⟨f, hf, hfe⟩ := hex
        rw [o2 f hf hfe, ← side_value hl sqrt x ht hj (hm.sides f hf).1 hfe.symm, z 1 (Or.inl rfl), z 2 (Or.inr rfl)]
        ring
      · push Not at hex
        rw [o1 hex]
    · have := flow_through hd hs hj hcont hF (x ((m.elements.getD t []).getD ((j + 1) % 3) 0))
        (x ((m.elements.getD t []).getD ((j + 2) % 3) 0))
      refine Eq.trans this ?_
      by_cases hex : ∃ f ∈ m.sides, (f : Multiset ℕ) = faceAt m.elements t j
      · rw [if_pos (show ∃ f ∈ m.sides, (f : Multiset ℕ) = ((m.elements.getD t []).eraseIdx j : List ℕ) from hex)]
        obtain ⟨f, hf, hfe⟩ := hex
        rw [o2 f hf hfe, ← side_value hl sqrt x ht hj (hm.sides f hf).1 hfe.symm]
      · rw [if_neg (show ¬ ∃ f ∈ m.sides, (f : Multiset ℕ) = ((m.elements.getD t []).eraseIdx j : List ℕ) from hex),
          zero_mul]
        push Not at hex
        rw [o1 hex]

end
end Conmech
