import Verif.Model.Recovery
import Verif.Spec.Recovery
import Verif.Props.Elasticity
import Verif.Props.Tensors
/-!
C91: recovered gradients and stresses.
-/
namespace Conmech
open Spec

section
variable {K : Type _} [Field K]

theorem Recovery.add_result (r : Recovery K) (p : ℕ) (g : K × K) (q k : ℕ) (hk : k < 2) :
    (r.add p g).result q k = r.result q k + if q = p then (if k = 0 then g.1 else g.2) else 0 := by
  unfold Recovery.add
  by_cases h : q = p
  · interval_cases k <;> simp [h]
  · simp [h]

theorem Recovery.add_norm (r : Recovery K) (p : ℕ) (g : K × K) (q : ℕ) :
    (r.add p g).norm q = r.norm q + if q = p then 1 else 0 := by
  unfold Recovery.add
  by_cases h : q = p <;> simp [h]

theorem sum_three {e : List ℕ} (hl : e.length = 3) (hn : e.Nodup) (q : ℕ) (x : K) :
    (if q = e.getD 0 0 then x else 0) + (if q = e.getD 1 0 then x else 0) +
      (if q = e.getD 2 0 then x else 0) = if q ∈ e then x else 0 := by
  match e, hl with
  | [a, b, c], _ =>
    simp only [List.nodup_cons, List.mem_cons, List.not_mem_nil, or_false, not_or, not_false_eq_true,
      and_true, List.nodup_nil] at hn
    obtain ⟨⟨h1, h2⟩, h3⟩ := hn
    simp only [List.getD_cons_zero, List.getD_cons_succ, List.mem_cons, List.not_mem_nil, or_false]
    by_cases ha : q = a
    · subst ha; simp [h1, h2]
    · by_cases hb : q = b
      · subst hb; simp [ha, h3]
      · by_cases hc : q = c
        · subst hc; simp [ha, hb]
        · simp [ha, hb, hc]

/-- The gradient of one element. -/
def elementGradient (nodes : ℕ → ℕ → K) (f : ℕ → K) (e : List ℕ) : K × K :=
  calculateDxDy (nodes (e.getD 0 0)) (f (e.getD 0 0)) (nodes (e.getD 1 0)) (f (e.getD 1 0))
    (nodes (e.getD 2 0)) (f (e.getD 2 0))

theorem recover_foldl (nodes : ℕ → ℕ → K) (f : ℕ → K) (elements : List (List ℕ))
    (hl : ∀ e ∈ elements, e.length = 3) (hd : DistinctVertices elements) (r : Recovery K) (p : ℕ) :
    (∀ k < 2, (elements.foldl (recoverElement nodes f) r).result p k = r.result p k +
      (elements.map fun e => if p ∈ e then
        (if k = 0 then (elementGradient nodes f e).1 else (elementGradient nodes f e).2) else 0).sum) ∧
    (elements.foldl (recoverElement nodes f) r).norm p = r.norm p +
      (elements.map fun e => if p ∈ e then 1 else 0).sum := by
  induction elements generalizing r with
  | nil => simp
  | cons e l ih =>
    have ih := ih (fun e' h => hl e' (List.mem_cons_of_mem _ h))
      (fun e' h => hd e' (List.mem_cons_of_mem _ h)) (recoverElement nodes f r e)
    have h3 := hl e List.mem_cons_self
    have hn := hd e List.mem_cons_self
    refine ⟨fun k hk => ?_, ?_⟩
    · rw [List.foldl_cons, ih.1 k hk, List.map_cons, List.sum_cons]
      unfold recoverElement
      simp only [Recovery.add_result _ _ _ _ _ hk]
      rw [← sum_three h3 hn p]
      simp only [elementGradient]
      ring
    · rw [List.foldl_cons, ih.2, List.map_cons, List.sum_cons]
      unfold recoverElement
      simp only [Recovery.add_norm]
      rw [← sum_three h3 hn p]
      ring

/-- C91, up to the sign: the negative of what is computed from the corners of a triangle is the gradient of
the affine function with the given values. -/
theorem C91_gradient_partial (X : ℕ → ℕ → K) (h : det2 X ≠ 0) (vals : ℕ → K) :
    IsGradient 2 X vals fun k => if k = 0
      then - (calculateDxDy (X 0) (vals 0) (X 1) (vals 1) (X 2) (vals 2)).1
      else - (calculateDxDy (X 0) (vals 0) (X 1) (vals 1) (X 2) (vals 2)).2 := by
  have hd : (X 1 0 - X 0 0) * (X 2 1 - X 0 1) - (X 1 1 - X 0 1) * (X 2 0 - X 0 0) ≠ 0 := h
  refine ⟨vals 0 + ((calculateDxDy (X 0) (vals 0) (X 1) (vals 1) (X 2) (vals 2)).1 * X 0 0 +
    (calculateDxDy (X 0) (vals 0) (X 1) (vals 1) (X 2) (vals 2)).2 * X 0 1), fun i hi => ?_⟩
  have hx : (calculateDxDy (X 0) (vals 0) (X 1) (vals 1) (X 2) (vals 2)).1 * _ = _ := div_mul_cancel₀ _ hd
  have hy : (calculateDxDy (X 0) (vals 0) (X 1) (vals 1) (X 2) (vals 2)).2 * _ = _ := div_mul_cancel₀ _ hd
  simp only [Finset.sum_range_succ, Finset.sum_range_zero, if_true, one_ne_zero, if_false]
  refine mul_left_cancel₀ hd ?_
  interval_cases i
  · ring
  · linear_combination (X 1 0 - X 0 0) * hx + (X 1 1 - X 0 1) * hy
  · linear_combination (X 2 0 - X 0 0) * hx + (X 2 1 - X 0 1) * hy

end

section
variable {K : Type _} [Field K] [LinearOrder K] [IsStrictOrderedRing K]
variable {N : ℕ} {elements : List (List ℕ)} {nodes : ℕ → ℕ → K}

/-- C91 fails: on every triangle the computed pair is not the gradient, unless the function is constant. -/
theorem C91_gradient_wrong (X : ℕ → ℕ → K) (h : det2 X ≠ 0) (vals : ℕ → K)
    (hc : vals 0 ≠ vals 1 ∨ vals 0 ≠ vals 2) :
    ¬ IsGradient 2 X vals fun k => if k = 0
      then (calculateDxDy (X 0) (vals 0) (X 1) (vals 1) (X 2) (vals 2)).1
      else (calculateDxDy (X 0) (vals 0) (X 1) (vals 1) (X 2) (vals 2)).2 := by
  intro hG
  have s := Plane.shape X h
  have hG' := C91_gradient_partial X h vals
  have e0 := (s.gradient_eq hG (k := 0) (by decide)).symm.trans (s.gradient_eq hG' (by decide))
  have e1 := (s.gradient_eq hG (k := 1) (by decide)).symm.trans (s.gradient_eq hG' (by decide))
  simp only [if_true, one_ne_zero, if_false] at e0 e1
  obtain ⟨c, hc'⟩ := hG
  have v := fun i hi => hc' i hi
  simp only [Finset.sum_range_succ, Finset.sum_range_zero, if_true, one_ne_zero, if_false] at v
  have z0 : (calculateDxDy (X 0) (vals 0) (X 1) (vals 1) (X 2) (vals 2)).1 = 0 := by linarith
  have z1 : (calculateDxDy (X 0) (vals 0) (X 1) (vals 1) (X 2) (vals 2)).2 = 0 := by linarith
  rw [z0, z1] at v
  have v0 := v 0 (by decide)
  have v1 := v 1 (by decide)
  have v2 := v 2 (by decide)
  simp only [zero_mul, add_zero] at v0 v1 v2
  rcases hc with hc | hc
  · exact hc (v0.trans v1.symm)
  · exact hc (v0.trans v2.symm)

/-- C91, up to the sign: the recovered gradient is minus the arithmetic mean of the gradients on the
triangles to which the node belongs. -/
theorem C91_mean_partial (hv : ValidElements 2 N elements) (hn : Nondegenerate2 elements nodes)
    (hd : DistinctVertices elements) (f : ℕ → K) (G : ℕ → ℕ → K)
    (hG : FieldGradient 2 elements nodes f G) (p k : ℕ) (hk : k < 2) :
    recoverGradient elements nodes f p k = - meanAround elements (fun t => G t k) p := by
  have hl : ∀ e ∈ elements, e.length = 3 := fun e he => (hv e he).1
  unfold recoverGradient meanAround
  simp only
  obtain ⟨h1, h2⟩ := recover_foldl nodes f elements hl hd ⟨fun _ _ => 0, fun _ => 0⟩ p
  rw [h1 k hk, h2]
  simp only [zero_add]
  rw [list_sum_range elements [], list_sum_range elements [], ← neg_div]
  congr 1
  unfold sumElements
  rw [← Finset.sum_neg_distrib]
  refine Finset.sum_congr rfl fun t ht => ?_
  have ht := Finset.mem_range.1 ht
  by_cases hp : p ∈ elements.getD t []
  · simp only [hp, if_true]
    have hdet := hn _ (getD_mem ht)
    have s := Plane.shape _ hdet
    have e1 := s.gradient_eq (hG t ht) hk
    have e2 := s.gradient_eq (C91_gradient_partial _ hdet (valuesOn (elements.getD t []) f)) hk
    rw [← e1, e2]
    split_ifs <;> rw [neg_neg] <;> rfl
  · simp only [hp, if_false, neg_zero]

theorem used_sum_pos {p : ℕ} (hu : TouchesNode elements p) :
    0 < sumElements elements (fun _ e => if p ∈ e then (1 : K) else 0) := by
  obtain ⟨e, he, hp⟩ := hu
  obtain ⟨t, ht, rfl⟩ := List.getElem_of_mem he
  unfold sumElements
  refine Finset.sum_pos' (fun s _ => by beta_reduce; split_ifs <;> norm_num) ⟨t, Finset.mem_range.2 ht, ?_⟩
  beta_reduce
  rw [List.getD_eq_getElem _ _ ht, if_pos hp]
  exact one_pos

theorem mean_constant {p : ℕ} (hu : TouchesNode elements p) {g : ℕ → K} {c : K}
    (hg : ∀ t < elements.length, g t = c) : meanAround elements g p = c := by
  unfold meanAround
  rw [div_eq_iff (used_sum_pos hu).ne', ← sumElements_mul]
  refine sumElements_congr fun t ht => ?_
  rw [hg t ht]
  split_ifs <;> simp

/-- C91, up to the sign: every component of minus the recovered gradient lies between the values on the
triangles around the node. -/
theorem C91_bounds_partial (hv : ValidElements 2 N elements) (hn : Nondegenerate2 elements nodes)
    (hd : DistinctVertices elements) (f : ℕ → K) (G : ℕ → ℕ → K)
    (hG : FieldGradient 2 elements nodes f G) (p k : ℕ) (hk : k < 2) (hu : TouchesNode elements p) (lo hi : K)
    (hb : ∀ t < elements.length, p ∈ elements.getD t [] → lo ≤ G t k ∧ G t k ≤ hi) :
    lo ≤ - recoverGradient elements nodes f p k ∧ - recoverGradient elements nodes f p k ≤ hi := by
  rw [C91_mean_partial hv hn hd f G hG p k hk, neg_neg]
  unfold meanAround
  have hpos := used_sum_pos (K := K) hu
  rw [le_div_iff₀ hpos, div_le_iff₀ hpos, ← sumElements_mul, ← sumElements_mul]
  constructor
  · refine Finset.sum_le_sum fun t ht => ?_
    have := hb t (Finset.mem_range.1 ht)
    beta_reduce
    split_ifs with h
    · rw [mul_one]; exact (this h).1
    · simp
  · refine Finset.sum_le_sum fun t ht => ?_
    have := hb t (Finset.mem_range.1 ht)
    beta_reduce
    split_ifs with h
    · rw [mul_one]; exact (this h).2
    · simp

omit [LinearOrder K] [IsStrictOrderedRing K] in
theorem affine_fieldGradient (hv : ValidElements 2 N elements) {u : ℕ → ℕ → K} {c : ℕ → K}
    {G : ℕ → ℕ → K} (hu : AffineDisplacement N nodes u c G) {a : ℕ} (ha : a < 2) :
    FieldGradient 2 elements nodes (fun q => u q a) fun _ => G a := by
  intro t ht
  refine ⟨c a, fun i hi => ?_⟩
  simp only [valuesOn, vertices, Finset.sum_range_succ, Finset.sum_range_zero, zero_add]
  exact hu _ (getD_lt hv (getD_mem ht) hi) a ha

/-- C91, up to the sign: the recovered gradient of an affine field is minus the gradient at every node of an
element. -/
theorem C91_affine_partial (hv : ValidElements 2 N elements) (hn : Nondegenerate2 elements nodes)
    (hd : DistinctVertices elements) {u : ℕ → ℕ → K} {c : ℕ → K} {G : ℕ → ℕ → K}
    (hu : AffineDisplacement N nodes u c G) (p : ℕ) (hp : TouchesNode elements p) (a : ℕ) (ha : a < 2) (k : ℕ)
    (hk : k < 2) : recoverTensor elements nodes u p a k = - G a k := by
  unfold recoverTensor
  rw [C91_mean_partial hv hn hd _ _ (affine_fieldGradient hv hu ha) p k hk]
  exact congrArg Neg.neg (mean_constant hp fun _ _ => rfl)

/-- C91 fails: wherever an affine field is not constant, the recovered gradient has the wrong sign. -/
theorem C91_sign_wrong (hv : ValidElements 2 N elements) (hn : Nondegenerate2 elements nodes)
    (hd : DistinctVertices elements) {u : ℕ → ℕ → K} {c : ℕ → K} {G : ℕ → ℕ → K}
    (hu : AffineDisplacement N nodes u c G) (p : ℕ) (hp : TouchesNode elements p) (a : ℕ) (ha : a < 2) (k : ℕ)
    (hk : k < 2) (hG : G a k ≠ 0) : recoverTensor elements nodes u p a k ≠ G a k := by
  rw [C91_affine_partial hv hn hd hu p hp a ha k hk]
  intro h
  exact hG (by linarith)

omit [LinearOrder K] [IsStrictOrderedRing K] in
theorem hookeStress_eq (h2 : (2 : K) ≠ 0) (mu lam : K) (G : ℕ → ℕ → ℕ → K) (p : ℕ) (G' : ℕ → ℕ → K)
    (h : ∀ a < 2, ∀ b < 2, G p a b = - G' a b) (a : ℕ) (ha : a < 2) (b : ℕ) (hb : b < 2) :
    hookeStress mu lam G p a b = - planeStress mu lam G' a b := by
  have h00 := h 0 (by decide) 0 (by decide)
  have h01 := h 0 (by decide) 1 (by decide)
  have h10 := h 1 (by decide) 0 (by decide)
  have h11 := h 1 (by decide) 1 (by decide)
  interval_cases a <;> interval_cases b <;> simp only [hookeStress, planeStress, h00, h01, h10, h11, if_true,
    zero_ne_one, one_ne_zero, if_false] <;> field_simp <;> ring

/-- C91, up to the sign: for affine displacements and velocities the viscoelastic stress at every node is
minus Hooke's law of the strain with the elastic coefficients and of the strain rate with the viscous ones. -/
theorem C91_viscoelastic_partial (hv : ValidElements 2 N elements) (hn : Nondegenerate2 elements nodes)
    (hd : DistinctVertices elements) {u v : ℕ → ℕ → K} {c c' : ℕ → K} {G H : ℕ → ℕ → K}
    (hu : AffineDisplacement N nodes u c G) (hw : AffineDisplacement N nodes v c' H) (mu la th ze : K) (p : ℕ)
    (hp : TouchesNode elements p) (a : ℕ) (ha : a < 2) (b : ℕ) (hb : b < 2) :
    viscoelasticStress mu la th ze elements nodes u v p a b =
      - (planeStress mu la G a b + planeStress th ze H a b) := by
  unfold viscoelasticStress
  rw [hookeStress_eq two_ne_zero mu la _ p G (fun a ha b hb => C91_affine_partial hv hn hd hu p hp a ha b hb)
      a ha b hb,
    hookeStress_eq two_ne_zero th ze _ p H (fun a ha b hb => C91_affine_partial hv hn hd hw p hp a ha b hb)
      a ha b hb, neg_add]

omit [LinearOrder K] [IsStrictOrderedRing K] in
/-- C91: both stress tensors are symmetric, for all fields. -/
theorem C91_symmetric (mu la th ze : K) (relaxation : ℕ → ℕ → ℕ → K) (u v : ℕ → ℕ → K) (p a b : ℕ)
    (ha : a < 2) (hb : b < 2) :
    viscoelasticStress mu la th ze elements nodes u v p a b =
      viscoelasticStress mu la th ze elements nodes u v p b a ∧
    elasticRelaxationStress mu la relaxation elements nodes u v p a b =
      elasticRelaxationStress mu la relaxation elements nodes u v p b a := by
  interval_cases a <;> interval_cases b <;>
    simp [viscoelasticStress, elasticRelaxationStress, hookeStress, relaxationStress]

/-- C91: a translation with an infinitesimal rotation has no stress. -/
theorem C91_rigid (hv : ValidElements 2 N elements) (hn : Nondegenerate2 elements nodes)
    (hd : DistinctVertices elements) {u : ℕ → ℕ → K} {c : ℕ → K} {G : ℕ → ℕ → K}
    (hu : AffineDisplacement N nodes u c G) (hG : ∀ a < 2, ∀ b < 2, G a b = - G b a) (mu la : K) (p : ℕ)
    (hp : TouchesNode elements p) (a : ℕ) (ha : a < 2) (b : ℕ) (hb : b < 2) :
    hookeStress mu la (recoverTensor elements nodes u) p a b = 0 := by
  rw [hookeStress_eq two_ne_zero mu la _ p G (fun a ha b hb => C91_affine_partial hv hn hd hu p hp a ha b hb)
      a ha b hb]
  have h00 := hG 0 (by decide) 0 (by decide)
  have h01 := hG 0 (by decide) 1 (by decide)
  have h11 := hG 1 (by decide) 1 (by decide)
  have z0 : G 0 0 = 0 := by linarith
  have z1 : G 1 1 = 0 := by linarith
  interval_cases a <;> interval_cases b <;> simp [planeStress, z0, z1, h01]

omit [LinearOrder K] [IsStrictOrderedRing K] in
theorem affine_vectorGradient (hv : ValidElements 2 N elements) {u : ℕ → ℕ → K} {c : ℕ → K}
    {G : ℕ → ℕ → K} (hu : AffineDisplacement N nodes u c G) :
    VectorGradient 2 N elements nodes (flat N u) fun _ => G := by
  refine rigid_gradient hv (c := c) (S := G) fun a ha p hp => ?_
  rw [show flat N u (a * N + p) = u p a by unfold flat; rw [block_div _ hp, block_mod _ hp], hu p hp a ha]
  simp only [Finset.sum_range_succ, Finset.sum_range_zero, zero_add]

/-- C91, up to the sign: the recovered stress of an affine displacement is the negative of the one that the
elasticity matrix balances: its work on every displacement is minus the form of the matrix. `node t` is any
node of element `t`. -/
theorem C91_work_partial (hv : ValidElements 2 N elements) (hn : Nondegenerate2 elements nodes)
    (hd : DistinctVertices elements) {u : ℕ → ℕ → K} {c : ℕ → K} {G : ℕ → ℕ → K}
    (hu : AffineDisplacement N nodes u c G) (mu la : K) (w : ℕ → K) (V : ℕ → ℕ → ℕ → K)
    (hV : VectorGradient 2 N elements nodes w V) (node : ℕ → ℕ)
    (hnode : ∀ t < elements.length, node t ∈ elements.getD t []) :
    stressWork elements nodes (fun t => hookeStress mu la (recoverTensor elements nodes u) (node t)) V =
      - form (2 * N) (2 * N) (Plane.constitutive N (basicMatrices2 elements nodes).W mu la) w (flat N u) := by
  rw [C26_hooke hv hn mu la w (flat N u) V _ hV (affine_vectorGradient hv hu)]
  unfold stressWork elasticEnergy sumElements
  rw [← Finset.sum_neg_distrib]
  refine Finset.sum_congr rfl fun t ht => ?_
  have ht := Finset.mem_range.1 ht
  have hp : TouchesNode elements (node t) := ⟨_, getD_mem ht, hnode t ht⟩
  have hs := fun a ha b hb => hookeStress_eq two_ne_zero mu la (recoverTensor elements nodes u) (node t) G
    (fun a ha b hb => C91_affine_partial hv hn hd hu _ hp a ha b hb) a ha b hb
  beta_reduce
  rw [hs 0 (by decide) 0 (by decide), hs 0 (by decide) 1 (by decide), hs 1 (by decide) 0 (by decide),
    hs 1 (by decide) 1 (by decide)]
  simp only [planeStress, hooke, Finset.sum_range_succ, Finset.sum_range_zero, zero_add, if_true,
    zero_ne_one, one_ne_zero, if_false, add_zero]
  ring

/-- C91, part: with the tensor of an isotropic relaxation without bulk modulus the relaxation part of the
stress of an affine absement is the negative of the one that the relaxation matrix balances. Missing for the
full property: the sign, and other tensors, for which it is false. -/
theorem C91_relaxation_partial (hv : ValidElements 2 N elements) (hn : Nondegenerate2 elements nodes)
    (hd : DistinctVertices elements) {u : ℕ → ℕ → K} {c : ℕ → K} {G : ℕ → ℕ → K}
    (hu : AffineDisplacement N nodes u c G) (mu : K) (w : ℕ → K) (V : ℕ → ℕ → ℕ → K)
    (hV : VectorGradient 2 N elements nodes w V) (node : ℕ → ℕ)
    (hnode : ∀ t < elements.length, node t ∈ elements.getD t []) :
    stressWork elements nodes (fun t => relaxationStress (isotropicTensor mu 0 1 0 1)
        (recoverTensor elements nodes u) (node t)) V =
      - form (2 * N) (2 * N) (Plane.relaxationTensor N (basicMatrices2 elements nodes).W
        (isotropicTensor mu 0)) w (flat N u) := by
  rw [C62_isotropic, ← C91_work_partial hv hn hd hu mu 0 w V hV node hnode]
  unfold stressWork
  refine sumElements_congr fun t _ => ?_
  simp [relaxationStress, hookeStress, isotropicTensor]

/-- C91, part: for any array whose entries are those of an isotropic relaxation without bulk modulus the
elastic stress with relaxation of an affine displacement and an affine absement is the negative of the one
that the elasticity matrix and the relaxation matrix balance. Missing for the full property: the sign, and
other tensors, for which it is false. -/
theorem C91_elastic_relaxation_partial (hv : ValidElements 2 N elements) (hn : Nondegenerate2 elements nodes)
    (hd : DistinctVertices elements) {u b : ℕ → ℕ → K} {c c' : ℕ → K} {G H : ℕ → ℕ → K}
    (hu : AffineDisplacement N nodes u c G) (hb : AffineDisplacement N nodes b c' H) (mu la rho : K)
    (tensor : ℕ → ℕ → ℕ → K)
    (ht : ∀ i < 2, ∀ j < 2, ∀ k < 2, tensor i j k = isotropicTensor rho 0 i j k) (w : ℕ → K)
    (V : ℕ → ℕ → ℕ → K) (hV : VectorGradient 2 N elements nodes w V) (node : ℕ → ℕ)
    (hnode : ∀ t < elements.length, node t ∈ elements.getD t []) :
    stressWork elements nodes (fun t => elasticRelaxationStress mu la tensor elements nodes u b (node t)) V =
      - (form (2 * N) (2 * N) (Plane.constitutive N (basicMatrices2 elements nodes).W mu la) w (flat N u) +
        form (2 * N) (2 * N) (Plane.relaxationTensor N (basicMatrices2 elements nodes).W
          (isotropicTensor rho 0)) w (flat N b)) := by
  rw [neg_add, ← C91_work_partial hv hn hd hu mu la w V hV node hnode,
    ← C91_relaxation_partial hv hn hd hb rho w V hV node hnode]
  unfold stressWork
  rw [← sumElements_add]
  refine sumElements_congr fun t _ => ?_
  simp only [elasticRelaxationStress, ht 1 (by decide) 0 (by decide) 1 (by decide)]
  ring

/-- C91 fails for relaxation tensors with a bulk modulus, even up to the sign: on every non-empty mesh the
stress of a uniform dilation misses the part of the bulk modulus, although the relaxation matrix contains it. -/
theorem C91_bulk_wrong (hv : ValidElements 2 N elements) (hn : Nondegenerate2 elements nodes)
    (hd : DistinctVertices elements) (hne : elements ≠ []) (mu lam : K) (hlam : lam ≠ 0) (node : ℕ → ℕ)
    (hnode : ∀ t < elements.length, node t ∈ elements.getD t []) :
    let S := fun t => relaxationStress (isotropicTensor mu lam 1 0 1) (recoverTensor elements nodes nodes)
      (node t)
    let I : ℕ → ℕ → ℕ → K := fun _ a b => if a = b then 1 else 0
    VectorGradient 2 N elements nodes (flat N nodes) I ∧
    form (2 * N) (2 * N) (Plane.relaxationTensor N (basicMatrices2 elements nodes).W
        (isotropicTensor mu lam)) (flat N nodes) (flat N nodes) =
      - stressWork elements nodes S I + 4 * lam * (sumElements elements fun _ e => area (vertices nodes e)) ∧
    form (2 * N) (2 * N) (Plane.relaxationTensor N (basicMatrices2 elements nodes).W
        (isotropicTensor mu lam)) (flat N nodes) (flat N nodes) ≠ - stressWork elements nodes S I := by
  intro S I
  have hu : AffineDisplacement N nodes nodes (fun _ => 0) (fun a b => if a = b then 1 else 0) := by
    intro p _ a ha
    interval_cases a <;> simp
  have hI : VectorGradient 2 N elements nodes (flat N nodes) I := affine_vectorGradient hv hu
  have key : form (2 * N) (2 * N) (Plane.relaxationTensor N (basicMatrices2 elements nodes).W
        (isotropicTensor mu lam)) (flat N nodes) (flat N nodes) =
      - stressWork elements nodes S I +
        4 * lam * (sumElements elements fun _ e => area (vertices nodes e)) := by
    have hw := C91_work_partial hv hn hd hu mu lam (flat N nodes) I hI node hnode
    rw [C62_isotropic, ← neg_neg (form _ _ _ _ _), ← hw]
    refine eq_add_of_sub_eq' ?_
    rw [sub_neg_eq_add, neg_add_eq_sub]
    rw [sub_eq_iff_eq_add]
    unfold stressWork
    rw [← sumElements_mul, ← sumElements_add]
    refine sumElements_congr fun t ht => ?_
    have hp : TouchesNode elements (node t) := ⟨_, getD_mem ht, hnode t ht⟩
    have g0 := C91_affine_partial hv hn hd hu _ hp 0 (by decide) 0 (by decide)
    have g1 := C91_affine_partial hv hn hd hu _ hp 1 (by decide) 1 (by decide)
    simp only [S, I, relaxationStress, hookeStress, isotropicTensor, g0, g1]
    simp
    ring
  refine ⟨hI, key, ?_⟩
  rw [key]
  have hpos : 0 < sumElements elements (fun _ e => area (vertices nodes e)) := by
    refine Finset.sum_pos (fun t ht => (Plane.allLocal hn _ (getD_mem (Finset.mem_range.1 ht))).pos) ?_
    exact ⟨0, Finset.mem_range.2 (List.length_pos_of_ne_nil hne)⟩
  intro h
  have : 4 * lam * (sumElements elements fun _ e => area (vertices nodes e)) = 0 := by linarith
  rcases mul_eq_zero.1 this with h | h
  · exact hlam ((mul_eq_zero.1 h).resolve_left (by norm_num))
  · exact hpos.ne' h

end

example : DistinctVertices exampleMesh2 := by unfold DistinctVertices; decide
example : TouchesNode exampleMesh2 3 := ⟨[3, 2, 1], by decide, by decide⟩
/-- An affine field on the example mesh. -/
example : AffineDisplacement 4 exampleNodes2 (fun p a => 1 + a + 2 * exampleNodes2 p 0 - 3 * exampleNodes2 p 1)
    (fun a => 1 + a) (fun _ k => if k = 0 then 2 else -3) := by
  intro p _ a _
  simp
  ring
/-- The sign of the recovered gradient of the first coordinate. -/
example : recoverGradient exampleMesh2 exampleNodes2 (fun p => exampleNodes2 p 0) 0 0 = -1 := by
  decide +kernel
/-- A node of every element. -/
example : ∀ t < exampleMesh2.length, (exampleMesh2.getD t []).getD 0 0 ∈ exampleMesh2.getD t [] := by
  decide

end Conmech
