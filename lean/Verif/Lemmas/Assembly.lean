import Verif.Model.Assembly
import Verif.Spec.Assembly
import Mathlib.Algebra.BigOperators.Ring.Finset
import Mathlib.Data.List.GetD
import Mathlib.Tactic.FieldSimp
import Mathlib.Tactic.LinearCombination
import Mathlib.Tactic.Linarith
import Mathlib.Tactic.IntervalCases
import Mathlib.Algebra.Order.BigOperators.Ring.Finset
/-!
Lemmas on assembly.
-/
namespace Conmech
open Spec

section
variable {K : Type _} [Field K]

theorem list_sum_range {α : Type _} (l : List α) (d : α) (f : α → K) :
    (l.map f).sum = ∑ t ∈ Finset.range l.length, f (l.getD t d) := by
  induction l with
  | nil => simp
  | cons a l ih =>
    rw [List.map_cons, List.sum_cons, List.length_cons, Finset.sum_range_succ', ih]
    simp [add_comm]

theorem addFeatures_apply (F : ℕ → ℕ → ℕ → K) (a b : ℕ) (v : List K) (f p q : ℕ) :
    addFeatures F a b v f p q = F f p q + if p = a ∧ q = b then v.getD f 0 else 0 := by
  unfold addFeatures; split_ifs <;> simp

theorem foldl_accumulate {α : Type _} (l : List α) (step : (ℕ → ℕ → ℕ → K) → α → ℕ → ℕ → ℕ → K)
    (inc : α → K) (f p q : ℕ) (h : ∀ F a, step F a f p q = F f p q + inc a)
    (F : ℕ → ℕ → ℕ → K) : l.foldl step F f p q = F f p q + (l.map inc).sum := by
  induction l generalizing F with
  | nil => simp
  | cons a l ih => rw [List.foldl_cons, ih, h, List.map_cons, List.sum_cons, add_assoc]

theorem sum_map_range (n : ℕ) (g : ℕ → K) : ((List.range n).map g).sum = ∑ i ∈ Finset.range n, g i := by
  rw [list_sum_range _ 0, List.length_range]
  refine Finset.sum_congr rfl fun i hi => ?_
  rw [List.getD_eq_getElem _ _ (by simpa using hi)]
  simp

/-- The assembled feature matrix is the sum of the local contributions. -/
theorem edgesFeatures_apply (size : ℕ) (feat : (ℕ → ℕ → K) → ℕ → ℕ → List K)
    (elements : List (List ℕ)) (nodes : ℕ → ℕ → K) (f p q : ℕ) :
    edgesFeatures size feat elements nodes f p q =
      sumElements elements fun _ e => ∑ i ∈ Finset.range size, ∑ j ∈ Finset.range size,
        if p = e.getD i 0 ∧ q = e.getD j 0 then (feat (vertices nodes e) i j).getD f 0 else 0 := by
  unfold edgesFeatures sumElements
  rw [← list_sum_range elements [] fun e => ∑ i ∈ Finset.range size, ∑ j ∈ Finset.range size,
        if p = e.getD i 0 ∧ q = e.getD j 0 then (feat (vertices nodes e) i j).getD f 0 else 0]
  rw [foldl_accumulate elements _ (fun e => ∑ i ∈ Finset.range size, ∑ j ∈ Finset.range size,
        if p = e.getD i 0 ∧ q = e.getD j 0 then (feat (vertices nodes e) i j).getD f 0 else 0), zero_add]
  intro F e
  rw [foldl_accumulate (List.range size) _ (fun i => ∑ j ∈ Finset.range size,
    if p = e.getD i 0 ∧ q = e.getD j 0 then (feat (vertices nodes e) i j).getD f 0 else 0), sum_map_range]
  intro F i
  rw [foldl_accumulate (List.range size) _ (fun j =>
    if p = e.getD i 0 ∧ q = e.getD j 0 then (feat (vertices nodes e) i j).getD f 0 else 0), sum_map_range]
  intro F j
  rw [addFeatures_apply]
  rfl

theorem getD_lt {d N : ℕ} {elements : List (List ℕ)} (h : ValidElements d N elements) {e : List ℕ}
    (he : e ∈ elements) {i : ℕ} (hi : i < d + 1) : e.getD i 0 < N := by
  obtain ⟨h1, h2⟩ := h e he
  rw [List.getD_eq_getElem _ _ (by omega)]
  exact h2 _ (List.getElem_mem _)

theorem getD_mem {elements : List (List ℕ)} {t : ℕ} (ht : t < elements.length) :
    elements.getD t [] ∈ elements := by
  rw [List.getD_eq_getElem _ _ ht]; exact List.getElem_mem _

theorem sumElements_congr {elements : List (List ℕ)} {f g : ℕ → List ℕ → K}
    (h : ∀ t < elements.length, f t (elements.getD t []) = g t (elements.getD t [])) :
    sumElements elements f = sumElements elements g :=
  Finset.sum_congr rfl fun t ht => h t (Finset.mem_range.1 ht)

theorem sumElements_add (elements : List (List ℕ)) (f g : ℕ → List ℕ → K) :
    sumElements elements (fun t e => f t e + g t e) = sumElements elements f + sumElements elements g :=
  Finset.sum_add_distrib

theorem sumElements_mul (elements : List (List ℕ)) (c : K) (f : ℕ → List ℕ → K) :
    sumElements elements (fun t e => c * f t e) = c * sumElements elements f :=
  (Finset.mul_sum _ _ _).symm

/-- The bilinear form of an assembled matrix is the sum of the local bilinear forms. -/
theorem form_edgesFeatures (d N : ℕ) (feat : (ℕ → ℕ → K) → ℕ → ℕ → List K)
    (elements : List (List ℕ)) (hv : ValidElements d N elements) (nodes : ℕ → ℕ → K) (f : ℕ)
    (x y : ℕ → K) :
    form N N (edgesFeatures (d + 1) feat elements nodes f) x y =
      sumElements elements fun _ e => ∑ i ∈ Finset.range (d + 1), ∑ j ∈ Finset.range (d + 1),
        valuesOn e x i * (feat (vertices nodes e) i j).getD f 0 * valuesOn e y j := by
  unfold form
  simp only [edgesFeatures_apply, sumElements]
  simp only [Finset.mul_sum, Finset.sum_mul]
  -- move the sums over nodes inside
  rw [Finset.sum_congr rfl fun p _ => Finset.sum_comm]
  rw [Finset.sum_comm]
  refine Finset.sum_congr rfl fun t ht => ?_
  have he := getD_mem (Finset.mem_range.1 ht)
  set e := elements.getD t []
  rw [Finset.sum_congr rfl fun p _ => Finset.sum_comm]
  rw [Finset.sum_comm]
  refine Finset.sum_congr rfl fun i hi => ?_
  rw [Finset.sum_congr rfl fun p _ => Finset.sum_comm]
  rw [Finset.sum_comm]
  refine Finset.sum_congr rfl fun j hj => ?_
  have hi' := getD_lt hv he (Finset.mem_range.1 hi)
  have hj' := getD_lt hv he (Finset.mem_range.1 hj)
  rw [Finset.sum_eq_single (e.getD i 0)]
  · rw [Finset.sum_eq_single (e.getD j 0)]
    · simp [valuesOn]
    · intro q _ hq; rw [if_neg (fun h => hq h.2), mul_zero, zero_mul]
    · intro h; exact absurd (Finset.mem_range.2 hj') h
  · intro p _ hp
    refine Finset.sum_eq_zero fun q _ => ?_
    rw [if_neg (fun h => hp h.1), mul_zero, zero_mul]
  · intro h; exact absurd (Finset.mem_range.2 hi') h

/-- The gradients `g i` belong to the shape functions of the simplex. -/
structure Shape (d : ℕ) (X : ℕ → ℕ → K) (g : ℕ → ℕ → K) : Prop where
  kron : ∃ c : ℕ → K, ∀ i < d + 1, ∀ j < d + 1,
    c i + ∑ k ∈ Finset.range d, g i k * X j k = if i = j then 1 else 0
  sum_zero : ∀ k < d, ∑ i ∈ Finset.range (d + 1), g i k = 0
  repro : ∀ k < d, ∀ l < d, ∑ i ∈ Finset.range (d + 1), X i l * g i k = if k = l then 1 else 0

/-- The gradient of an affine function is obtained from its values at the vertices. -/
theorem Shape.gradient_eq {d : ℕ} {X g : ℕ → ℕ → K} (h : Shape d X g) {vals G : ℕ → K}
    (hG : IsGradient d X vals G) {k : ℕ} (hk : k < d) :
    ∑ i ∈ Finset.range (d + 1), vals i * g i k = G k := by
  obtain ⟨c, hc⟩ := hG
  rw [Finset.sum_congr rfl fun i hi => by rw [hc i (Finset.mem_range.1 hi), add_mul]]
  rw [Finset.sum_add_distrib, ← Finset.mul_sum, h.sum_zero k hk, mul_zero, zero_add]
  simp only [Finset.sum_mul]
  rw [Finset.sum_comm]
  rw [Finset.sum_congr rfl fun l hl => by
    rw [Finset.sum_congr rfl fun i _ => by rw [mul_assoc], ← Finset.mul_sum,
      h.repro k hk l (Finset.mem_range.1 hl)]]
  simp [Finset.sum_ite_eq, hk]

/-- Any values at the vertices belong to an affine function. -/
theorem Shape.gradient_exists {d : ℕ} {X g : ℕ → ℕ → K} (h : Shape d X g) (vals : ℕ → K) :
    IsGradient d X vals fun k => ∑ i ∈ Finset.range (d + 1), vals i * g i k := by
  obtain ⟨c, hc⟩ := h.kron
  refine ⟨∑ i ∈ Finset.range (d + 1), vals i * c i, fun j hj => ?_⟩
  simp only [Finset.sum_mul]
  rw [Finset.sum_comm, ← Finset.sum_add_distrib]
  have : ∀ i ∈ Finset.range (d + 1),
      vals i * c i + ∑ k ∈ Finset.range d, vals i * g i k * X j k = vals i * if i = j then 1 else 0 := by
    intro i hi
    rw [← hc i (Finset.mem_range.1 hi) j hj, mul_add, Finset.mul_sum]
    congr 1
    exact Finset.sum_congr rfl fun k _ => by ring
  rw [Finset.sum_congr rfl this]
  simp only [mul_ite, mul_one, mul_zero, Finset.sum_ite_eq', Finset.mem_range, hj, if_true]

end

section
variable {K : Type _} [Field K] [LinearOrder K]

/-- The local feature vector of an element of dimension `d`: `size` and `g` are its measure and its
shape gradients. -/
structure LocalData (d : ℕ) (feat : (ℕ → ℕ → K) → ℕ → ℕ → List K) (X : ℕ → ℕ → K) (size : K)
    (g : ℕ → ℕ → K) : Prop where
  shape : Shape d X g
  pos : 0 < size
  vol : ∀ i < d + 1, ∀ j < d + 1,
    (feat X i j).getD 0 0 = size * if i = j then 0 else 1 / (((d : K) + 1) * d)
  mass : ∀ i < d + 1, ∀ j < d + 1,
    (feat X i j).getD 1 0 = size * ((1 + if i = j then 1 else 0) / (((d : K) + 1) * (d + 2)))
  grad : ∀ k < d, ∀ i < d + 1, ∀ j < d + 1,
    (feat X i j).getD (2 + k) 0 = size * (1 / ((d : K) + 1) * g j k)
  stiff : ∀ k < d, ∀ l < d, ∀ i < d + 1, ∀ j < d + 1,
    (feat X i j).getD (2 + d * (k + 1) + l) 0 = size * (g i k * g j l)

variable [IsStrictOrderedRing K]

theorem Plane.denominator_eq (X : ℕ → ℕ → K) :
    Plane.denominator (X 0) (X 1) (X 2) = - det2 X ∧
    Plane.denominator (X 1) (X 0) (X 2) = det2 X ∧
    Plane.denominator (X 2) (X 0) (X 1) = - det2 X := by
  refine ⟨?_, ?_, ?_⟩ <;> simp only [Plane.denominator, det2] <;> ring

theorem Plane.volume_eq (X : ℕ → ℕ → K) (i : ℕ) (hi : i < 3) : Plane.volume X i = area X := by
  obtain ⟨h0, h1, h2⟩ := Plane.denominator_eq X
  have o : otherVertex 3 0 0 = 1 ∧ otherVertex 3 0 1 = 2 ∧ otherVertex 3 1 0 = 0 ∧
    otherVertex 3 1 1 = 2 ∧ otherVertex 3 2 0 = 0 ∧ otherVertex 3 2 1 = 1 := by decide
  unfold Plane.volume area
  interval_cases i
  · rw [o.1, o.2.1, h0, abs_neg]
  · rw [o.2.2.1, o.2.2.2.1, h1]
  · rw [o.2.2.2.2.1, o.2.2.2.2.2, h2, abs_neg]

theorem Plane.gradient_zero (X : ℕ → ℕ → K) : Plane.gradient X 0 0 = (X 1 1 - X 2 1) / det2 X ∧
    Plane.gradient X 0 1 = (X 2 0 - X 1 0) / det2 X := by
  obtain ⟨h0, h1, h2⟩ := Plane.denominator_eq X
  have o : otherVertex 3 0 0 = 1 ∧ otherVertex 3 0 1 = 2 := by decide
  simp only [Plane.gradient, o.1, o.2, h0, if_true, one_ne_zero, if_false, div_neg, ← neg_div, neg_sub,
    and_self]

theorem Plane.gradient_one (X : ℕ → ℕ → K) : Plane.gradient X 1 0 = (X 2 1 - X 0 1) / det2 X ∧
    Plane.gradient X 1 1 = (X 0 0 - X 2 0) / det2 X := by
  obtain ⟨h0, h1, h2⟩ := Plane.denominator_eq X
  have o : otherVertex 3 1 0 = 0 ∧ otherVertex 3 1 1 = 2 := by decide
  simp only [Plane.gradient, o.1, o.2, h1, if_true, one_ne_zero, if_false, and_self]

theorem Plane.gradient_two (X : ℕ → ℕ → K) : Plane.gradient X 2 0 = (X 0 1 - X 1 1) / det2 X ∧
    Plane.gradient X 2 1 = (X 1 0 - X 0 0) / det2 X := by
  obtain ⟨h0, h1, h2⟩ := Plane.denominator_eq X
  have o : otherVertex 3 2 0 = 0 ∧ otherVertex 3 2 1 = 1 := by decide
  simp only [Plane.gradient, o.1, o.2, h2, if_true, one_ne_zero, if_false, div_neg, ← neg_div, neg_sub,
    and_self]

theorem Plane.shape (X : ℕ → ℕ → K) (h : det2 X ≠ 0) : Shape 2 X (Plane.gradient X) := by
  obtain ⟨g00, g01⟩ := Plane.gradient_zero X
  obtain ⟨g10, g11⟩ := Plane.gradient_one X
  obtain ⟨g20, g21⟩ := Plane.gradient_two X
  refine ⟨⟨fun i => if i = 0 then (X 1 0 * X 2 1 - X 1 1 * X 2 0) / det2 X else if i = 1 then
    (X 2 0 * X 0 1 - X 2 1 * X 0 0) / det2 X else (X 0 0 * X 1 1 - X 0 1 * X 1 0) / det2 X, ?_⟩, ?_, ?_⟩
  · intro i hi j hj
    interval_cases i <;> interval_cases j <;>
      simp only [Finset.sum_range_succ, Finset.sum_range_zero, g00, g01, g10, g11, g20, g21] <;>
      norm_num <;> field_simp <;> simp only [det2] <;> ring
  · intro k hk
    interval_cases k <;>
      simp only [Finset.sum_range_succ, Finset.sum_range_zero, g00, g01, g10, g11, g20, g21] <;>
      field_simp <;> ring
  · intro k hk l hl
    interval_cases k <;> interval_cases l <;>
      simp only [Finset.sum_range_succ, Finset.sum_range_zero, g00, g01, g10, g11, g20, g21] <;>
      norm_num <;> field_simp <;> simp only [det2] <;> ring

theorem Plane.localData (X : ℕ → ℕ → K) (h : det2 X ≠ 0) :
    LocalData 2 Plane.features X (area X) (Plane.gradient X) where
  shape := Plane.shape X h
  pos := by unfold area; have := abs_pos.2 h; linarith
  vol := by
    intro i hi j hj
    simp only [Plane.features, Plane.volume_eq X i hi, List.map_cons, List.getD_cons_zero]
    by_cases hij : i = j
    · simp [hij]
    · simp only [ne_eq, hij, not_false_eq_true, if_true, if_false]; norm_num
  mass := by
    intro i hi j hj
    simp only [Plane.features, Plane.volume_eq X i hi, List.map_cons, List.getD_cons_zero,
      List.getD_cons_succ]
    norm_num
  grad := by
    intro k hk i hi j hj
    interval_cases k <;>
    · simp only [Plane.features, Plane.volume_eq X i hi, List.map_cons, List.getD_cons_zero,
        List.getD_cons_succ, Nat.add_zero]
      norm_num
  stiff := by
    intro k hk l hl i hi j hj
    interval_cases k <;> interval_cases l <;>
    · simp only [Plane.features, Plane.volume_eq X i hi, List.map_cons, List.getD_cons_zero,
        List.getD_cons_succ, Nat.add_zero, Nat.zero_add, Nat.mul_one]

theorem Space.denominator_eq (X : ℕ → ℕ → K) :
    Space.denominator (X 0) (X 1) (X 2) (X 3) = det3 X ∧
    Space.denominator (X 1) (X 0) (X 2) (X 3) = - det3 X ∧
    Space.denominator (X 2) (X 0) (X 1) (X 3) = det3 X ∧
    Space.denominator (X 3) (X 0) (X 1) (X 2) = - det3 X := by
  refine ⟨?_, ?_, ?_, ?_⟩ <;> simp only [Space.denominator, det3] <;> ring

theorem Space.other :
    (otherVertex 4 0 0 = 1 ∧ otherVertex 4 0 1 = 2 ∧ otherVertex 4 0 2 = 3) ∧
    (otherVertex 4 1 0 = 0 ∧ otherVertex 4 1 1 = 2 ∧ otherVertex 4 1 2 = 3) ∧
    (otherVertex 4 2 0 = 0 ∧ otherVertex 4 2 1 = 1 ∧ otherVertex 4 2 2 = 3) ∧
    (otherVertex 4 3 0 = 0 ∧ otherVertex 4 3 1 = 1 ∧ otherVertex 4 3 2 = 2) := by decide

theorem Space.volume_eq (X : ℕ → ℕ → K) (i : ℕ) (hi : i < 4) : Space.volume X i = Spec.volume X := by
  obtain ⟨h0, h1, h2, h3⟩ := Space.denominator_eq X
  obtain ⟨o0, o1, o2, o3⟩ := Space.other
  unfold Space.volume Spec.volume
  interval_cases i
  · rw [o0.1, o0.2.1, o0.2.2, h0]
  · rw [o1.1, o1.2.1, o1.2.2, h1, abs_neg]
  · rw [o2.1, o2.2.1, o2.2.2, h2]
  · rw [o3.1, o3.2.1, o3.2.2, h3, abs_neg]

/-- The cofactors of the tetrahedron with vertices `i` and `a, b, c`. -/
def cofactor (X : ℕ → ℕ → K) (a b c k : ℕ) : K :=
  if k = 0 then X a 2 * X b 1 - X a 1 * X b 2 - X a 2 * X c 1 + X b 2 * X c 1 + X a 1 * X c 2
    - X b 1 * X c 2
  else if k = 1 then X a 0 * X b 2 - X a 2 * X b 0 + X a 2 * X c 0 - X b 2 * X c 0 - X a 0 * X c 2
    + X b 0 * X c 2
  else if k = 2 then X a 1 * X b 0 - X a 0 * X b 1 - X a 1 * X c 0 + X b 1 * X c 0 + X a 0 * X c 1
    - X b 0 * X c 1
  else 0

theorem Space.gradient_eq (X : ℕ → ℕ → K) (k : ℕ) :
    Space.gradient X 0 k = cofactor X 1 2 3 k / det3 X ∧
    Space.gradient X 1 k = cofactor X 0 2 3 k / - det3 X ∧
    Space.gradient X 2 k = cofactor X 0 1 3 k / det3 X ∧
    Space.gradient X 3 k = cofactor X 0 1 2 k / - det3 X := by
  obtain ⟨h0, h1, h2, h3⟩ := Space.denominator_eq X
  obtain ⟨o0, o1, o2, o3⟩ := Space.other
  refine ⟨?_, ?_, ?_, ?_⟩
  · simp only [Space.gradient, o0, h0, cofactor]; split_ifs <;> simp
  · simp only [Space.gradient, o1, h1, cofactor]; split_ifs <;> simp
  · simp only [Space.gradient, o2, h2, cofactor]; split_ifs <;> simp
  · simp only [Space.gradient, o3, h3, cofactor]; split_ifs <;> simp

theorem Space.shape (X : ℕ → ℕ → K) (h : det3 X ≠ 0) : Shape 3 X (Space.gradient X) := by
  have g0 := fun k => (Space.gradient_eq X k).1
  have g1 := fun k => (Space.gradient_eq X k).2.1
  have g2 := fun k => (Space.gradient_eq X k).2.2.1
  have g3 := fun k => (Space.gradient_eq X k).2.2.2
  refine ⟨⟨fun i => (if i = 0 then 1 else 0) - ∑ k ∈ Finset.range 3, Space.gradient X i k * X 0 k, ?_⟩, ?_, ?_⟩
  · intro i hi j hj
    interval_cases i <;> interval_cases j <;>
      simp only [Finset.sum_range_succ, Finset.sum_range_zero, g0, g1, g2, g3] <;>
      norm_num <;> field_simp <;> simp only [det3, cofactor] <;> norm_num <;> ring
  · intro k hk
    interval_cases k <;>
      simp only [Finset.sum_range_succ, Finset.sum_range_zero, g0, g1, g2, g3] <;>
      field_simp <;> simp only [cofactor] <;> norm_num <;> ring
  · intro k hk l hl
    interval_cases k <;> interval_cases l <;>
      simp only [Finset.sum_range_succ, Finset.sum_range_zero, g0, g1, g2, g3] <;>
      norm_num <;> field_simp <;> simp only [det3, cofactor] <;> norm_num <;> ring

theorem Space.localData (X : ℕ → ℕ → K) (h : det3 X ≠ 0) :
    LocalData 3 Space.features X (Spec.volume X) (Space.gradient X) where
  shape := Space.shape X h
  pos := by unfold Spec.volume; have := abs_pos.2 h; linarith
  vol := by
    intro i hi j hj
    simp only [Space.features, Space.volume_eq X i hi, List.map_cons, List.getD_cons_zero]
    by_cases hij : i = j
    · simp [hij]
    · simp only [ne_eq, hij, not_false_eq_true, if_true, if_false]; norm_num
  mass := by
    intro i hi j hj
    simp only [Space.features, Space.volume_eq X i hi, List.map_cons, List.getD_cons_zero,
      List.getD_cons_succ]
    norm_num
  grad := by
    intro k hk i hi j hj
    interval_cases k <;>
    · simp only [Space.features, Space.volume_eq X i hi, List.map_cons, List.getD_cons_zero,
        List.getD_cons_succ, Nat.add_zero]
      norm_num
  stiff := by
    intro k hk l hl i hi j hj
    interval_cases k <;> interval_cases l <;>
    · simp only [Space.features, Space.volume_eq X i hi, List.map_cons, List.getD_cons_zero,
        List.getD_cons_succ, Nat.add_zero, Nat.zero_add, Nat.mul_one]

end
end Conmech
