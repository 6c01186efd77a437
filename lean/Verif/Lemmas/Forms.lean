import Verif.Lemmas.Assembly
import Verif.Lemmas.Schur
import Mathlib.Algebra.BigOperators.Field
/-!
Bilinear forms of the assembled matrices.
-/
namespace Conmech
open Spec

section
variable {K : Type _} [Field K]

/-- The indicator of node `p`. -/
def single (p : ℕ) : ℕ → K := fun q => if q = p then 1 else 0

theorem form_single {n m : ℕ} (M : ℕ → ℕ → K) {p : ℕ} (hp : p < n) (y : ℕ → K) :
    form n m M (single p) y = ∑ q ∈ Finset.range m, M p q * y q := by
  unfold form single
  rw [Finset.sum_eq_single p]
  · simp
  · intro b _ hb; simp [hb]
  · intro h; exact absurd (Finset.mem_range.2 hp) h

theorem form_single_right {n m : ℕ} (M : ℕ → ℕ → K) {q : ℕ} (hq : q < m) (x : ℕ → K) :
    form n m M x (single q) = ∑ p ∈ Finset.range n, x p * M p q := by
  unfold form single
  refine Finset.sum_congr rfl fun p _ => ?_
  rw [Finset.sum_eq_single q]
  · simp
  · intro b _ hb; simp [hb]
  · intro h; exact absurd (Finset.mem_range.2 hq) h

theorem form_single_single {n m : ℕ} (M : ℕ → ℕ → K) {p q : ℕ} (hp : p < n) (hq : q < m) :
    form n m M (single p) (single q) = M p q := by
  rw [form_single M hp]
  unfold single
  simp [hq]

theorem form_congr {n m : ℕ} {M M' : ℕ → ℕ → K} (x y : ℕ → K)
    (h : ∀ p < n, ∀ q < m, M p q = M' p q) : form n m M x y = form n m M' x y :=
  Finset.sum_congr rfl fun p hp => Finset.sum_congr rfl fun q hq => by
    rw [h p (Finset.mem_range.1 hp) q (Finset.mem_range.1 hq)]

theorem form_add (n m : ℕ) (M M' : ℕ → ℕ → K) (x y : ℕ → K) :
    form n m (fun p q => M p q + M' p q) x y = form n m M x y + form n m M' x y := by
  unfold form
  rw [← Finset.sum_add_distrib]
  refine Finset.sum_congr rfl fun p _ => ?_
  rw [← Finset.sum_add_distrib]
  exact Finset.sum_congr rfl fun q _ => by ring

theorem form_mul (n m : ℕ) (c : K) (M : ℕ → ℕ → K) (x y : ℕ → K) :
    form n m (fun p q => c * M p q) x y = c * form n m M x y := by
  unfold form
  rw [Finset.mul_sum]
  refine Finset.sum_congr rfl fun p _ => ?_
  rw [Finset.mul_sum]
  exact Finset.sum_congr rfl fun q _ => by ring

theorem form_zero (n m : ℕ) (x y : ℕ → K) : form n m (fun _ _ => 0) x y = 0 := by
  simp [form]

/-- The form of a matrix made of blocks. -/
theorem form_block (d d' N : ℕ) (B : ℕ → ℕ → ℕ → ℕ → K) (x y : ℕ → K) :
    form (d * N) (d' * N) (block N B) x y =
      ∑ a ∈ Finset.range d, ∑ b ∈ Finset.range d',
        form N N (B a b) (component N x a) (component N y b) := by
  unfold form
  rw [sum_range_mul]
  refine Finset.sum_congr rfl fun a _ => ?_
  rw [Finset.sum_congr rfl fun p _ => sum_range_mul d' N _]
  rw [Finset.sum_comm]
  refine Finset.sum_congr rfl fun b _ => ?_
  refine Finset.sum_congr rfl fun p hp => ?_
  refine Finset.sum_congr rfl fun q hq => ?_
  have hp := Finset.mem_range.1 hp
  have hq := Finset.mem_range.1 hq
  simp only [block, component, block_div _ hp, block_div _ hq, block_mod _ hp, block_mod _ hq]

/-- A matrix whose form is symmetric is symmetric. -/
theorem symm_of_form {n : ℕ} {M : ℕ → ℕ → K}
    (h : ∀ x y, form n n M x y = form n n M y x) : ∀ p < n, ∀ q < n, M p q = M q p := by
  intro p hp q hq
  rw [← form_single_single M hp hq, h, form_single_single M hq hp]

end

section
variable {K : Type _} [Field K] [LinearOrder K] [IsStrictOrderedRing K]

/-- All elements have the local data. -/
def AllLocal (d : ℕ) (feat : (ℕ → ℕ → K) → ℕ → ℕ → List K) (elements : List (List ℕ))
    (nodes : ℕ → ℕ → K) (size : (ℕ → ℕ → K) → K) (g : (ℕ → ℕ → K) → ℕ → ℕ → K) : Prop :=
  ∀ e ∈ elements, LocalData d feat (vertices nodes e) (size (vertices nodes e)) (g (vertices nodes e))

variable {d N : ℕ} {feat : (ℕ → ℕ → K) → ℕ → ℕ → List K} {elements : List (List ℕ)}
  {nodes : ℕ → ℕ → K} {size : (ℕ → ℕ → K) → K} {g : (ℕ → ℕ → K) → ℕ → ℕ → K}

omit [LinearOrder K] [IsStrictOrderedRing K] in
theorem double_delta (n : ℕ) (x y : ℕ → K) :
    ∑ i ∈ Finset.range n, ∑ j ∈ Finset.range n, x i * (if i = j then 1 else 0) * y j =
      ∑ i ∈ Finset.range n, x i * y i := by
  refine Finset.sum_congr rfl fun i hi => ?_
  rw [Finset.sum_eq_single i]
  · simp
  · intro j _ hj; simp [Ne.symm hj]
  · intro h; exact absurd hi h

omit [LinearOrder K] [IsStrictOrderedRing K] in
theorem double_one (n : ℕ) (x y : ℕ → K) :
    ∑ i ∈ Finset.range n, ∑ j ∈ Finset.range n, x i * y j =
      (∑ i ∈ Finset.range n, x i) * ∑ j ∈ Finset.range n, y j :=
  (Finset.sum_mul_sum _ _ _ _).symm

theorem form_mass (hv : ValidElements d N elements) (h : AllLocal d feat elements nodes size g)
    (x y : ℕ → K) :
    form N N (edgesFeatures (d + 1) feat elements nodes 1) x y =
      sumElements elements fun _ e => size (vertices nodes e) / (((d : K) + 1) * (d + 2)) *
        ((∑ i ∈ Finset.range (d + 1), valuesOn e x i) * (∑ i ∈ Finset.range (d + 1), valuesOn e y i) +
          ∑ i ∈ Finset.range (d + 1), valuesOn e x i * valuesOn e y i) := by
  rw [form_edgesFeatures d N feat elements hv]
  refine sumElements_congr fun t ht => ?_
  have hl := h _ (getD_mem ht)
  rw [← double_one, ← double_delta, mul_add, Finset.mul_sum, Finset.mul_sum, ← Finset.sum_add_distrib]
  refine Finset.sum_congr rfl fun i hi => ?_
  rw [Finset.mul_sum, Finset.mul_sum, ← Finset.sum_add_distrib]
  refine Finset.sum_congr rfl fun j hj => ?_
  rw [hl.mass i (Finset.mem_range.1 hi) j (Finset.mem_range.1 hj)]
  ring

theorem form_vol (hv : ValidElements d N elements) (h : AllLocal d feat elements nodes size g)
    (x y : ℕ → K) :
    form N N (edgesFeatures (d + 1) feat elements nodes 0) x y =
      sumElements elements fun _ e => size (vertices nodes e) / (((d : K) + 1) * d) *
        ((∑ i ∈ Finset.range (d + 1), valuesOn e x i) * (∑ i ∈ Finset.range (d + 1), valuesOn e y i) -
          ∑ i ∈ Finset.range (d + 1), valuesOn e x i * valuesOn e y i) := by
  rw [form_edgesFeatures d N feat elements hv]
  refine sumElements_congr fun t ht => ?_
  have hl := h _ (getD_mem ht)
  rw [← double_one, ← double_delta, mul_sub, Finset.mul_sum, Finset.mul_sum, ← Finset.sum_sub_distrib]
  refine Finset.sum_congr rfl fun i hi => ?_
  rw [Finset.mul_sum, Finset.mul_sum, ← Finset.sum_sub_distrib]
  refine Finset.sum_congr rfl fun j hj => ?_
  rw [hl.vol i (Finset.mem_range.1 hi) j (Finset.mem_range.1 hj)]
  split_ifs <;> ring

theorem form_grad (hv : ValidElements d N elements) (h : AllLocal d feat elements nodes size g)
    {k : ℕ} (hk : k < d) (x : ℕ → K) {y : ℕ → K} {G : ℕ → ℕ → K}
    (hG : FieldGradient d elements nodes y G) :
    form N N (edgesFeatures (d + 1) feat elements nodes (2 + k)) x y =
      sumElements elements fun t e => size (vertices nodes e) *
        ((∑ i ∈ Finset.range (d + 1), valuesOn e x i) / ((d : K) + 1) * G t k) := by
  rw [form_edgesFeatures d N feat elements hv]
  refine sumElements_congr fun t ht => ?_
  have hl := h _ (getD_mem ht)
  rw [← hl.shape.gradient_eq (hG t ht) hk, Finset.sum_div, Finset.sum_mul, Finset.mul_sum]
  refine Finset.sum_congr rfl fun i hi => ?_
  rw [Finset.mul_sum, Finset.mul_sum]
  refine Finset.sum_congr rfl fun j hj => ?_
  rw [hl.grad k hk i (Finset.mem_range.1 hi) j (Finset.mem_range.1 hj)]
  ring

theorem form_stiff (hv : ValidElements d N elements) (h : AllLocal d feat elements nodes size g)
    {k l : ℕ} (hk : k < d) (hl : l < d) {x y : ℕ → K} {Gx Gy : ℕ → ℕ → K}
    (hx : FieldGradient d elements nodes x Gx) (hy : FieldGradient d elements nodes y Gy) :
    form N N (edgesFeatures (d + 1) feat elements nodes (2 + d * (k + 1) + l)) x y =
      sumElements elements fun t e => size (vertices nodes e) * (Gx t k * Gy t l) := by
  rw [form_edgesFeatures d N feat elements hv]
  refine sumElements_congr fun t ht => ?_
  have hd := h _ (getD_mem ht)
  rw [← hd.shape.gradient_eq (hx t ht) hk, ← hd.shape.gradient_eq (hy t ht) hl, Finset.sum_mul,
    Finset.mul_sum]
  refine Finset.sum_congr rfl fun i hi => ?_
  rw [Finset.mul_sum, Finset.mul_sum]
  refine Finset.sum_congr rfl fun j hj => ?_
  rw [hd.stiff k hk l hl i (Finset.mem_range.1 hi) j (Finset.mem_range.1 hj)]
  ring

omit [IsStrictOrderedRing K] in
/-- Every nodal field has a gradient on every element. -/
theorem exists_fieldGradient (h : AllLocal d feat elements nodes size g) (x : ℕ → K) :
    ∃ G, FieldGradient d elements nodes x G :=
  ⟨_, fun t ht => (h _ (getD_mem ht)).shape.gradient_exists _⟩

omit [IsStrictOrderedRing K] [LinearOrder K] in
theorem fieldGradient_affine (d : ℕ) (elements : List (List ℕ)) (nodes : ℕ → ℕ → K) (c : K) (G : ℕ → K) :
    FieldGradient d elements nodes (fun p => c + ∑ k ∈ Finset.range d, G k * nodes p k) fun _ => G :=
  fun _ _ => ⟨c, fun _ _ => rfl⟩

omit [IsStrictOrderedRing K] [LinearOrder K] in
theorem fieldGradient_const (d : ℕ) (elements : List (List ℕ)) (nodes : ℕ → ℕ → K) (c : K) :
    FieldGradient d elements nodes (fun _ => c) fun _ _ => 0 :=
  fun _ _ => ⟨c, fun _ _ => by simp [valuesOn]⟩

theorem sumElements_nonneg (elements : List (List ℕ)) (f : ℕ → List ℕ → K)
    (h : ∀ t < elements.length, 0 ≤ f t (elements.getD t [])) : 0 ≤ sumElements elements f :=
  Finset.sum_nonneg fun t ht => h t (Finset.mem_range.1 ht)

theorem sumElements_eq_zero (elements : List (List ℕ)) (f : ℕ → List ℕ → K)
    (h : ∀ t < elements.length, 0 ≤ f t (elements.getD t [])) (h0 : sumElements elements f = 0) :
    ∀ t < elements.length, f t (elements.getD t []) = 0 := by
  intro t ht
  exact (Finset.sum_eq_zero_iff_of_nonneg (fun t ht => h t (Finset.mem_range.1 ht))).1 h0 t
    (Finset.mem_range.2 ht)

omit [IsStrictOrderedRing K] [LinearOrder K] in
theorem sumElements_zero {elements : List (List ℕ)} {f : ℕ → List ℕ → K}
    (h : ∀ t < elements.length, f t (elements.getD t []) = 0) : sumElements elements f = 0 :=
  Finset.sum_eq_zero fun t ht => h t (Finset.mem_range.1 ht)

theorem Plane.allLocal (h : Nondegenerate2 elements nodes) :
    AllLocal 2 Plane.features elements nodes area Plane.gradient :=
  fun e he => Plane.localData _ (h e he)

theorem Space.allLocal (h : Nondegenerate3 elements nodes) :
    AllLocal 3 Space.features elements nodes Spec.volume Space.gradient :=
  fun e he => Space.localData _ (h e he)

end
end Conmech
