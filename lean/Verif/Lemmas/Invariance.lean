import Verif.Spec.Invariance
import Verif.Props.Elasticity
import Verif.Props.Gradients
/-!
Lemmas on moved and renumbered meshes.
-/
namespace Conmech
open Spec

section
variable {K : Type _} [Field K] {d : ℕ} {R : ℕ → ℕ → K}

/-- Orthogonal matrices keep inner products. -/
theorem dot_rot (h : Orthogonal d R) (x y : ℕ → K) :
    ∑ k ∈ Finset.range d, (∑ i ∈ Finset.range d, R k i * x i) * (∑ j ∈ Finset.range d, R k j * y j) =
      ∑ i ∈ Finset.range d, x i * y i := by
  simp only [Finset.sum_mul_sum]
  rw [Finset.sum_comm]
  refine Finset.sum_congr rfl fun i hi => ?_
  rw [Finset.sum_comm]
  have : ∀ j ∈ Finset.range d, ∑ k ∈ Finset.range d, R k i * x i * (R k j * y j) =
      x i * y j * if i = j then 1 else 0 := by
    intro j hj
    rw [← (h i (Finset.mem_range.1 hi) j (Finset.mem_range.1 hj)).1, Finset.mul_sum]
    exact Finset.sum_congr rfl fun k _ => by ring
  rw [Finset.sum_congr rfl this]
  simp only [mul_ite, mul_one, mul_zero, Finset.sum_ite_eq, hi, if_true]

theorem rot_delta (h : Orthogonal d R) {k l : ℕ} (hk : k < d) (hl : l < d) :
    ∑ m ∈ Finset.range d, R l m * R k m = if k = l then 1 else 0 := by
  rw [(h l hl k hk).2]
  simp only [eq_comm]

theorem Shape.similar {X g : ℕ → ℕ → K} (hs : Shape d X g) (h : Orthogonal d R) {c : K} (hc : c ≠ 0)
    (a : ℕ → K) :
    Shape d (Spec.similar d c R a X) fun i k => c⁻¹ * ∑ l ∈ Finset.range d, R k l * g i l := by
  refine ⟨?_, ?_, ?_⟩
  · obtain ⟨k0, hk⟩ := hs.kron
    refine ⟨fun i => k0 i - ∑ k ∈ Finset.range d, (c⁻¹ * ∑ l ∈ Finset.range d, R k l * g i l) * a k,
      fun i hi j hj => ?_⟩
    rw [← hk i hi j hj, ← dot_rot h (g i) (X j)]
    simp only [Spec.similar]
    have : ∀ k ∈ Finset.range d, (c⁻¹ * ∑ l ∈ Finset.range d, R k l * g i l) *
        (c * (∑ l ∈ Finset.range d, R k l * X j l) + a k) =
        (∑ l ∈ Finset.range d, R k l * g i l) * (∑ l ∈ Finset.range d, R k l * X j l) +
        (c⁻¹ * ∑ l ∈ Finset.range d, R k l * g i l) * a k := by
      intro k _
      field_simp
    rw [Finset.sum_congr rfl this, Finset.sum_add_distrib]
    ring
  · intro k _
    rw [← Finset.mul_sum, Finset.sum_comm]
    rw [Finset.sum_congr rfl fun l hl => by
      rw [← Finset.mul_sum, hs.sum_zero l (Finset.mem_range.1 hl), mul_zero]]
    simp
  · intro k hk l hl
    have z : ∑ i ∈ Finset.range (d + 1), ∑ n ∈ Finset.range d, R k n * g i n = 0 := by
      rw [Finset.sum_comm]
      exact Finset.sum_eq_zero fun n hn => by
        rw [← Finset.mul_sum, hs.sum_zero n (Finset.mem_range.1 hn), mul_zero]
    have : ∀ i ∈ Finset.range (d + 1), Spec.similar d c R a X i l *
        (c⁻¹ * ∑ n ∈ Finset.range d, R k n * g i n) =
        (∑ m ∈ Finset.range d, R l m * X i m) * (∑ n ∈ Finset.range d, R k n * g i n) +
        a l * c⁻¹ * ∑ n ∈ Finset.range d, R k n * g i n := by
      intro i _
      simp only [Spec.similar]
      field_simp
    rw [Finset.sum_congr rfl this, Finset.sum_add_distrib, ← Finset.mul_sum, z, mul_zero, add_zero]
    simp only [Finset.sum_mul_sum]
    rw [Finset.sum_comm, ← rot_delta h hk hl]
    refine Finset.sum_congr rfl fun m hm => ?_
    rw [Finset.sum_comm]
    have : ∀ n ∈ Finset.range d, ∑ i ∈ Finset.range (d + 1), R l m * X i m * (R k n * g i n) =
        R l m * R k n * if n = m then 1 else 0 := by
      intro n hn
      rw [← hs.repro n (Finset.mem_range.1 hn) m (Finset.mem_range.1 hm), Finset.mul_sum]
      exact Finset.sum_congr rfl fun i _ => by ring
    rw [Finset.sum_congr rfl this]
    simp only [mul_ite, mul_one, mul_zero, Finset.sum_ite_eq', hm, if_true]

theorem Shape.unique {X g g' : ℕ → ℕ → K} (h : Shape d X g) (h' : Shape d X g') {i : ℕ}
    (hi : i < d + 1) {k : ℕ} (hk : k < d) : g' i k = g i k :=
  h.reorder (σ := fun i => i) h' ⟨fun _ h => h, fun _ _ _ _ h => h⟩ hi hk

theorem det2_similar (c : K) (h : Orthogonal 2 R) (a : ℕ → K) (X : ℕ → ℕ → K) :
    ∃ s : K, s ^ 2 = 1 ∧ det2 (Spec.similar 2 c R a X) = s * (c ^ 2 * det2 X) := by
  refine ⟨R 0 0 * R 1 1 - R 0 1 * R 1 0, ?_, ?_⟩
  · have h0 := (h 0 (by omega) 0 (by omega)).2
    have h1 := (h 1 (by omega) 1 (by omega)).2
    have h2 := (h 0 (by omega) 1 (by omega)).2
    simp only [Finset.sum_range_succ, Finset.sum_range_zero, zero_add, if_true, zero_ne_one,
      if_false] at h0 h1 h2
    have : (R 0 0 * R 1 1 - R 0 1 * R 1 0) ^ 2 = (R 0 0 * R 0 0 + R 0 1 * R 0 1) *
      (R 1 0 * R 1 0 + R 1 1 * R 1 1) - (R 0 0 * R 1 0 + R 0 1 * R 1 1) ^ 2 := by ring
    rw [this, h0, h1, h2]; ring
  · simp only [det2, Spec.similar, Finset.sum_range_succ, Finset.sum_range_zero]
    ring

theorem det3_similar (c : K) (h : Orthogonal 3 R) (a : ℕ → K) (X : ℕ → ℕ → K) :
    ∃ s : K, s ^ 2 = 1 ∧ det3 (Spec.similar 3 c R a X) = s * (c ^ 3 * det3 X) := by
  refine ⟨R 0 0 * (R 1 1 * R 2 2 - R 1 2 * R 2 1) - R 0 1 * (R 1 0 * R 2 2 - R 1 2 * R 2 0) +
    R 0 2 * (R 1 0 * R 2 1 - R 1 1 * R 2 0), ?_, ?_⟩
  · have h00 := (h 0 (by omega) 0 (by omega)).2
    have h11 := (h 1 (by omega) 1 (by omega)).2
    have h22 := (h 2 (by omega) 2 (by omega)).2
    have h01 := (h 0 (by omega) 1 (by omega)).2
    have h02 := (h 0 (by omega) 2 (by omega)).2
    have h12 := (h 1 (by omega) 2 (by omega)).2
    simp only [Finset.sum_range_succ, Finset.sum_range_zero, zero_add, if_true, if_false,
      show ¬ (0 = 1) by decide, show ¬ (0 = 2) by decide, show ¬ (1 = 2) by decide]
      at h00 h11 h22 h01 h02 h12
    generalize hA : R 0 0 * R 0 0 + R 0 1 * R 0 1 + R 0 2 * R 0 2 = A at h00
    generalize hB : R 1 0 * R 1 0 + R 1 1 * R 1 1 + R 1 2 * R 1 2 = B at h11
    generalize hC : R 2 0 * R 2 0 + R 2 1 * R 2 1 + R 2 2 * R 2 2 = C at h22
    generalize hD : R 0 0 * R 1 0 + R 0 1 * R 1 1 + R 0 2 * R 1 2 = D at h01
    generalize hE : R 0 0 * R 2 0 + R 0 1 * R 2 1 + R 0 2 * R 2 2 = E at h02
    generalize hF : R 1 0 * R 2 0 + R 1 1 * R 2 1 + R 1 2 * R 2 2 = F at h12
    have : (R 0 0 * (R 1 1 * R 2 2 - R 1 2 * R 2 1) - R 0 1 * (R 1 0 * R 2 2 - R 1 2 * R 2 0) +
      R 0 2 * (R 1 0 * R 2 1 - R 1 1 * R 2 0)) ^ 2 =
      A * (B * C - F * F) - D * (D * C - F * E) + E * (D * F - B * E) := by
      subst hA hB hC hD hE hF; ring
    rw [this, h00, h11, h22, h01, h02, h12]; ring
  · simp only [det3, Spec.similar, Finset.sum_range_succ, Finset.sum_range_zero]
    ring

/-- Rows of local vectors that are combinations of others give matrices that are the same combinations of
others. -/
theorem edges_transfer {ι : Type _} (size : ℕ) (feat : (ℕ → ℕ → K) → ℕ → ℕ → List K)
    (elements : List (List ℕ)) (nodes nodes' : ℕ → ℕ → K) (f p q : ℕ) (S : Finset ι) (w : ι → K)
    (idx : ι → ℕ) (h : ∀ e ∈ elements, ∀ i < size, ∀ j < size,
      (feat (vertices nodes' e) i j).getD f 0 =
        ∑ s ∈ S, w s * (feat (vertices nodes e) i j).getD (idx s) 0) :
    edgesFeatures size feat elements nodes' f p q =
      ∑ s ∈ S, w s * edgesFeatures size feat elements nodes (idx s) p q := by
  simp only [edgesFeatures_apply, sumElements, Finset.mul_sum]
  conv_rhs => rw [Finset.sum_comm]
  refine Finset.sum_congr rfl fun t ht => ?_
  conv_rhs => rw [Finset.sum_comm]
  refine Finset.sum_congr rfl fun i hi => ?_
  conv_rhs => rw [Finset.sum_comm]
  refine Finset.sum_congr rfl fun j hj => ?_
  rw [h _ (getD_mem (Finset.mem_range.1 ht)) i (Finset.mem_range.1 hi) j (Finset.mem_range.1 hj)]
  split_ifs
  · rfl
  · simp

/-- Frobenius products after a rotation. -/
theorem frobenius_rot (h : Orthogonal d R) (V U : ℕ → ℕ → K) :
    ∑ a ∈ Finset.range d, ∑ b ∈ Finset.range d,
      (∑ j ∈ Finset.range d, R b j * ∑ i ∈ Finset.range d, R a i * V i j) *
      (∑ j ∈ Finset.range d, R b j * ∑ i ∈ Finset.range d, R a i * U i j) =
    ∑ a ∈ Finset.range d, ∑ b ∈ Finset.range d, V a b * U a b := by
  rw [Finset.sum_congr rfl fun a _ => dot_rot h (fun j => ∑ i ∈ Finset.range d, R a i * V i j)
    fun j => ∑ i ∈ Finset.range d, R a i * U i j]
  rw [Finset.sum_comm]
  rw [Finset.sum_congr rfl fun j _ => dot_rot h (fun i => V i j) fun i => U i j]
  rw [Finset.sum_comm]

theorem trace_rot (h : Orthogonal d R) (V : ℕ → ℕ → K) :
    ∑ a ∈ Finset.range d, (∑ j ∈ Finset.range d, R a j * ∑ i ∈ Finset.range d, R a i * V i j) =
    ∑ a ∈ Finset.range d, V a a := by
  rw [Finset.sum_comm]
  refine Finset.sum_congr rfl fun j hj => ?_
  have := dot_rot h (fun m => if m = j then 1 else 0) (fun i => V i j)
  simp only [mul_ite, mul_one, mul_zero, ite_mul, one_mul, zero_mul, Finset.sum_ite_eq', hj, if_true]
    at this
  exact this

/-- The gradient of a turned field. -/
def turnedGradient (d : ℕ) (c : K) (R : ℕ → ℕ → K) (V : ℕ → ℕ → K) : ℕ → ℕ → K := fun a b =>
  c⁻¹ * ∑ j ∈ Finset.range d, R b j * ∑ i ∈ Finset.range d, R a i * V i j

theorem hooke_rot (h2 : (2 : K) ≠ 0) (h : Orthogonal d R) (c mu lam : K) (V U : ℕ → ℕ → K) :
    hooke d mu lam (turnedGradient d c R V) (turnedGradient d c R U) =
      c⁻¹ ^ 2 * hooke d mu lam V U := by
  have split : ∀ V U : ℕ → ℕ → K, hooke d mu lam V U =
      mu * (∑ a ∈ Finset.range d, ∑ b ∈ Finset.range d, V a b * U a b +
        ∑ a ∈ Finset.range d, ∑ b ∈ Finset.range d, V a b * U b a) +
      lam * ((∑ a ∈ Finset.range d, V a a) * ∑ a ∈ Finset.range d, U a a) := by
    intro V U
    unfold hooke
    congr 1
    have e1 : ∑ a ∈ Finset.range d, ∑ b ∈ Finset.range d, V b a * U b a =
        ∑ a ∈ Finset.range d, ∑ b ∈ Finset.range d, V a b * U a b := Finset.sum_comm
    have e2 : ∑ a ∈ Finset.range d, ∑ b ∈ Finset.range d, V b a * U a b =
        ∑ a ∈ Finset.range d, ∑ b ∈ Finset.range d, V a b * U b a := Finset.sum_comm
    have : ∑ a ∈ Finset.range d, ∑ b ∈ Finset.range d, (V a b + V b a) / 2 * ((U a b + U b a) / 2) =
        (∑ a ∈ Finset.range d, ∑ b ∈ Finset.range d, V a b * U a b +
        ∑ a ∈ Finset.range d, ∑ b ∈ Finset.range d, V a b * U b a +
        (∑ a ∈ Finset.range d, ∑ b ∈ Finset.range d, V b a * U a b +
        ∑ a ∈ Finset.range d, ∑ b ∈ Finset.range d, V b a * U b a)) / 4 := by
      simp only [← Finset.sum_add_distrib, Finset.sum_div]
      refine Finset.sum_congr rfl fun a _ => Finset.sum_congr rfl fun b _ => ?_
      have h4 : (4 : K) ≠ 0 := by
        have : (4 : K) = 2 * 2 := by norm_num
        rw [this]; exact mul_ne_zero h2 h2
      field_simp
      ring
    rw [this, e1, e2]
    have h4 : (4 : K) ≠ 0 := by
      have : (4 : K) = 2 * 2 := by norm_num
      rw [this]; exact mul_ne_zero h2 h2
    field_simp
    ring
  rw [split, split]
  have t : ∀ V : ℕ → ℕ → K, ∑ a ∈ Finset.range d, turnedGradient d c R V a a =
      c⁻¹ * ∑ a ∈ Finset.range d, V a a := by
    intro V
    unfold turnedGradient
    rw [← Finset.mul_sum, trace_rot h]
  have f1 : ∑ a ∈ Finset.range d, ∑ b ∈ Finset.range d,
      turnedGradient d c R V a b * turnedGradient d c R U a b =
      c⁻¹ ^ 2 * ∑ a ∈ Finset.range d, ∑ b ∈ Finset.range d, V a b * U a b := by
    rw [← frobenius_rot h V U]
    rw [Finset.mul_sum]
    refine Finset.sum_congr rfl fun a _ => ?_
    rw [Finset.mul_sum]
    refine Finset.sum_congr rfl fun b _ => ?_
    unfold turnedGradient
    ring
  have f2 : ∑ a ∈ Finset.range d, ∑ b ∈ Finset.range d,
      turnedGradient d c R V a b * turnedGradient d c R U b a =
      c⁻¹ ^ 2 * ∑ a ∈ Finset.range d, ∑ b ∈ Finset.range d, V a b * U b a := by
    rw [← frobenius_rot h V fun i j => U j i]
    rw [Finset.mul_sum]
    refine Finset.sum_congr rfl fun a _ => ?_
    rw [Finset.mul_sum]
    refine Finset.sum_congr rfl fun b _ => ?_
    have : ∑ j ∈ Finset.range d, R a j * ∑ i ∈ Finset.range d, R b i * U i j =
        ∑ j ∈ Finset.range d, R b j * ∑ i ∈ Finset.range d, R a i * U j i := by
      simp only [Finset.mul_sum]
      rw [Finset.sum_comm]
      exact Finset.sum_congr rfl fun i _ => Finset.sum_congr rfl fun j _ => by ring
    unfold turnedGradient
    rw [this]
    ring
  rw [t, t, f1, f2]
  ring

/-- The gradient of a turned field on a moved mesh. -/
theorem vectorGradient_similar {N : ℕ} {elements : List (List ℕ)} {nodes : ℕ → ℕ → K} {u : ℕ → K}
    {U : ℕ → ℕ → ℕ → K} (hv : ValidElements d N elements) (h : Orthogonal d R) {c : K} (hc : c ≠ 0)
    (a : ℕ → K) (hU : VectorGradient d N elements nodes u U) :
    VectorGradient d N elements (Spec.similar d c R a nodes) (turned d N R u)
      fun t => turnedGradient d c R (U t) := by
  intro b hb t ht
  choose k hk using fun (i : Fin d) => hU i i.2 t ht
  let k' : ℕ → K := fun i => if hi : i < d then k ⟨i, hi⟩ else 0
  have hk' : ∀ i < d, ∀ j < d + 1, valuesOn (elements.getD t []) (component N u i) j = k' i +
      ∑ l ∈ Finset.range d, U t i l * vertices nodes (elements.getD t []) j l := by
    intro i hi j hj
    have := hk ⟨i, hi⟩ j hj
    simpa only [k', hi, dif_pos] using this
  refine ⟨∑ i ∈ Finset.range d, R b i * k' i -
    ∑ l ∈ Finset.range d, turnedGradient d c R (U t) b l * a l, fun j hj => ?_⟩
  have hp := getD_lt hv (getD_mem ht) hj
  have e1 : valuesOn (elements.getD t []) (component N (turned d N R u) b) j =
      ∑ i ∈ Finset.range d, R b i * valuesOn (elements.getD t []) (component N u i) j := by
    simp only [valuesOn, component, turned, block_div _ hp, block_mod _ hp]
  rw [e1, Finset.sum_congr rfl fun i hi => by rw [hk' i (Finset.mem_range.1 hi) j hj, mul_add],
    Finset.sum_add_distrib]
  have e2 : ∀ l ∈ Finset.range d, turnedGradient d c R (U t) b l *
      vertices (Spec.similar d c R a nodes) (elements.getD t []) j l =
      (∑ m ∈ Finset.range d, R l m * ∑ i ∈ Finset.range d, R b i * U t i m) *
        (∑ m ∈ Finset.range d, R l m * vertices nodes (elements.getD t []) j m) +
      turnedGradient d c R (U t) b l * a l := by
    intro l _
    simp only [vertices, Spec.similar, turnedGradient]
    field_simp
  rw [Finset.sum_congr rfl e2, Finset.sum_add_distrib,
    dot_rot h (fun m => ∑ i ∈ Finset.range d, R b i * U t i m)]
  have e3 : ∑ m ∈ Finset.range d, (∑ i ∈ Finset.range d, R b i * U t i m) *
      vertices nodes (elements.getD t []) j m = ∑ i ∈ Finset.range d, R b i *
      ∑ l ∈ Finset.range d, U t i l * vertices nodes (elements.getD t []) j l := by
    simp only [Finset.sum_mul, Finset.mul_sum]
    rw [Finset.sum_comm]
    exact Finset.sum_congr rfl fun i _ => Finset.sum_congr rfl fun m _ => by ring
  rw [e3]
  ring

/-- The sum over all elements does not depend on their order. -/
theorem sumElements_perm {elements elements' : List (List ℕ)} (h : elements.Perm elements')
    (f : List ℕ → K) : (sumElements elements fun _ e => f e) = sumElements elements' fun _ e => f e := by
  unfold sumElements
  rw [← list_sum_range, ← list_sum_range]
  exact (h.map f).sum_eq

end
end Conmech
