import Verif.Props.Gradients
/-!
C23, C24, C25: mass, volume, gradient-product and Poisson matrices.
-/
namespace Conmech
open Spec

section
variable {K : Type _} [Field K] [LinearOrder K] [IsStrictOrderedRing K]
variable {d N : ℕ} {feat : (ℕ → ℕ → K) → ℕ → ℕ → List K} {elements : List (List ℕ)}
  {nodes : ℕ → ℕ → K} {size : (ℕ → ℕ → K) → K} {g : (ℕ → ℕ → K) → ℕ → ℕ → K}

/-- The share of node `p` in all elements: `size / (d + 1)` for every occurrence. -/
def Spec.lumped (d : ℕ) (elements : List (List ℕ)) (nodes : ℕ → ℕ → K) (size : (ℕ → ℕ → K) → K)
    (p : ℕ) : K :=
  sumElements elements fun _ e => ∑ i ∈ Finset.range (d + 1),
    if e.getD i 0 = p then size (vertices nodes e) / ((d : K) + 1) else 0

omit [IsStrictOrderedRing K] in
theorem sum_entries (M : ℕ → ℕ → K) : ∑ p ∈ Finset.range N, ∑ q ∈ Finset.range N, M p q =
    form N N M (fun _ => 1) fun _ => 1 := by simp [form]

omit [IsStrictOrderedRing K] in
theorem row_sum (M : ℕ → ℕ → K) {p : ℕ} (hp : p < N) : ∑ q ∈ Finset.range N, M p q =
    form N N M (single p) fun _ => 1 := by rw [form_single M hp]; simp

omit [IsStrictOrderedRing K] in
theorem column_sum (M : ℕ → ℕ → K) {q : ℕ} (hq : q < N) : ∑ p ∈ Finset.range N, M p q =
    form N N M (fun _ => 1) (single q) := by rw [form_single_right M hq]; simp

theorem mass_total (hd : 0 < d) (hv : ValidElements d N elements)
    (h : AllLocal d feat elements nodes size g) :
    ∑ p ∈ Finset.range N, ∑ q ∈ Finset.range N, edgesFeatures (d + 1) feat elements nodes 1 p q =
      sumElements elements fun _ e => size (vertices nodes e) := by
  rw [sum_entries, form_mass hv h]
  refine sumElements_congr fun t _ => ?_
  simp only [valuesOn, Finset.sum_const, Finset.card_range, nsmul_eq_mul, mul_one, Nat.cast_add,
    Nat.cast_one]
  have : (0 : K) < d := by exact_mod_cast hd
  field_simp
  ring

theorem vol_total (hd : 0 < d) (hv : ValidElements d N elements)
    (h : AllLocal d feat elements nodes size g) :
    ∑ p ∈ Finset.range N, ∑ q ∈ Finset.range N, edgesFeatures (d + 1) feat elements nodes 0 p q =
      sumElements elements fun _ e => size (vertices nodes e) := by
  rw [sum_entries, form_vol hv h]
  refine sumElements_congr fun t _ => ?_
  simp only [valuesOn, Finset.sum_const, Finset.card_range, nsmul_eq_mul, mul_one, Nat.cast_add,
    Nat.cast_one]
  have : (0 : K) < d := by exact_mod_cast hd
  field_simp
  ring

theorem mass_row (hd : 0 < d) (hv : ValidElements d N elements)
    (h : AllLocal d feat elements nodes size g) {p : ℕ} (hp : p < N) :
    ∑ q ∈ Finset.range N, edgesFeatures (d + 1) feat elements nodes 1 p q =
      lumped d elements nodes size p := by
  rw [row_sum _ hp, form_mass hv h]
  refine sumElements_congr fun t _ => ?_
  simp only [valuesOn, Finset.sum_const, Finset.card_range, nsmul_eq_mul, mul_one, Nat.cast_add,
    Nat.cast_one, single]
  have : (0 : K) < d := by exact_mod_cast hd
  generalize size (vertices nodes (elements.getD t [])) = s
  rw [show ∀ S : K, s / (((d : K) + 1) * (d + 2)) * (S * (d + 1) + S) = S * (s / (d + 1)) by
    intro S; field_simp; ring]
  rw [Finset.sum_mul]
  exact Finset.sum_congr rfl fun i _ => by split_ifs <;> simp

theorem vol_row (hd : 0 < d) (hv : ValidElements d N elements)
    (h : AllLocal d feat elements nodes size g) {p : ℕ} (hp : p < N) :
    ∑ q ∈ Finset.range N, edgesFeatures (d + 1) feat elements nodes 0 p q =
      lumped d elements nodes size p := by
  rw [row_sum _ hp, form_vol hv h]
  refine sumElements_congr fun t _ => ?_
  simp only [valuesOn, Finset.sum_const, Finset.card_range, nsmul_eq_mul, mul_one, Nat.cast_add,
    Nat.cast_one, single]
  have : (0 : K) < d := by exact_mod_cast hd
  generalize size (vertices nodes (elements.getD t [])) = s
  rw [show ∀ S : K, s / (((d : K) + 1) * d) * (S * (d + 1) - S) = S * (s / (d + 1)) by
    intro S; field_simp; ring]
  rw [Finset.sum_mul]
  exact Finset.sum_congr rfl fun i _ => by split_ifs <;> simp

theorem mass_symm (hv : ValidElements d N elements) (h : AllLocal d feat elements nodes size g) :
    ∀ p < N, ∀ q < N, edgesFeatures (d + 1) feat elements nodes 1 p q =
      edgesFeatures (d + 1) feat elements nodes 1 q p :=
  symm_of_form fun x y => by
    rw [form_mass hv h, form_mass hv h]
    refine sumElements_congr fun t _ => ?_
    congr 2
    · exact mul_comm _ _
    · exact Finset.sum_congr rfl fun i _ => mul_comm _ _

/-- The mass matrix is positive definite when every node belongs to an element. -/
theorem mass_pos (hv : ValidElements d N elements) (h : AllLocal d feat elements nodes size g)
    (x : ℕ → K) :
    0 ≤ form N N (edgesFeatures (d + 1) feat elements nodes 1) x x ∧
    ((∀ p < N, ∃ e ∈ elements, p ∈ e) →
      form N N (edgesFeatures (d + 1) feat elements nodes 1) x x = 0 → ∀ p < N, x p = 0) := by
  rw [form_mass hv h]
  have hc : ∀ t < elements.length, 0 < size (vertices nodes (elements.getD t [])) / (((d : K) + 1) * (d + 2)) := by
    intro t ht
    have := (h _ (getD_mem ht)).pos
    positivity
  have hs : ∀ t < elements.length, (0 : K) ≤
      ∑ i ∈ Finset.range (d + 1), valuesOn (elements.getD t []) x i * valuesOn (elements.getD t []) x i :=
    fun t _ => Finset.sum_nonneg fun i _ => mul_self_nonneg _
  have hn : ∀ t < elements.length, 0 ≤ size (vertices nodes (elements.getD t [])) / (((d : K) + 1) * (d + 2)) *
        ((∑ i ∈ Finset.range (d + 1), valuesOn (elements.getD t []) x i) *
          (∑ i ∈ Finset.range (d + 1), valuesOn (elements.getD t []) x i) +
          ∑ i ∈ Finset.range (d + 1),
            valuesOn (elements.getD t []) x i * valuesOn (elements.getD t []) x i) :=
    fun t ht => mul_nonneg (hc t ht).le (add_nonneg (mul_self_nonneg _) (hs t ht))
  refine ⟨sumElements_nonneg _ _ hn, ?_⟩
  intro hall h0 p hp
  obtain ⟨e, he, hpe⟩ := hall p hp
  obtain ⟨t, ht, rfl⟩ := List.getElem_of_mem he
  have hz := sumElements_eq_zero _ _ hn h0 t ht
  rw [mul_eq_zero] at hz
  rcases hz with hz | hz
  · exact absurd hz (hc t ht).ne'
  have hz2 := hs t ht
  have hz3 := mul_self_nonneg (∑ i ∈ Finset.range (d + 1), valuesOn (elements.getD t []) x i)
  have hz4 : ∑ i ∈ Finset.range (d + 1), valuesOn (elements.getD t []) x i *
    valuesOn (elements.getD t []) x i = 0 := by linarith
  rw [Finset.sum_eq_zero_iff_of_nonneg fun i _ => mul_self_nonneg _] at hz4
  obtain ⟨i, hi, hpi⟩ := List.getElem_of_mem hpe
  have hlen := (hv _ (List.getElem_mem ht)).1
  have := hz4 i (Finset.mem_range.2 (by omega))
  rw [mul_self_eq_zero] at this
  unfold valuesOn at this
  rw [List.getD_eq_getElem _ _ ht, List.getD_eq_getElem _ _ hi, hpi] at this
  exact this

theorem stiff_transpose (hv : ValidElements d N elements) (h : AllLocal d feat elements nodes size g)
    {k l : ℕ} (hk : k < d) (hl : l < d) {p q : ℕ} (hp : p < N) (hq : q < N) :
    edgesFeatures (d + 1) feat elements nodes (2 + d * (k + 1) + l) p q =
      edgesFeatures (d + 1) feat elements nodes (2 + d * (l + 1) + k) q p := by
  obtain ⟨Gp, hGp⟩ := exists_fieldGradient h (single p)
  obtain ⟨Gq, hGq⟩ := exists_fieldGradient h (single q)
  rw [← form_single_single (edgesFeatures (d + 1) feat elements nodes (2 + d * (k + 1) + l)) hp hq,
    ← form_single_single (edgesFeatures (d + 1) feat elements nodes (2 + d * (l + 1) + k)) hq hp,
    form_stiff hv h hk hl hGp hGq, form_stiff hv h hl hk hGq hGp]
  exact sumElements_congr fun t _ => by ring

theorem stiff_row (hv : ValidElements d N elements) (h : AllLocal d feat elements nodes size g)
    {k l : ℕ} (hk : k < d) (hl : l < d) {p : ℕ} (hp : p < N) :
    ∑ q ∈ Finset.range N, edgesFeatures (d + 1) feat elements nodes (2 + d * (k + 1) + l) p q = 0 := by
  obtain ⟨Gp, hGp⟩ := exists_fieldGradient h (single p)
  rw [row_sum _ hp, form_stiff hv h hk hl hGp (fieldGradient_const _ _ _ 1)]
  exact sumElements_zero fun t _ => by ring

theorem stiff_column (hv : ValidElements d N elements) (h : AllLocal d feat elements nodes size g)
    {k l : ℕ} (hk : k < d) (hl : l < d) {q : ℕ} (hq : q < N) :
    ∑ p ∈ Finset.range N, edgesFeatures (d + 1) feat elements nodes (2 + d * (k + 1) + l) p q = 0 := by
  obtain ⟨Gq, hGq⟩ := exists_fieldGradient h (single q)
  rw [column_sum _ hq, form_stiff hv h hk hl (fieldGradient_const _ _ _ 1) hGq]
  exact sumElements_zero fun t _ => by ring

theorem grad_row (hv : ValidElements d N elements) (h : AllLocal d feat elements nodes size g)
    {k : ℕ} (hk : k < d) {p : ℕ} (hp : p < N) :
    ∑ q ∈ Finset.range N, edgesFeatures (d + 1) feat elements nodes (2 + k) p q = 0 := by
  rw [row_sum _ hp, form_grad hv h hk _ (fieldGradient_const _ _ _ 1)]
  exact sumElements_zero fun t _ => by ring

/-- The form of the Poisson matrix. -/
theorem form_poisson {W : ℕ → ℕ → ℕ → ℕ → K} (c : K) (x y : ℕ → K) :
    form N N (poissonMatrix d W c) x y = c ^ 2 * ∑ k ∈ Finset.range d, form N N (W k k) x y := by
  unfold poissonMatrix
  rw [form_mul]
  congr 1
  simp only [form, Finset.mul_sum, Finset.sum_mul]
  rw [Finset.sum_congr rfl fun p _ => Finset.sum_comm]
  rw [Finset.sum_comm]

end

section
variable {K : Type _} [Field K] [LinearOrder K] [IsStrictOrderedRing K]
variable {N : ℕ} {elements : List (List ℕ)} {nodes : ℕ → ℕ → K}

/-- C23: the size of an element is the area of the triangle. -/
theorem C23_area (elements : List (List ℕ)) (nodes : ℕ → ℕ → K) :
    (basicMatrices2 elements nodes).elementVolume = elements.map fun e => area (vertices nodes e) := by
  simp only [basicMatrices2, elementVolumes]
  exact List.map_congr_left fun e _ => Plane.volume_eq _ 2 (by omega)

/-- C23: the size of an element is the volume of the tetrahedron. -/
theorem C23_volume (elements : List (List ℕ)) (nodes : ℕ → ℕ → K) :
    (basicMatrices3 elements nodes).elementVolume =
      elements.map fun e => Spec.volume (vertices nodes e) := by
  simp only [basicMatrices3, elementVolumes]
  exact List.map_congr_left fun e _ => Space.volume_eq _ 3 (by omega)

/-- C23: the sizes do not depend on the order of the vertices. -/
theorem C23_order (X : ℕ → ℕ → K) :
    (∀ σ, Reorders 3 σ → ∀ i < 3, ∀ j < 3, Plane.volume (fun i => X (σ i)) i = Plane.volume X j) ∧
    ∀ σ, Reorders 4 σ → ∀ i < 4, ∀ j < 4, Space.volume (fun i => X (σ i)) i = Space.volume X j := by
  constructor
  · intro σ hσ i hi j hj
    rw [Plane.volume_eq _ i hi, Plane.volume_eq _ j hj, area, area, abs_det2_reorder X σ hσ]
  · intro σ hσ i hi j hj
    rw [Space.volume_eq _ i hi, Space.volume_eq _ j hj, Spec.volume, Spec.volume,
      abs_det3_reorder X σ hσ]

/-- C23: the entries of the mass and volume matrices of a triangular mesh sum to its area, every row to
the share of its node. -/
theorem C23_total2 (hv : ValidElements 2 N elements) (hn : Nondegenerate2 elements nodes) :
    let m := basicMatrices2 elements nodes
    (∑ p ∈ Finset.range N, ∑ q ∈ Finset.range N, m.U p q =
      sumElements elements fun _ e => area (vertices nodes e)) ∧
    (∑ p ∈ Finset.range N, ∑ q ∈ Finset.range N, m.volumeAtNodes p q =
      sumElements elements fun _ e => area (vertices nodes e)) ∧
    (∀ p < N, ∑ q ∈ Finset.range N, m.U p q = lumped 2 elements nodes area p) ∧
    ∀ p < N, ∑ q ∈ Finset.range N, m.volumeAtNodes p q = lumped 2 elements nodes area p :=
  have h := Plane.allLocal hn
  ⟨mass_total (by omega) hv h, vol_total (by omega) hv h, fun _ hp => mass_row (by omega) hv h hp,
    fun _ hp => vol_row (by omega) hv h hp⟩

/-- C23: the entries of the mass and volume matrices of a tetrahedral mesh sum to its volume, every row
to the share of its node. -/
theorem C23_total3 (hv : ValidElements 3 N elements) (hn : Nondegenerate3 elements nodes) :
    let m := basicMatrices3 elements nodes
    (∑ p ∈ Finset.range N, ∑ q ∈ Finset.range N, m.U p q =
      sumElements elements fun _ e => Spec.volume (vertices nodes e)) ∧
    (∑ p ∈ Finset.range N, ∑ q ∈ Finset.range N, m.volumeAtNodes p q =
      sumElements elements fun _ e => Spec.volume (vertices nodes e)) ∧
    (∀ p < N, ∑ q ∈ Finset.range N, m.U p q = lumped 3 elements nodes Spec.volume p) ∧
    ∀ p < N, ∑ q ∈ Finset.range N, m.volumeAtNodes p q = lumped 3 elements nodes Spec.volume p :=
  have h := Space.allLocal hn
  ⟨mass_total (by omega) hv h, vol_total (by omega) hv h, fun _ hp => mass_row (by omega) hv h hp,
    fun _ hp => vol_row (by omega) hv h hp⟩

/-- C23: the mass matrix of a triangular mesh is symmetric and positive semidefinite, and definite when
every node belongs to a triangle. -/
theorem C23_mass2 (hv : ValidElements 2 N elements) (hn : Nondegenerate2 elements nodes) :
    let U := (basicMatrices2 elements nodes).U
    (∀ p < N, ∀ q < N, U p q = U q p) ∧ (∀ x, 0 ≤ form N N U x x) ∧
    ((∀ p < N, ∃ e ∈ elements, p ∈ e) → ∀ x, form N N U x x = 0 → ∀ p < N, x p = 0) :=
  have h := Plane.allLocal hn
  ⟨mass_symm hv h, fun x => (mass_pos hv h x).1, fun hall x => (mass_pos hv h x).2 hall⟩

/-- C23: the mass matrix of a tetrahedral mesh is symmetric and positive semidefinite, and definite when
every node belongs to a tetrahedron. -/
theorem C23_mass3 (hv : ValidElements 3 N elements) (hn : Nondegenerate3 elements nodes) :
    let U := (basicMatrices3 elements nodes).U
    (∀ p < N, ∀ q < N, U p q = U q p) ∧ (∀ x, 0 ≤ form N N U x x) ∧
    ((∀ p < N, ∃ e ∈ elements, p ∈ e) → ∀ x, form N N U x x = 0 → ∀ p < N, x p = 0) :=
  have h := Space.allLocal hn
  ⟨mass_symm hv h, fun x => (mass_pos hv h x).1, fun hall x => (mass_pos hv h x).2 hall⟩

/-- C23: the form of the mass matrix is that of the exact integral of the product of two piecewise
linear functions over the triangles. -/
theorem C23_mass_form2 (hv : ValidElements 2 N elements) (hn : Nondegenerate2 elements nodes)
    (x y : ℕ → K) :
    form N N (basicMatrices2 elements nodes).U x y =
      sumElements elements fun _ e => area (vertices nodes e) / 12 *
        ((valuesOn e x 0 + valuesOn e x 1 + valuesOn e x 2) *
            (valuesOn e y 0 + valuesOn e y 1 + valuesOn e y 2) +
          (valuesOn e x 0 * valuesOn e y 0 + valuesOn e x 1 * valuesOn e y 1 +
            valuesOn e x 2 * valuesOn e y 2)) := by
  refine (form_mass hv (Plane.allLocal hn) x y).trans (sumElements_congr fun t _ => ?_)
  simp only [Finset.sum_range_succ, Finset.sum_range_zero, zero_add]
  norm_num

/-- C24: the gradient-product blocks of a triangular mesh are mutually transposed. -/
theorem C24_transpose2 (hv : ValidElements 2 N elements) (hn : Nondegenerate2 elements nodes)
    (k l : ℕ) (hk : k < 2) (hl : l < 2) (p q : ℕ) (hp : p < N) (hq : q < N) :
    (basicMatrices2 elements nodes).W k l p q = (basicMatrices2 elements nodes).W l k q p :=
  stiff_transpose hv (Plane.allLocal hn) hk hl hp hq

/-- C24: their rows and columns, and the rows of the gradient blocks, sum to zero. -/
theorem C24_constants2 (hv : ValidElements 2 N elements) (hn : Nondegenerate2 elements nodes)
    (k : ℕ) (hk : k < 2) (p : ℕ) (hp : p < N) :
    let m := basicMatrices2 elements nodes
    (∀ l < 2, ∑ q ∈ Finset.range N, m.W k l p q = 0 ∧ ∑ q ∈ Finset.range N, m.W k l q p = 0) ∧
    ∑ q ∈ Finset.range N, m.V k p q = 0 :=
  have h := Plane.allLocal hn
  ⟨fun _ hl => ⟨stiff_row hv h hk hl hp, stiff_column hv h hk hl hp⟩, grad_row hv h hk hp⟩

/-- C24: the gradient-product blocks of a tetrahedral mesh are mutually transposed. -/
theorem C24_transpose3 (hv : ValidElements 3 N elements) (hn : Nondegenerate3 elements nodes)
    (k l : ℕ) (hk : k < 3) (hl : l < 3) (p q : ℕ) (hp : p < N) (hq : q < N) :
    (basicMatrices3 elements nodes).W k l p q = (basicMatrices3 elements nodes).W l k q p :=
  stiff_transpose hv (Space.allLocal hn) hk hl hp hq

/-- C24: their rows and columns, and the rows of the gradient blocks, sum to zero. -/
theorem C24_constants3 (hv : ValidElements 3 N elements) (hn : Nondegenerate3 elements nodes)
    (k : ℕ) (hk : k < 3) (p : ℕ) (hp : p < N) :
    let m := basicMatrices3 elements nodes
    (∀ l < 3, ∑ q ∈ Finset.range N, m.W k l p q = 0 ∧ ∑ q ∈ Finset.range N, m.W k l q p = 0) ∧
    ∑ q ∈ Finset.range N, m.V k p q = 0 :=
  have h := Space.allLocal hn
  ⟨fun _ hl => ⟨stiff_row hv h hk hl hp, stiff_column hv h hk hl hp⟩, grad_row hv h hk hp⟩

/-- C24: the blocks are the integrals of products of partial derivatives. -/
theorem C24_form (k l : ℕ) (x y : ℕ → K) (Gx Gy : ℕ → ℕ → K) :
    (ValidElements 2 N elements → Nondegenerate2 elements nodes → k < 2 → l < 2 →
      FieldGradient 2 elements nodes x Gx → FieldGradient 2 elements nodes y Gy →
      form N N ((basicMatrices2 elements nodes).W k l) x y =
        sumElements elements fun t e => area (vertices nodes e) * (Gx t k * Gy t l)) ∧
    (ValidElements 3 N elements → Nondegenerate3 elements nodes → k < 3 → l < 3 →
      FieldGradient 3 elements nodes x Gx → FieldGradient 3 elements nodes y Gy →
      form N N ((basicMatrices3 elements nodes).W k l) x y =
        sumElements elements fun t e => Spec.volume (vertices nodes e) * (Gx t k * Gy t l)) :=
  ⟨fun hv hn hk hl hx hy => form_stiff hv (Plane.allLocal hn) hk hl hx hy,
    fun hv hn hk hl hx hy => form_stiff hv (Space.allLocal hn) hk hl hx hy⟩

/-- The Dirichlet energy of two fields with gradients `Gx`, `Gy`. -/
def Spec.dirichletEnergy (d : ℕ) (size : (ℕ → ℕ → K) → K) (elements : List (List ℕ))
    (nodes : ℕ → ℕ → K) (Gx Gy : ℕ → ℕ → K) : K :=
  sumElements elements fun t e => size (vertices nodes e) * ∑ k ∈ Finset.range d, Gx t k * Gy t k

theorem poisson_energy {d : ℕ} {feat : (ℕ → ℕ → K) → ℕ → ℕ → List K} {size : (ℕ → ℕ → K) → K}
    {g : (ℕ → ℕ → K) → ℕ → ℕ → K} {W : ℕ → ℕ → ℕ → ℕ → K}
    (hW : W = fun k j => edgesFeatures (d + 1) feat elements nodes (2 + d * (k + 1) + j))
    (hv : ValidElements d N elements) (h : AllLocal d feat elements nodes size g) (c : K)
    {x y : ℕ → K} {Gx Gy : ℕ → ℕ → K} (hx : FieldGradient d elements nodes x Gx)
    (hy : FieldGradient d elements nodes y Gy) :
    form N N (poissonMatrix d W c) x y = c ^ 2 * dirichletEnergy d size elements nodes Gx Gy := by
  subst hW
  rw [form_poisson]
  congr 1
  rw [Finset.sum_congr rfl fun k hk => form_stiff hv h (Finset.mem_range.1 hk) (Finset.mem_range.1 hk) hx hy]
  unfold dirichletEnergy sumElements
  rw [Finset.sum_comm]
  refine Finset.sum_congr rfl fun t _ => ?_
  simp only [Finset.mul_sum]

omit [IsStrictOrderedRing K] in
theorem dirichletEnergy_comm (d : ℕ) (size : (ℕ → ℕ → K) → K) (elements : List (List ℕ))
    (nodes : ℕ → ℕ → K) (Gx Gy : ℕ → ℕ → K) :
    dirichletEnergy d size elements nodes Gx Gy = dirichletEnergy d size elements nodes Gy Gx :=
  sumElements_congr fun t _ => by
    congr 1
    exact Finset.sum_congr rfl fun k _ => mul_comm _ _

theorem poisson_all {d : ℕ} {feat : (ℕ → ℕ → K) → ℕ → ℕ → List K} {size : (ℕ → ℕ → K) → K}
    {g : (ℕ → ℕ → K) → ℕ → ℕ → K} {W : ℕ → ℕ → ℕ → ℕ → K}
    (hW : W = fun k j => edgesFeatures (d + 1) feat elements nodes (2 + d * (k + 1) + j))
    (hv : ValidElements d N elements) (h : AllLocal d feat elements nodes size g) (c : K) :
    (∀ p < N, ∀ q < N, poissonMatrix d W c p q = poissonMatrix d W c q p) ∧
    (∀ x Gx, FieldGradient d elements nodes x Gx →
      form N N (poissonMatrix d W c) x x = c ^ 2 * dirichletEnergy d size elements nodes Gx Gx) ∧
    (∀ x, 0 ≤ form N N (poissonMatrix d W c) x x) ∧
    (∀ a : K, ∀ p < N, ∑ q ∈ Finset.range N, poissonMatrix d W c p q * a = 0) ∧
    (c ≠ 0 → ∀ x Gx, FieldGradient d elements nodes x Gx → form N N (poissonMatrix d W c) x x = 0 →
      ∀ t < elements.length, ∀ k < d, Gx t k = 0) := by
  have hnn : ∀ Gx : ℕ → ℕ → K, ∀ t < elements.length, 0 ≤ size (vertices nodes (elements.getD t [])) *
      ∑ k ∈ Finset.range d, Gx t k * Gx t k := fun Gx t ht =>
    mul_nonneg (h _ (getD_mem ht)).pos.le (Finset.sum_nonneg fun k _ => mul_self_nonneg _)
  refine ⟨?_, ?_, ?_, ?_, ?_⟩
  · refine symm_of_form fun x y => ?_
    obtain ⟨Gx, hx⟩ := exists_fieldGradient h x
    obtain ⟨Gy, hy⟩ := exists_fieldGradient h y
    rw [poisson_energy hW hv h c hx hy, poisson_energy hW hv h c hy hx, dirichletEnergy_comm]
  · exact fun x Gx hx => poisson_energy hW hv h c hx hx
  · intro x
    obtain ⟨Gx, hx⟩ := exists_fieldGradient h x
    rw [poisson_energy hW hv h c hx hx]
    exact mul_nonneg (sq_nonneg c) (sumElements_nonneg _ _ (hnn Gx))
  · intro a p hp
    rw [← form_single _ hp (fun _ => a)]
    obtain ⟨Gp, hGp⟩ := exists_fieldGradient h (single p)
    rw [poisson_energy hW hv h c hGp (fieldGradient_const _ _ _ a)]
    unfold dirichletEnergy
    rw [sumElements_zero fun t _ => by simp, mul_zero]
  · intro hc x Gx hx h0 t ht k hk
    rw [poisson_energy hW hv h c hx hx, mul_eq_zero] at h0
    rcases h0 with h0 | h0
    · exact absurd h0 (pow_ne_zero 2 hc)
    have := sumElements_eq_zero _ _ (hnn Gx) h0 t ht
    rw [mul_eq_zero] at this
    rcases this with h1 | h1
    · exact absurd h1 (h _ (getD_mem ht)).pos.ne'
    rw [Finset.sum_eq_zero_iff_of_nonneg fun i _ => mul_self_nonneg _] at h1
    exact mul_self_eq_zero.1 (h1 k (Finset.mem_range.2 hk))

/-- C25: on a triangular mesh the Poisson matrix is symmetric, its quadratic form is the sum over the
triangles of the area times the squared gradient (times the squared propagation) and nonnegative, it
maps constants to zero, and only locally constant fields have no energy. -/
theorem C25_poisson2 (hv : ValidElements 2 N elements) (hn : Nondegenerate2 elements nodes) (c : K) :
    let P := poissonMatrix 2 (basicMatrices2 elements nodes).W c
    (∀ p < N, ∀ q < N, P p q = P q p) ∧
    (∀ x Gx, FieldGradient 2 elements nodes x Gx →
      form N N P x x = c ^ 2 * dirichletEnergy 2 area elements nodes Gx Gx) ∧
    (∀ x, 0 ≤ form N N P x x) ∧
    (∀ a : K, ∀ p < N, ∑ q ∈ Finset.range N, P p q * a = 0) ∧
    (c ≠ 0 → ∀ x Gx, FieldGradient 2 elements nodes x Gx → form N N P x x = 0 →
      ∀ t < elements.length, ∀ k < 2, Gx t k = 0) :=
  poisson_all rfl hv (Plane.allLocal hn) c

/-- C25: the same on a tetrahedral mesh. -/
theorem C25_poisson3 (hv : ValidElements 3 N elements) (hn : Nondegenerate3 elements nodes) (c : K) :
    let P := poissonMatrix 3 (basicMatrices3 elements nodes).W c
    (∀ p < N, ∀ q < N, P p q = P q p) ∧
    (∀ x Gx, FieldGradient 3 elements nodes x Gx →
      form N N P x x = c ^ 2 * dirichletEnergy 3 Spec.volume elements nodes Gx Gx) ∧
    (∀ x, 0 ≤ form N N P x x) ∧
    (∀ a : K, ∀ p < N, ∑ q ∈ Finset.range N, P p q * a = 0) ∧
    (c ≠ 0 → ∀ x Gx, FieldGradient 3 elements nodes x Gx → form N N P x x = 0 →
      ∀ t < elements.length, ∀ k < 3, Gx t k = 0) :=
  poisson_all rfl hv (Space.allLocal hn) c

end

/-- Two triangles making a quadrilateral. -/
def exampleMesh2 : List (List ℕ) := [[0, 1, 2], [3, 2, 1]]

/-- Its nodes. -/
def exampleNodes2 : ℕ → ℕ → ℚ := fun i k => ([[0, 0], [2, 1], [1, 3], [3, 3]].getD i []).getD k 0

/-- Two tetrahedra with a common face. -/
def exampleMesh3 : List (List ℕ) := [[0, 1, 2, 3], [4, 1, 3, 2]]

/-- Its nodes. -/
def exampleNodes3 : ℕ → ℕ → ℚ := fun i k =>
  ([[0, 0, 0], [2, 0, 0], [0, 3, 0], [0, 0, 1], [2, 2, 2]].getD i []).getD k 0

theorem exampleMesh2_valid : ValidElements 2 4 exampleMesh2 := by unfold ValidElements; decide
theorem exampleMesh2_nondegenerate : Nondegenerate2 exampleMesh2 exampleNodes2 := by
  unfold Nondegenerate2; decide +kernel
theorem exampleMesh3_valid : ValidElements 3 5 exampleMesh3 := by unfold ValidElements; decide
theorem exampleMesh3_nondegenerate : Nondegenerate3 exampleMesh3 exampleNodes3 := by
  unfold Nondegenerate3; decide +kernel

example : ∀ p < 4, ∃ e ∈ exampleMesh2, p ∈ e := by decide
example : ∀ p < 5, ∃ e ∈ exampleMesh3, p ∈ e := by decide
example : (basicMatrices2 exampleMesh2 exampleNodes2).elementVolume = [5 / 2, 2] := by decide +kernel
example : (basicMatrices3 exampleMesh3 exampleNodes3).elementVolume = [1, 8 / 3] := by decide +kernel
/-- The gradients of a field that is not affine on the whole mesh. -/
example : FieldGradient 2 exampleMesh2 exampleNodes2 (fun p => [1, 8, 12, 2].getD p 0)
    fun t k => ([[2, 3], [-5, -1 / 2]].getD t []).getD k 0 := by
  intro t ht
  have ht : t < 2 := ht
  refine ⟨[1, 37 / 2].getD t 0, ?_⟩
  simp only [Finset.sum_range_succ, Finset.sum_range_zero]
  revert t
  decide +kernel

end Conmech
