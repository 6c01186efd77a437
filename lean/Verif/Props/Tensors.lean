import Verif.Props.Thermal
/-!
C62, C63: the relaxation, piezoelectric and permittivity operators.
-/
namespace Conmech
open Spec

variable {K : Type _} [Field K] [LinearOrder K] [IsStrictOrderedRing K]
variable {N : ℕ} {elements : List (List ℕ)} {nodes : ℕ → ℕ → K}

/-- The relaxation tensor with the components of an isotropic Hooke tensor. -/
def isotropicTensor (mu lam : K) : ℕ → ℕ → ℕ → K := fun a k l =>
  if a = 0 ∧ k = 0 ∧ l = 0 then 2 * mu + lam
  else if a = 1 ∧ k = 1 ∧ l = 1 then 2 * mu + lam
  else if a = 0 ∧ k = 0 ∧ l = 1 then lam
  else if a = 1 ∧ k = 1 ∧ l = 0 then lam
  else mu

/-- The density of the relaxation form. -/
def Spec.relaxationDensity (c : ℕ → ℕ → ℕ → K) (V U : ℕ → ℕ → K) : K :=
  c 0 0 0 * (V 0 0 * U 0 0) + c 0 1 1 * (V 0 1 * U 0 1) + c 0 1 0 * (V 0 1 * U 1 0) +
  c 0 0 1 * (V 0 0 * U 1 1) + c 1 1 0 * (V 1 1 * U 0 0) + c 1 0 1 * (V 1 0 * U 0 1) +
  c 1 0 0 * (V 1 0 * U 1 0) + c 1 1 1 * (V 1 1 * U 1 1)

theorem form_relaxation (hv : ValidElements 2 N elements) (hn : Nondegenerate2 elements nodes)
    (c : ℕ → ℕ → ℕ → K) (v u : ℕ → K) (V U : ℕ → ℕ → ℕ → K)
    (hV : VectorGradient 2 N elements nodes v V) (hU : VectorGradient 2 N elements nodes u U) :
    form (2 * N) (2 * N) (Plane.relaxationTensor N (basicMatrices2 elements nodes).W c) v u =
      sumElements elements fun t e => area (vertices nodes e) * relaxationDensity c (V t) (U t) := by
  have hf : ∀ k l a b, k < 2 → l < 2 → a < 2 → b < 2 →
      form N N ((basicMatrices2 elements nodes).W k l) (component N v a) (component N u b) =
      sumElements elements fun t e => area (vertices nodes e) * (V t a k * U t b l) :=
    fun k l a b hk hl ha hb => form_stiff (k := k) (l := l) hv (Plane.allLocal hn) hk hl (hV a ha) (hU b hb)
  unfold Plane.relaxationTensor
  generalize (basicMatrices2 elements nodes).W = W at *
  rw [form_block]
  simp only [Finset.sum_range_succ, Finset.sum_range_zero, zero_add, form_add, form_mul]
  simp only [hf, Nat.zero_lt_two, Nat.one_lt_two, ← sumElements_mul, ← sumElements_add]
  refine sumElements_congr fun t _ => ?_
  simp only [relaxationDensity]
  ring

omit [LinearOrder K] [IsStrictOrderedRing K] in
/-- C62: with an isotropic tensor the relaxation operator is the elasticity operator. -/
theorem C62_isotropic (N : ℕ) (W : ℕ → ℕ → ℕ → ℕ → K) (mu lam : K) :
    Plane.relaxationTensor N W (isotropicTensor mu lam) = Plane.constitutive N W mu lam := by
  unfold Plane.relaxationTensor Plane.constitutive isotropicTensor
  congr 1

/-- C62: the relaxation operator is symmetric when the tensor has the major symmetry; translations
produce no force, nor do infinitesimal rotations when the tensor has the minor symmetry. -/
theorem C62_relaxation (hv : ValidElements 2 N elements) (hn : Nondegenerate2 elements nodes)
    (c : ℕ → ℕ → ℕ → K) :
    let R := Plane.relaxationTensor N (basicMatrices2 elements nodes).W c
    (c 0 1 0 = c 1 0 1 → c 0 0 1 = c 1 1 0 → ∀ r < 2 * N, ∀ s < 2 * N, R r s = R s r) ∧
    (∀ u b : ℕ → K, (∀ a < 2, ∀ p < N, u (a * N + p) = b a) → ∀ r < 2 * N, act (2 * N) R u r = 0) ∧
    (c 0 1 1 = c 0 1 0 → c 1 0 0 = c 1 0 1 → ∀ u, RigidMotion 2 N nodes u →
      ∀ r < 2 * N, act (2 * N) R u r = 0) := by
  intro R
  refine ⟨?_, ?_, ?_⟩
  · intro h1 h2
    refine symm_of_form fun x y => ?_
    obtain ⟨X, hX⟩ := exists_vectorGradient (N := N) (Plane.allLocal hn) x
    obtain ⟨Y, hY⟩ := exists_vectorGradient (N := N) (Plane.allLocal hn) y
    rw [form_relaxation hv hn c x y X Y hX hY, form_relaxation hv hn c y x Y X hY hX]
    exact sumElements_congr fun t _ => by simp only [relaxationDensity, h1, h2]; ring
  · intro u b hu r hr
    obtain ⟨V, hV⟩ := exists_vectorGradient (N := N) (Plane.allLocal hn) (single r)
    rw [← form_act _ _ hr, form_relaxation hv hn c _ u V (fun _ _ _ => 0) hV
      (rigid_gradient (c := b) hv fun a ha p hp => by simp [hu a ha p hp])]
    exact sumElements_zero fun t _ => by simp [relaxationDensity]
  · rintro h1 h2 u ⟨b, S, hS, hb⟩ r hr
    obtain ⟨V, hV⟩ := exists_vectorGradient (N := N) (Plane.allLocal hn) (single r)
    rw [← form_act _ _ hr, form_relaxation hv hn c _ u V _ hV (rigid_gradient hv hb)]
    refine sumElements_zero fun t _ => ?_
    have s00 : S 0 0 = 0 := by have := hS 0 (by omega) 0 (by omega); linarith
    have s11 : S 1 1 = 0 := by have := hS 1 (by omega) 1 (by omega); linarith
    have s10 : S 1 0 = - S 0 1 := hS 1 (by omega) 0 (by omega)
    simp only [relaxationDensity, s00, s11, s10, h1, h2]
    ring

/-- The coupling `Σ c[a][k][l] ∂_k ψ ∂_l u_a`. -/
def Spec.piezoPower (elements : List (List ℕ)) (nodes : ℕ → ℕ → K) (c : ℕ → ℕ → ℕ → K)
    (psi : ℕ → ℕ → K) (U : ℕ → ℕ → ℕ → K) : K :=
  sumElements elements fun t e => area (vertices nodes e) *
    ∑ a ∈ Finset.range 2, ∑ k ∈ Finset.range 2, ∑ l ∈ Finset.range 2, c a k l * (psi t k * U t a l)

/-- C63: the form of the piezoelectric operator. -/
theorem C63_form (hv : ValidElements 2 N elements) (hn : Nondegenerate2 elements nodes)
    (c : ℕ → ℕ → ℕ → K) (psi u : ℕ → K) (G : ℕ → ℕ → K) (U : ℕ → ℕ → ℕ → K)
    (hG : FieldGradient 2 elements nodes psi G) (hU : VectorGradient 2 N elements nodes u U) :
    form N (2 * N) (Plane.piezoelectricTensor N (basicMatrices2 elements nodes).W c) psi u =
      piezoPower elements nodes c G U := by
  have hf : ∀ k l b, k < 2 → l < 2 → b < 2 →
      form N N ((basicMatrices2 elements nodes).W k l) psi (component N u b) =
      sumElements elements fun t e => area (vertices nodes e) * (G t k * U t b l) :=
    fun k l b hk hl hb => form_stiff (k := k) (l := l) hv (Plane.allLocal hn) hk hl hG (hU b hb)
  unfold Plane.piezoelectricTensor
  generalize (basicMatrices2 elements nodes).W = W at *
  rw [form_rect_block]
  simp only [Finset.sum_range_succ (n := 1), Finset.sum_range_one, form_add, form_mul]
  simp only [hf, Nat.zero_lt_two, Nat.one_lt_two, ← sumElements_mul, ← sumElements_add]
  refine sumElements_congr fun t _ => ?_
  simp only [Finset.sum_range_succ (n := 1), Finset.sum_range_one]
  ring

/-- C63: translations create no charge, nor do infinitesimal rotations if the last index and the
coordinate of the tensor may be exchanged; a uniform potential exerts no force, and no potential exerts
a net force. -/
theorem C63_rigid (hv : ValidElements 2 N elements) (hn : Nondegenerate2 elements nodes)
    (c : ℕ → ℕ → ℕ → K) :
    let P := Plane.piezoelectricTensor N (basicMatrices2 elements nodes).W c
    (∀ u b : ℕ → K, (∀ a < 2, ∀ p < N, u (a * N + p) = b a) → ∀ p < N, act (2 * N) P u p = 0) ∧
    ((∀ k < 2, c 0 k 1 = c 1 k 0) → ∀ u, RigidMotion 2 N nodes u → ∀ p < N, act (2 * N) P u p = 0) ∧
    (∀ b : K, ∀ r < 2 * N, act N (transposed P) (fun _ => b) r = 0) ∧
    (∀ psi, ∀ a < 2, ∑ p ∈ Finset.range N, act N (transposed P) psi (a * N + p) = 0) := by
  intro P
  have hconst : ∀ u b : ℕ → K, (∀ a < 2, ∀ p < N, u (a * N + p) = b a) →
      VectorGradient 2 N elements nodes u fun _ _ _ => 0 := fun u b h =>
    rigid_gradient (c := b) hv fun a ha p hp => by simp [h a ha p hp]
  refine ⟨?_, ?_, ?_, ?_⟩
  · intro u b h p hp
    obtain ⟨G, hG⟩ := exists_fieldGradient (Plane.allLocal hn) (single p)
    have := C63_form hv hn c (single p) u G _ hG (hconst u b h)
    rw [form_single _ hp] at this
    rw [act, this]
    exact sumElements_zero fun t _ => by simp
  · rintro hc u ⟨b, S, hS, hb⟩ p hp
    obtain ⟨G, hG⟩ := exists_fieldGradient (Plane.allLocal hn) (single p)
    have := C63_form hv hn c (single p) u G _ hG (rigid_gradient hv hb)
    rw [form_single _ hp] at this
    rw [act, this]
    refine sumElements_zero fun t _ => ?_
    have s00 : S 0 0 = 0 := by have := hS 0 (by omega) 0 (by omega); linarith
    have s11 : S 1 1 = 0 := by have := hS 1 (by omega) 1 (by omega); linarith
    have s10 : S 1 0 = - S 0 1 := hS 1 (by omega) 0 (by omega)
    simp only [Finset.sum_range_succ, Finset.sum_range_zero, s00, s11, s10, hc 0 (by omega), hc 1 (by omega)]
    ring
  · intro b r hr
    obtain ⟨U, hU⟩ := exists_vectorGradient (N := N) (Plane.allLocal hn) (single r)
    have := C63_form hv hn c (fun _ => b) (single r) _ U (fieldGradient_const _ _ _ b) hU
    rw [form_single_right _ hr] at this
    unfold act transposed
    rw [Finset.sum_congr rfl fun s _ => mul_comm _ _, this]
    exact sumElements_zero fun t _ => by simp
  · intro psi a ha
    obtain ⟨G, hG⟩ := exists_fieldGradient (Plane.allLocal hn) psi
    have key := C63_form hv hn c psi (fun r => if r / N = a then 1 else 0) G _ hG
      (hconst _ (fun b => if b = a then 1 else 0) fun b hb p hp => by simp only [block_div b hp])
    have h0 : piezoPower elements nodes c G (fun _ _ _ => 0) = 0 :=
      sumElements_zero fun t _ => by simp
    rw [h0] at key
    rw [← key]
    unfold form act transposed
    rw [Finset.sum_comm]
    refine Finset.sum_congr rfl fun q _ => ?_
    rw [sum_range_mul, Finset.sum_eq_single (s := Finset.range 2) a]
    · refine Finset.sum_congr rfl fun p hp => ?_
      simp only [block_div a (Finset.mem_range.1 hp), if_true, mul_one]
      exact mul_comm _ _
    · intro b _ hb
      refine Finset.sum_eq_zero fun p hp => ?_
      simp only [block_div b (Finset.mem_range.1 hp), if_neg hb, mul_zero]
    · intro h; exact absurd (Finset.mem_range.2 ha) h

/-- C63: the permittivity operator: its form, symmetry, sign and kernel. -/
theorem C63_permittivity (hv : ValidElements 2 N elements) (hn : Nondegenerate2 elements nodes)
    (c : ℕ → ℕ → K) :
    let M := Plane.conductivity (basicMatrices2 elements nodes).W c
    (∀ x y X Y, FieldGradient 2 elements nodes x X → FieldGradient 2 elements nodes y Y →
      form N N M x y = conduction 2 area elements nodes c X Y) ∧
    ((∀ k < 2, ∀ l < 2, c k l = c l k) → ∀ p < N, ∀ q < N, M p q = M q p) ∧
    ((∀ z : ℕ → K, 0 ≤ ∑ k ∈ Finset.range 2, ∑ l ∈ Finset.range 2, c k l * (z k * z l)) →
      ∀ x, 0 ≤ form N N M x x) ∧
    ∀ a : K, ∀ p < N, ∑ q ∈ Finset.range N, M p q * a = 0 :=
  C28_conduction2 hv hn c

/-- A relaxation tensor with both symmetries that is not isotropic. -/
example : let c : ℕ → ℕ → ℕ → ℚ := fun a k l => ([[[9, 2], [3, 3]], [[3, 3], [2, 7]]].getD a []).getD k [] |>.getD l 0
    c 0 1 0 = c 1 0 1 ∧ c 0 0 1 = c 1 1 0 ∧ c 0 1 1 = c 0 1 0 ∧ c 1 0 0 = c 1 0 1 := by decide +kernel

/-- A piezoelectric tensor with the symmetry of `C63_rigid`. -/
example : ∀ k < 2, (fun a k l => ([[[1, 2], [3, 4]], [[2, 5], [4, 6]]].getD a []).getD k [] |>.getD l 0 : ℕ → ℕ → ℕ → ℚ) 0 k 1 =
    (([[[1, 2], [3, 4]], [[2, 5], [4, 6]]].getD 1 []).getD k []).getD 0 0 := by decide +kernel

end Conmech
