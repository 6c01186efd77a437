import Verif.Props.MassStiffness
import Verif.Spec.Statement
/-!
C26, C27: elasticity matrices.
-/
namespace Conmech
open Spec

section
variable {K : Type _} [Field K]

/-- The energy density `2 μ ε(v) : ε(u) + λ div v div u` of isotropic Hooke elasticity for the
displacement gradients `V a k`, `U a k` (derivative of coordinate `a` along axis `k`). -/
def Spec.hooke (d : ℕ) (mu lam : K) (V U : ℕ → ℕ → K) : K :=
  2 * mu * (∑ a ∈ Finset.range d, ∑ b ∈ Finset.range d,
    (V a b + V b a) / 2 * ((U a b + U b a) / 2)) +
  lam * ((∑ a ∈ Finset.range d, V a a) * ∑ a ∈ Finset.range d, U a a)

/-- `G t a k` is the derivative of coordinate `a` of the vector field `u` along axis `k` on element
number `t`. -/
def Spec.VectorGradient (d N : ℕ) (elements : List (List ℕ)) (nodes : ℕ → ℕ → K) (u : ℕ → K)
    (G : ℕ → ℕ → ℕ → K) : Prop :=
  ∀ a < d, FieldGradient d elements nodes (component N u a) fun t => G t a

/-- A translation with an infinitesimal rotation: `u(x) = c + S x` with skew `S`. -/
def Spec.RigidMotion (d N : ℕ) (nodes : ℕ → ℕ → K) (u : ℕ → K) : Prop :=
  ∃ (c : ℕ → K) (S : ℕ → ℕ → K), (∀ a < d, ∀ k < d, S a k = - S k a) ∧
    ∀ a < d, ∀ p < N, u (a * N + p) = c a + ∑ k ∈ Finset.range d, S a k * nodes p k

theorem hooke_comm (d : ℕ) (mu lam : K) (V U : ℕ → ℕ → K) : hooke d mu lam V U = hooke d mu lam U V := by
  unfold hooke
  rw [mul_comm (∑ a ∈ Finset.range d, V a a)]
  congr 2
  exact Finset.sum_congr rfl fun a _ => Finset.sum_congr rfl fun b _ => mul_comm _ _

theorem rigid_gradient {d N : ℕ} {elements : List (List ℕ)} {nodes : ℕ → ℕ → K} {u : ℕ → K}
    (hv : ValidElements d N elements) {c : ℕ → K} {S : ℕ → ℕ → K}
    (hu : ∀ a < d, ∀ p < N, u (a * N + p) = c a + ∑ k ∈ Finset.range d, S a k * nodes p k) :
    VectorGradient d N elements nodes u fun _ => S := by
  intro a ha t ht
  refine ⟨c a, fun i hi => ?_⟩
  simp only [valuesOn, component]
  rw [hu a ha _ (getD_lt hv (getD_mem ht) hi)]
  rfl

theorem form_act {n : ℕ} (A : ℕ → ℕ → K) (u : ℕ → K) {r : ℕ} (hr : r < n) :
    form n n A (single r) u = act n A u r := form_single A hr u

end

section
variable {K : Type _} [Field K] [LinearOrder K] [IsStrictOrderedRing K]
variable {N : ℕ} {elements : List (List ℕ)} {nodes : ℕ → ℕ → K}

theorem exists_vectorGradient {d : ℕ} {feat : (ℕ → ℕ → K) → ℕ → ℕ → List K} {size : (ℕ → ℕ → K) → K}
    {g : (ℕ → ℕ → K) → ℕ → ℕ → K} (h : AllLocal d feat elements nodes size g) (u : ℕ → K) :
    ∃ G, VectorGradient d N elements nodes u G := by
  choose G hG using fun a => exists_fieldGradient h (component N u a)
  exact ⟨fun t a => G a t, fun a _ => hG a⟩

/-- The energy of two fields. -/
def Spec.elasticEnergy (d : ℕ) (size : (ℕ → ℕ → K) → K) (elements : List (List ℕ)) (nodes : ℕ → ℕ → K)
    (mu lam : K) (V U : ℕ → ℕ → ℕ → K) : K :=
  sumElements elements fun t e => size (vertices nodes e) * hooke d mu lam (V t) (U t)

/-- C26: the form of the elasticity matrix is the sum over the triangles of the area times the Hooke
density. -/
theorem C26_hooke (hv : ValidElements 2 N elements) (hn : Nondegenerate2 elements nodes) (mu lam : K)
    (v u : ℕ → K) (V U : ℕ → ℕ → ℕ → K) (hV : VectorGradient 2 N elements nodes v V)
    (hU : VectorGradient 2 N elements nodes u U) :
    form (2 * N) (2 * N) (Plane.constitutive N (basicMatrices2 elements nodes).W mu lam) v u =
      elasticEnergy 2 area elements nodes mu lam V U := by
  have hf := fun k l a b hk hl ha hb => form_stiff (k := k) (l := l) hv (Plane.allLocal hn) hk hl (hV a ha) (hU b hb)
  have hf : ∀ k l a b, k < 2 → l < 2 → a < 2 → b < 2 →
      form N N ((basicMatrices2 elements nodes).W k l) (component N v a) (component N u b) =
      sumElements elements fun t e => area (vertices nodes e) * (V t a k * U t b l) := hf
  unfold Plane.constitutive
  generalize (basicMatrices2 elements nodes).W = W at *
  rw [form_block]
  simp only [Finset.sum_range_succ, Finset.sum_range_zero, zero_add, form_add, form_mul]
  simp only [hf, Nat.zero_lt_two, Nat.one_lt_two, ← sumElements_mul, ← sumElements_add]
  unfold elasticEnergy
  refine sumElements_congr fun t _ => ?_
  simp only [hooke, Finset.sum_range_succ, Finset.sum_range_zero, zero_add]
  field_simp
  ring

/-- C26: the elasticity matrix is symmetric. -/
theorem C26_symmetric (hv : ValidElements 2 N elements) (hn : Nondegenerate2 elements nodes)
    (mu lam : K) :
    let A := Plane.constitutive N (basicMatrices2 elements nodes).W mu lam
    ∀ r < 2 * N, ∀ s < 2 * N, A r s = A s r := by
  refine symm_of_form fun x y => ?_
  obtain ⟨X, hX⟩ := exists_vectorGradient (N := N) (Plane.allLocal hn) x
  obtain ⟨Y, hY⟩ := exists_vectorGradient (N := N) (Plane.allLocal hn) y
  rw [C26_hooke hv hn mu lam x y X Y hX hY, C26_hooke hv hn mu lam y x Y X hY hX]
  exact sumElements_congr fun t _ => by rw [hooke_comm]

theorem hooke_nonneg (d : ℕ) {mu lam : K} (hmu : 0 ≤ mu) (hlam : 0 ≤ lam) (U : ℕ → ℕ → K) :
    0 ≤ hooke d mu lam U U :=
  add_nonneg (mul_nonneg (by linarith) (Finset.sum_nonneg fun a _ => Finset.sum_nonneg fun b _ =>
    mul_self_nonneg _)) (mul_nonneg hlam (mul_self_nonneg _))

omit [LinearOrder K] [IsStrictOrderedRing K] in
theorem hooke_skew (d : ℕ) (mu lam : K) (V S : ℕ → ℕ → K) (hS : ∀ a < d, ∀ k < d, S a k = - S k a)
    (h2 : (2 : K) ≠ 0) : hooke d mu lam V S = 0 := by
  unfold hooke
  have h1 : ∀ a < d, S a a = 0 := by
    intro a ha
    have := hS a ha a ha
    have h : 2 * S a a = 0 := by linear_combination this
    exact (mul_eq_zero.1 h).resolve_left h2
  rw [Finset.sum_eq_zero fun a ha => Finset.sum_eq_zero fun b hb => by
      rw [hS a (Finset.mem_range.1 ha) b (Finset.mem_range.1 hb)]; simp,
    Finset.sum_eq_zero (f := fun a => S a a) fun a ha => h1 a (Finset.mem_range.1 ha)]
  simp

/-- C26: the energy is nonnegative for nonnegative coefficients. -/
theorem C26_nonneg (hv : ValidElements 2 N elements) (hn : Nondegenerate2 elements nodes)
    (mu lam : K) (hmu : 0 ≤ mu) (hlam : 0 ≤ lam) (u : ℕ → K) :
    0 ≤ form (2 * N) (2 * N) (Plane.constitutive N (basicMatrices2 elements nodes).W mu lam) u u := by
  obtain ⟨U, hU⟩ := exists_vectorGradient (N := N) (Plane.allLocal hn) u
  rw [C26_hooke hv hn mu lam u u U U hU hU]
  exact sumElements_nonneg _ _ fun t ht =>
    mul_nonneg (Plane.allLocal hn _ (getD_mem ht)).pos.le (hooke_nonneg 2 hmu hlam _)

/-- C26: for `μ > 0` only fields without strain have no energy. -/
theorem C26_definite (hv : ValidElements 2 N elements) (hn : Nondegenerate2 elements nodes)
    (mu lam : K) (hmu : 0 < mu) (hlam : 0 ≤ lam) (u : ℕ → K) (U : ℕ → ℕ → ℕ → K)
    (hU : VectorGradient 2 N elements nodes u U)
    (h0 : form (2 * N) (2 * N) (Plane.constitutive N (basicMatrices2 elements nodes).W mu lam) u u = 0) :
    ∀ t < elements.length, ∀ a < 2, ∀ b < 2, U t a b + U t b a = 0 := by
  rw [C26_hooke hv hn mu lam u u U U hU hU] at h0
  intro t ht a ha b hb
  have hpos := (Plane.allLocal hn _ (getD_mem ht)).pos
  have hz : area (vertices nodes (elements.getD t [])) * hooke 2 mu lam (U t) (U t) = 0 :=
    sumElements_eq_zero elements (fun t e => area (vertices nodes e) * hooke 2 mu lam (U t) (U t))
      (fun t ht => mul_nonneg (Plane.allLocal hn _ (getD_mem ht)).pos.le (hooke_nonneg 2 hmu.le hlam _))
      h0 t ht
  have hz := (mul_eq_zero.1 hz).resolve_left hpos.ne'
  unfold hooke at hz
  have h1 : (0 : K) ≤ ∑ a ∈ Finset.range 2, ∑ b ∈ Finset.range 2,
      (U t a b + U t b a) / 2 * ((U t a b + U t b a) / 2) :=
    Finset.sum_nonneg fun a _ => Finset.sum_nonneg fun b _ => mul_self_nonneg _
  have h2 := mul_nonneg hlam (mul_self_nonneg (∑ a ∈ Finset.range 2, U t a a))
  have h3 := mul_nonneg (by linarith : 0 ≤ 2 * mu) h1
  have h4 : 2 * mu * ∑ a ∈ Finset.range 2, ∑ b ∈ Finset.range 2,
      (U t a b + U t b a) / 2 * ((U t a b + U t b a) / 2) = 0 := by linarith
  have h5 := (mul_eq_zero.1 h4).resolve_left (by linarith)
  rw [Finset.sum_eq_zero_iff_of_nonneg fun a _ => Finset.sum_nonneg fun b _ => mul_self_nonneg _] at h5
  have h6 := h5 a (Finset.mem_range.2 ha)
  rw [Finset.sum_eq_zero_iff_of_nonneg fun b _ => mul_self_nonneg _] at h6
  have h7 := mul_self_eq_zero.1 (h6 b (Finset.mem_range.2 hb))
  linarith

/-- C26: translations and infinitesimal rotations produce no force. -/
theorem C26_rigid (hv : ValidElements 2 N elements) (hn : Nondegenerate2 elements nodes)
    (mu lam : K) (u : ℕ → K) (hu : RigidMotion 2 N nodes u) (r : ℕ) (hr : r < 2 * N) :
    act (2 * N) (Plane.constitutive N (basicMatrices2 elements nodes).W mu lam) u r = 0 := by
  obtain ⟨c, S, hS, hc⟩ := hu
  obtain ⟨V, hV⟩ := exists_vectorGradient (N := N) (Plane.allLocal hn) (single r)
  rw [← form_act _ _ hr, C26_hooke hv hn mu lam _ u V _ hV (rigid_gradient hv hc)]
  exact sumElements_zero fun t _ => by rw [hooke_skew 2 mu lam _ S hS two_ne_zero, mul_zero]

/-- What the code computes as the 3D energy density: outside the diagonal blocks the coefficients are
swapped, and in the diagonal ones `λ` multiplies some of the shears. -/
def hookeAsCoded (mu lam : K) (V U : ℕ → ℕ → K) : K :=
  (2 * mu + lam) * (V 0 0 * U 0 0 + V 1 1 * U 1 1 + V 2 2 * U 2 2) +
  mu * (V 0 1 * U 0 1 + V 1 0 * U 1 0 + V 2 0 * U 2 0) +
  lam * (V 0 2 * U 0 2 + V 1 2 * U 1 2 + V 2 1 * U 2 1) +
  mu * (V 1 1 * U 0 0 + V 2 2 * U 0 0 + V 2 2 * U 1 1 + V 0 0 * U 1 1 + V 0 0 * U 2 2 + V 1 1 * U 2 2) +
  lam * (V 1 0 * U 0 1 + V 2 0 * U 0 2 + V 2 1 * U 1 2 + V 0 1 * U 1 0 + V 0 2 * U 2 0 + V 1 2 * U 2 1)

theorem form_constitutive3 (hv : ValidElements 3 N elements) (hn : Nondegenerate3 elements nodes)
    (mu lam : K) (v u : ℕ → K) (V U : ℕ → ℕ → ℕ → K) (hV : VectorGradient 3 N elements nodes v V)
    (hU : VectorGradient 3 N elements nodes u U) :
    form (3 * N) (3 * N) (Space.constitutive N (basicMatrices3 elements nodes).W mu lam) v u =
      sumElements elements fun t e => Spec.volume (vertices nodes e) * hookeAsCoded mu lam (V t) (U t) := by
  have hf := fun k l a b hk hl ha hb => form_stiff (k := k) (l := l) hv (Space.allLocal hn) hk hl (hV a ha) (hU b hb)
  have hf : ∀ k l a b, k < 3 → l < 3 → a < 3 → b < 3 →
      form N N ((basicMatrices3 elements nodes).W k l) (component N v a) (component N u b) =
      sumElements elements fun t e => Spec.volume (vertices nodes e) * (V t a k * U t b l) := hf
  unfold Space.constitutive
  generalize (basicMatrices3 elements nodes).W = W at *
  rw [form_block]
  simp only [Finset.sum_range_succ, Finset.sum_range_zero, zero_add, form_add, form_mul]
  simp only [hf, show 0 < 3 by decide, show 1 < 3 by decide, show 2 < 3 by decide,
    ← sumElements_mul, ← sumElements_add]
  refine sumElements_congr fun t _ => ?_
  simp only [hookeAsCoded]
  ring

/-- C27, part: the 3D elasticity matrix is symmetric, and translations produce no force. -/
theorem C27_symmetric_translation_partial (hv : ValidElements 3 N elements)
    (hn : Nondegenerate3 elements nodes) (mu lam : K) :
    let A := Space.constitutive N (basicMatrices3 elements nodes).W mu lam
    (∀ r < 3 * N, ∀ s < 3 * N, A r s = A s r) ∧
    ∀ (u c : ℕ → K), (∀ a < 3, ∀ p < N, u (a * N + p) = c a) → ∀ r < 3 * N, act (3 * N) A u r = 0 := by
  intro A
  constructor
  · refine symm_of_form fun x y => ?_
    obtain ⟨X, hX⟩ := exists_vectorGradient (N := N) (Space.allLocal hn) x
    obtain ⟨Y, hY⟩ := exists_vectorGradient (N := N) (Space.allLocal hn) y
    rw [form_constitutive3 hv hn mu lam x y X Y hX hY, form_constitutive3 hv hn mu lam y x Y X hY hX]
    exact sumElements_congr fun t _ => by simp only [hookeAsCoded]; ring
  · intro u c hu r hr
    obtain ⟨V, hV⟩ := exists_vectorGradient (N := N) (Space.allLocal hn) (single r)
    rw [← form_act _ _ hr, form_constitutive3 hv hn mu lam _ u V (fun _ _ _ => 0) hV
      (rigid_gradient (c := c) hv fun a ha p hp => by simp [hu a ha p hp])]
    exact sumElements_zero fun t _ => by simp [hookeAsCoded]

/-- C27, part: for `μ = λ` the form is the Hooke energy and rigid motions produce no force. -/
theorem C27_equal_coefficients_partial (hv : ValidElements 3 N elements)
    (hn : Nondegenerate3 elements nodes) (mu : K) :
    let A := Space.constitutive N (basicMatrices3 elements nodes).W mu mu
    (∀ v u V U, VectorGradient 3 N elements nodes v V → VectorGradient 3 N elements nodes u U →
      form (3 * N) (3 * N) A v u = elasticEnergy 3 Spec.volume elements nodes mu mu V U) ∧
    ∀ u, RigidMotion 3 N nodes u → ∀ r < 3 * N, act (3 * N) A u r = 0 := by
  intro A
  have key : ∀ v u V U, VectorGradient 3 N elements nodes v V → VectorGradient 3 N elements nodes u U →
      form (3 * N) (3 * N) A v u = elasticEnergy 3 Spec.volume elements nodes mu mu V U := by
    intro v u V U hV hU
    rw [form_constitutive3 hv hn mu mu v u V U hV hU]
    refine sumElements_congr fun t _ => ?_
    simp only [hooke, hookeAsCoded, Finset.sum_range_succ, Finset.sum_range_zero, zero_add]
    field_simp
    ring
  refine ⟨key, ?_⟩
  rintro u ⟨c, S, hS, hc⟩ r hr
  obtain ⟨V, hV⟩ := exists_vectorGradient (N := N) (Space.allLocal hn) (single r)
  rw [← form_act _ _ hr, key _ _ V _ hV (rigid_gradient hv hc)]
  exact sumElements_zero fun t _ => by rw [hooke_skew 3 mu mu _ S hS two_ne_zero, mul_zero]

/-- C27 fails: on every non-empty mesh, whenever `μ ≠ λ`, an infinitesimal rotation has the energy
`2 (μ - λ)` times the volume of the body instead of zero. -/
theorem C27_rotation_wrong (hv : ValidElements 3 N elements) (hn : Nondegenerate3 elements nodes)
    (hne : elements ≠ []) (mu lam : K) (hml : mu ≠ lam) :
    ∃ u, RigidMotion 3 N nodes u ∧
      form (3 * N) (3 * N) (Space.constitutive N (basicMatrices3 elements nodes).W mu lam) u u =
        2 * (mu - lam) * sumElements elements (fun _ e => Spec.volume (vertices nodes e)) ∧
      ∃ r < 3 * N, act (3 * N) (Space.constitutive N (basicMatrices3 elements nodes).W mu lam) u r ≠ 0 := by
  classical
  let S : ℕ → ℕ → K := fun a k => if a = 0 ∧ k = 1 then -1 else if a = 1 ∧ k = 0 then 1 else 0
  let u : ℕ → K := fun r => 0 + ∑ k ∈ Finset.range 3, S (r / N) k * nodes (r % N) k
  have hc : ∀ a < 3, ∀ p < N, u (a * N + p) = (fun _ => (0 : K)) a +
      ∑ k ∈ Finset.range 3, S a k * nodes p k := by
    intro a ha p hp
    simp only [u, block_div _ hp, block_mod _ hp]
  have hS : ∀ a < 3, ∀ k < 3, S a k = - S k a := by
    intro a ha k hk
    interval_cases a <;> interval_cases k <;> simp [S]
  have he : form (3 * N) (3 * N) (Space.constitutive N (basicMatrices3 elements nodes).W mu lam) u u =
      2 * (mu - lam) * sumElements elements (fun _ e => Spec.volume (vertices nodes e)) := by
    rw [form_constitutive3 hv hn mu lam u u _ _ (rigid_gradient hv hc) (rigid_gradient hv hc),
      ← sumElements_mul]
    refine sumElements_congr fun t _ => ?_
    simp only [hookeAsCoded, S]
    norm_num
    ring
  refine ⟨u, ⟨_, S, hS, hc⟩, he, ?_⟩
  by_contra hcon
  push Not at hcon
  have h0 : form (3 * N) (3 * N) (Space.constitutive N (basicMatrices3 elements nodes).W mu lam) u u = 0 := by
    unfold form
    refine Finset.sum_eq_zero fun r hr => ?_
    have := hcon r (Finset.mem_range.1 hr)
    unfold act at this
    rw [Finset.sum_congr rfl fun s _ => mul_assoc _ _ _, ← Finset.mul_sum, this, mul_zero]
  rw [he] at h0
  have hpos : 0 < sumElements elements (fun _ e => Spec.volume (vertices nodes e)) := by
    refine Finset.sum_pos (fun t ht => (Space.allLocal hn _ (getD_mem (Finset.mem_range.1 ht))).pos) ?_
    exact ⟨0, Finset.mem_range.2 (List.length_pos_of_ne_nil hne)⟩
  rcases mul_eq_zero.1 h0 with h | h
  · exact hml (by linarith [(mul_eq_zero.1 h).resolve_left two_ne_zero])
  · exact hpos.ne' h

end

/-- A rotation about the origin with a translation. -/
example : RigidMotion 2 4 exampleNodes2 fun r => [5, 2, -4, -4, 7, 13, 10, 16].getD r 0 :=
  ⟨fun a => [5, 7].getD a 0, fun a k => ([[0, -3], [3, 0]].getD a []).getD k 0, by decide +kernel, by
    simp only [Finset.sum_range_succ, Finset.sum_range_zero]; decide +kernel⟩

example : exampleMesh3 ≠ [] := by decide
/-- A rotation in space. -/
example : RigidMotion 3 2 exampleNodes3 fun r => [0, 0, 0, -2, 0, 4].getD r 0 :=
  ⟨fun _ => 0, fun a k => ([[0, 1, -2], [-1, 0, 5], [2, -5, 0]].getD a []).getD k 0, by decide +kernel, by
    simp only [Finset.sum_range_succ, Finset.sum_range_zero]; decide +kernel⟩
/-- Vector fields have gradients. -/
example (u : ℕ → ℚ) : ∃ U, VectorGradient 2 4 exampleMesh2 exampleNodes2 u U :=
  exists_vectorGradient (Plane.allLocal exampleMesh2_nondegenerate) u

end Conmech
