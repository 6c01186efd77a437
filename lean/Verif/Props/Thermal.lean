import Verif.Props.Elasticity
import Verif.Model.Statement
/-!
C28: thermal expansion and conduction.
-/
namespace Conmech
open Spec

section
variable {K : Type _} [Field K]

omit [Field K] in
theorem form_rect_block [Field K] (d N : ℕ) (B : ℕ → ℕ → ℕ → ℕ → K) (x y : ℕ → K) :
    form N (d * N) (block N B) x y =
      ∑ b ∈ Finset.range d, form N N (B 0 b) x (component N y b) := by
  have := form_block 1 d N B x y
  rw [one_mul] at this
  rw [this, Finset.sum_range_one]
  unfold component
  simp

/-- C28: with any coupling matrix the power the temperature delivers to the displacement equation is
the power withdrawn from the heat equation: the two statements differ from the uncoupled ones by terms
whose powers cancel. -/
theorem C28_power (ops : Operators K) (u v theta : ℕ → K) (dt time : K) (extra : Variables K) :
    let var : Variables K := { extra with displacement := some u, velocity := some v, temperature := some theta, timeStep := some dt, time := some time }
    ∃ plain coupled heat, updateRhs ops var .dynamicVelocity = .ok plain ∧
      updateRhs ops var .dynamicVelocityWithTemperature = .ok coupled ∧
      updateRhs ops var .temperature = .ok heat ∧
      ∑ r ∈ Finset.range (ops.dimension * ops.nodesCount), v r * (coupled r - plain r) +
      ∑ p ∈ Finset.range ops.nodesCount,
        theta p * (heat p - 1 / dt * act ops.nodesCount ops.acceleration theta p) = 0 := by
  intro var
  refine ⟨_, _, _, rfl, rfl, rfl, ?_⟩
  simp only [matVec, transposed, act]
  have h1 : ∀ p, ∑ k ∈ Finset.range ops.nodesCount, 1 / dt * ops.acceleration p k * theta k =
      1 / dt * ∑ s ∈ Finset.range ops.nodesCount, ops.acceleration p s * theta s := by
    intro p
    rw [Finset.mul_sum]
    exact Finset.sum_congr rfl fun k _ => by ring
  simp only [h1, add_sub_cancel_left, add_sub_cancel_right, Finset.mul_sum]
  rw [Finset.sum_comm, ← Finset.sum_add_distrib]
  refine Finset.sum_eq_zero fun p _ => ?_
  rw [← Finset.sum_add_distrib]
  exact Finset.sum_eq_zero fun r _ => by ring

end

section
variable {K : Type _} [Field K] [LinearOrder K] [IsStrictOrderedRing K]
variable {N : ℕ} {elements : List (List ℕ)} {nodes : ℕ → ℕ → K}

/-- The heating `Σ c[a][k] ∂_k v_a` with the mean temperature of every element. -/
def Spec.expansionPower (d : ℕ) (size : (ℕ → ℕ → K) → K) (elements : List (List ℕ))
    (nodes : ℕ → ℕ → K) (c : ℕ → ℕ → K) (theta : ℕ → K) (V : ℕ → ℕ → ℕ → K) : K :=
  sumElements elements fun t e => size (vertices nodes e) *
    ((∑ i ∈ Finset.range (d + 1), valuesOn e theta i) / ((d : K) + 1) *
      ∑ a ∈ Finset.range d, ∑ k ∈ Finset.range d, c a k * V t a k)

/-- C28: the form of the thermal expansion matrix, for triangles. -/
theorem C28_expansion2 (hv : ValidElements 2 N elements) (hn : Nondegenerate2 elements nodes)
    (c : ℕ → ℕ → K) (theta v : ℕ → K) (V : ℕ → ℕ → ℕ → K) (hV : VectorGradient 2 N elements nodes v V) :
    form N (2 * N) (Plane.thermalExpansion N (basicMatrices2 elements nodes).V c) theta v =
      expansionPower 2 area elements nodes c theta V := by
  have hf : ∀ k a, k < 2 → a < 2 →
      form N N ((basicMatrices2 elements nodes).V k) theta (component N v a) =
      sumElements elements fun t e => area (vertices nodes e) *
        ((∑ i ∈ Finset.range 3, valuesOn e theta i) / (((2 : ℕ) : K) + 1) * V t a k) :=
    fun k a hk ha => form_grad (k := k) hv (Plane.allLocal hn) hk theta (hV a ha)
  unfold Plane.thermalExpansion
  generalize (basicMatrices2 elements nodes).V = W at *
  rw [form_rect_block]
  simp only [Finset.sum_range_succ (n := 1), Finset.sum_range_one, form_add, form_mul]
  simp only [hf, Nat.zero_lt_two, Nat.one_lt_two, ← sumElements_mul, ← sumElements_add]
  refine sumElements_congr fun t _ => ?_
  simp only [Finset.sum_range_succ (n := 1), Finset.sum_range_one]
  ring

/-- C28: the form of the thermal expansion matrix, for tetrahedra. -/
theorem C28_expansion3 (hv : ValidElements 3 N elements) (hn : Nondegenerate3 elements nodes)
    (c : ℕ → ℕ → K) (theta v : ℕ → K) (V : ℕ → ℕ → ℕ → K) (hV : VectorGradient 3 N elements nodes v V) :
    form N (3 * N) (Space.thermalExpansion N (basicMatrices3 elements nodes).V c) theta v =
      expansionPower 3 Spec.volume elements nodes c theta V := by
  have hf : ∀ k a, k < 3 → a < 3 →
      form N N ((basicMatrices3 elements nodes).V k) theta (component N v a) =
      sumElements elements fun t e => Spec.volume (vertices nodes e) *
        ((∑ i ∈ Finset.range 4, valuesOn e theta i) / (((3 : ℕ) : K) + 1) * V t a k) :=
    fun k a hk ha => form_grad (k := k) hv (Space.allLocal hn) hk theta (hV a ha)
  unfold Space.thermalExpansion
  generalize (basicMatrices3 elements nodes).V = W at *
  rw [form_rect_block]
  simp only [Finset.sum_range_succ (n := 2), Finset.sum_range_succ (n := 1), Finset.sum_range_one,
    form_add, form_mul]
  simp only [hf, show 0 < 3 by decide, show 1 < 3 by decide, show 2 < 3 by decide,
    ← sumElements_mul, ← sumElements_add]
  refine sumElements_congr fun t _ => ?_
  simp only [Finset.sum_range_succ (n := 2), Finset.sum_range_succ (n := 1), Finset.sum_range_one]
  ring

theorem expansion_all {d : ℕ} {size : (ℕ → ℕ → K) → K} {C : ℕ → ℕ → K} {c : ℕ → ℕ → K}
    (hv : ValidElements d N elements)
    (hC : ∀ theta v V, VectorGradient d N elements nodes v V →
      form N (d * N) C theta v = expansionPower d size elements nodes c theta V) :
    (∀ theta, ∀ a < d, ∑ p ∈ Finset.range N, matVec N (transposed C) theta (a * N + p) = 0) ∧
    (∀ v b : ℕ → K, (∀ a < d, ∀ p < N, v (a * N + p) = b a) → ∀ p < N, act (d * N) C v p = 0) ∧
    ((∀ a < d, ∀ k < d, c a k = c k a) → ∀ v, RigidMotion d N nodes v → ∀ p < N, act (d * N) C v p = 0) := by
  have hconst : ∀ v b : ℕ → K, (∀ a < d, ∀ p < N, v (a * N + p) = b a) →
      VectorGradient d N elements nodes v fun _ _ _ => 0 := fun v b h =>
    rigid_gradient (c := b) hv fun a ha p hp => by simp [h a ha p hp]
  refine ⟨?_, ?_, ?_⟩
  · intro theta a ha
    have key := hC theta (fun r => if r / N = a then 1 else 0) _
      (hconst _ (fun b => if b = a then 1 else 0) fun b hb p hp => by simp only [block_div b hp])
    have h0 : expansionPower d size elements nodes c theta (fun _ _ _ => 0) = 0 :=
      sumElements_zero fun t _ => by simp
    rw [h0] at key
    rw [← key]
    unfold form matVec transposed
    rw [Finset.sum_comm]
    refine Finset.sum_congr rfl fun q _ => ?_
    rw [sum_range_mul, Finset.sum_eq_single (s := Finset.range d) a]
    · refine Finset.sum_congr rfl fun p hp => ?_
      simp only [block_div a (Finset.mem_range.1 hp), if_true, mul_one]
      ring
    · intro b _ hb
      refine Finset.sum_eq_zero fun p hp => ?_
      simp only [block_div b (Finset.mem_range.1 hp), if_neg hb, mul_zero]
    · intro h; exact absurd (Finset.mem_range.2 ha) h
  · intro v b h p hp
    have := hC (single p) v _ (hconst v b h)
    rw [form_single C hp] at this
    rw [act, this]
    exact sumElements_zero fun t _ => by simp
  · rintro hc v ⟨b, S, hS, hb⟩ p hp
    have := hC (single p) v _ (rigid_gradient hv hb)
    rw [form_single C hp] at this
    rw [act, this]
    refine sumElements_zero fun t _ => ?_
    have hs : ∑ a ∈ Finset.range d, ∑ k ∈ Finset.range d, c a k * S a k = 0 := by
      have h1 : ∑ a ∈ Finset.range d, ∑ k ∈ Finset.range d, c a k * S a k =
          - ∑ a ∈ Finset.range d, ∑ k ∈ Finset.range d, c a k * S a k := by
        conv_lhs => rw [Finset.sum_comm]
        rw [← Finset.sum_neg_distrib]
        refine Finset.sum_congr rfl fun a ha => ?_
        rw [← Finset.sum_neg_distrib]
        refine Finset.sum_congr rfl fun k hk => ?_
        rw [hc k (Finset.mem_range.1 hk) a (Finset.mem_range.1 ha),
          hS k (Finset.mem_range.1 hk) a (Finset.mem_range.1 ha)]
        ring
      linarith
    rw [hs]; simp

/-- C28: on a triangular mesh no temperature, in particular no uniform one, exerts a net force;
translations produce no heat, nor do rotations if the expansion tensor is symmetric. -/
theorem C28_no_net_force2 (hv : ValidElements 2 N elements) (hn : Nondegenerate2 elements nodes)
    (c : ℕ → ℕ → K) :
    let C := Plane.thermalExpansion N (basicMatrices2 elements nodes).V c
    (∀ theta, ∀ a < 2, ∑ p ∈ Finset.range N, matVec N (transposed C) theta (a * N + p) = 0) ∧
    (∀ v b : ℕ → K, (∀ a < 2, ∀ p < N, v (a * N + p) = b a) → ∀ p < N, act (2 * N) C v p = 0) ∧
    ((∀ a < 2, ∀ k < 2, c a k = c k a) → ∀ v, RigidMotion 2 N nodes v → ∀ p < N, act (2 * N) C v p = 0) :=
  expansion_all hv fun theta v V hV => C28_expansion2 hv hn c theta v V hV

/-- C28: the same on a tetrahedral mesh. -/
theorem C28_no_net_force3 (hv : ValidElements 3 N elements) (hn : Nondegenerate3 elements nodes)
    (c : ℕ → ℕ → K) :
    let C := Space.thermalExpansion N (basicMatrices3 elements nodes).V c
    (∀ theta, ∀ a < 3, ∑ p ∈ Finset.range N, matVec N (transposed C) theta (a * N + p) = 0) ∧
    (∀ v b : ℕ → K, (∀ a < 3, ∀ p < N, v (a * N + p) = b a) → ∀ p < N, act (3 * N) C v p = 0) ∧
    ((∀ a < 3, ∀ k < 3, c a k = c k a) → ∀ v, RigidMotion 3 N nodes v → ∀ p < N, act (3 * N) C v p = 0) :=
  expansion_all hv fun theta v V hV => C28_expansion3 hv hn c theta v V hV

/-- The heat flow `Σ c[k][l] ∂_k x ∂_l y`. -/
def Spec.conduction (d : ℕ) (size : (ℕ → ℕ → K) → K) (elements : List (List ℕ))
    (nodes : ℕ → ℕ → K) (c : ℕ → ℕ → K) (X Y : ℕ → ℕ → K) : K :=
  sumElements elements fun t e => size (vertices nodes e) *
    ∑ k ∈ Finset.range d, ∑ l ∈ Finset.range d, c k l * (X t k * Y t l)

theorem conduction_all {d : ℕ} {feat : (ℕ → ℕ → K) → ℕ → ℕ → List K} {size : (ℕ → ℕ → K) → K}
    {g : (ℕ → ℕ → K) → ℕ → ℕ → K} (h : AllLocal d feat elements nodes size g) {M c : ℕ → ℕ → K}
    (hM : ∀ x y X Y, FieldGradient d elements nodes x X → FieldGradient d elements nodes y Y →
      form N N M x y = conduction d size elements nodes c X Y) :
    ((∀ k < d, ∀ l < d, c k l = c l k) → ∀ p < N, ∀ q < N, M p q = M q p) ∧
    ((∀ z : ℕ → K, 0 ≤ ∑ k ∈ Finset.range d, ∑ l ∈ Finset.range d, c k l * (z k * z l)) →
      ∀ x, 0 ≤ form N N M x x) ∧
    ∀ a : K, ∀ p < N, ∑ q ∈ Finset.range N, M p q * a = 0 := by
  refine ⟨?_, ?_, ?_⟩
  · intro hc
    refine symm_of_form fun x y => ?_
    obtain ⟨X, hX⟩ := exists_fieldGradient h x
    obtain ⟨Y, hY⟩ := exists_fieldGradient h y
    rw [hM x y X Y hX hY, hM y x Y X hY hX]
    refine sumElements_congr fun t _ => ?_
    rw [Finset.sum_comm]
    congr 1
    refine Finset.sum_congr rfl fun k hk => Finset.sum_congr rfl fun l hl => ?_
    rw [hc k (Finset.mem_range.1 hk) l (Finset.mem_range.1 hl)]
    ring
  · intro hc x
    obtain ⟨X, hX⟩ := exists_fieldGradient h x
    rw [hM x x X X hX hX]
    exact sumElements_nonneg _ _ fun t ht => mul_nonneg (h _ (getD_mem ht)).pos.le (hc _)
  · intro a p hp
    obtain ⟨X, hX⟩ := exists_fieldGradient h (single p)
    have := hM (single p) (fun _ => a) X _ hX (fieldGradient_const _ _ _ a)
    rw [form_single M hp] at this
    rw [this]
    exact sumElements_zero fun t _ => by simp

/-- The conductivity (and permittivity) form for triangles. -/
theorem form_conductivity2 (hv : ValidElements 2 N elements) (hn : Nondegenerate2 elements nodes)
    (c : ℕ → ℕ → K) (x y : ℕ → K) (X Y : ℕ → ℕ → K) (hX : FieldGradient 2 elements nodes x X)
    (hY : FieldGradient 2 elements nodes y Y) :
    form N N (Plane.conductivity (basicMatrices2 elements nodes).W c) x y =
      conduction 2 area elements nodes c X Y := by
  have hf : ∀ k l, k < 2 → l < 2 → form N N ((basicMatrices2 elements nodes).W k l) x y =
      sumElements elements fun t e => area (vertices nodes e) * (X t k * Y t l) :=
    fun k l hk hl => form_stiff hv (Plane.allLocal hn) hk hl hX hY
  unfold Plane.conductivity
  generalize (basicMatrices2 elements nodes).W = W at *
  simp only [form_add, form_mul]
  simp only [hf, Nat.zero_lt_two, Nat.one_lt_two, ← sumElements_mul, ← sumElements_add]
  refine sumElements_congr fun t _ => ?_
  simp only [Finset.sum_range_succ, Finset.sum_range_zero]
  ring

theorem form_conductivity3 (hv : ValidElements 3 N elements) (hn : Nondegenerate3 elements nodes)
    (c : ℕ → ℕ → K) (x y : ℕ → K) (X Y : ℕ → ℕ → K) (hX : FieldGradient 3 elements nodes x X)
    (hY : FieldGradient 3 elements nodes y Y) :
    form N N (Space.conductivity (basicMatrices3 elements nodes).W c) x y =
      conduction 3 Spec.volume elements nodes c X Y := by
  have hf : ∀ k l, k < 3 → l < 3 → form N N ((basicMatrices3 elements nodes).W k l) x y =
      sumElements elements fun t e => Spec.volume (vertices nodes e) * (X t k * Y t l) :=
    fun k l hk hl => form_stiff hv (Space.allLocal hn) hk hl hX hY
  unfold Space.conductivity
  generalize (basicMatrices3 elements nodes).W = W at *
  simp only [form_add, form_mul]
  simp only [hf, show 0 < 3 by decide, show 1 < 3 by decide, show 2 < 3 by decide,
    ← sumElements_mul, ← sumElements_add]
  refine sumElements_congr fun t _ => ?_
  simp only [Finset.sum_range_succ, Finset.sum_range_zero]
  ring

/-- C28: conduction on a triangular mesh: its form is the conducted heat; it is symmetric for a
symmetric conductivity tensor, nonnegative for a nonnegative one, and uniform temperatures conduct
nothing. -/
theorem C28_conduction2 (hv : ValidElements 2 N elements) (hn : Nondegenerate2 elements nodes)
    (c : ℕ → ℕ → K) :
    let M := Plane.conductivity (basicMatrices2 elements nodes).W c
    (∀ x y X Y, FieldGradient 2 elements nodes x X → FieldGradient 2 elements nodes y Y →
      form N N M x y = conduction 2 area elements nodes c X Y) ∧
    ((∀ k < 2, ∀ l < 2, c k l = c l k) → ∀ p < N, ∀ q < N, M p q = M q p) ∧
    ((∀ z : ℕ → K, 0 ≤ ∑ k ∈ Finset.range 2, ∑ l ∈ Finset.range 2, c k l * (z k * z l)) →
      ∀ x, 0 ≤ form N N M x x) ∧
    ∀ a : K, ∀ p < N, ∑ q ∈ Finset.range N, M p q * a = 0 :=
  ⟨fun x y X Y => form_conductivity2 hv hn c x y X Y,
    conduction_all (Plane.allLocal hn) fun x y X Y => form_conductivity2 hv hn c x y X Y⟩

/-- C28: the same on a tetrahedral mesh. -/
theorem C28_conduction3 (hv : ValidElements 3 N elements) (hn : Nondegenerate3 elements nodes)
    (c : ℕ → ℕ → K) :
    let M := Space.conductivity (basicMatrices3 elements nodes).W c
    (∀ x y X Y, FieldGradient 3 elements nodes x X → FieldGradient 3 elements nodes y Y →
      form N N M x y = conduction 3 Spec.volume elements nodes c X Y) ∧
    ((∀ k < 3, ∀ l < 3, c k l = c l k) → ∀ p < N, ∀ q < N, M p q = M q p) ∧
    ((∀ z : ℕ → K, 0 ≤ ∑ k ∈ Finset.range 3, ∑ l ∈ Finset.range 3, c k l * (z k * z l)) →
      ∀ x, 0 ≤ form N N M x x) ∧
    ∀ a : K, ∀ p < N, ∑ q ∈ Finset.range N, M p q * a = 0 :=
  ⟨fun x y X Y => form_conductivity3 hv hn c x y X Y,
    conduction_all (Space.allLocal hn) fun x y X Y => form_conductivity3 hv hn c x y X Y⟩

end

/-- A symmetric positive conductivity tensor that is not diagonal. -/
example : (∀ k < 2, ∀ l < 2, (fun k l => ([[2, 1], [1, 2]].getD k []).getD l 0 : ℕ → ℕ → ℚ) k l =
    ([[2, 1], [1, 2]].getD l []).getD k 0) ∧
    ∀ z : ℕ → ℚ, 0 ≤ ∑ k ∈ Finset.range 2, ∑ l ∈ Finset.range 2,
      ([[2, 1], [1, 2]].getD k []).getD l 0 * (z k * z l) := by
  refine ⟨by decide +kernel, fun z => ?_⟩
  simp [Finset.sum_range_succ]
  nlinarith [mul_self_nonneg (z 0 + z 1), mul_self_nonneg (z 0), mul_self_nonneg (z 1)]

end Conmech
