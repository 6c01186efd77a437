import Verif.Lemmas.Cost
import Verif.Lemmas.Quadratic
import Verif.Spec.Normals
import Verif.Props.ContactLaws
import Mathlib.Tactic.IntervalCases
/-!
C48: the cost functional of the optimising solvers. C58: constructing solvers without a contact law.
-/
namespace Conmech
open Spec

section
variable {K : Type _} [Field K]

/-- C48. For vector fields the contact part of the cost is a quadrature of the law's density over the
contact surfaces. The static displacement enters through its mean over the surface. -/
theorem C48_quadrature (sqrt : K → K) (c : Conditions K) (d : ContactData K) (var : Flat K)
    (v w : ℕ → ℕ → K) (N : ℕ) (hv : Represents d.variableDimension var d.old v N)
    (hw : Represents d.problemDimension d.staticDisplacement d.staticDisplacement w N)
    (hp : d.problemDimension ≠ 1) (hn : ∀ s ∈ d.surfaces, ∀ node ∈ s.edge, node < N) :
    contactCostFunctional sqrt c d var = (d.surfaces.map fun s =>
      quadrature s.edge (surfaceLength sqrt d.nodes s.edge)
        (density c d.variableDimension s.normal
          (normalComponent d.problemDimension (meanOver s.edge w) s.normal)
          (tangentialComponent d.problemDimension (meanOver s.edge w) s.normal) d.dt) v).sum := by
  rw [contactCostFunctional_eq]
  congr 1
  refine List.map_congr_left fun s hs => ?_
  unfold surfaceCost
  have hm : ∀ i < d.problemDimension, interpolateNodeBetween s.edge d.staticDisplacement
      d.staticDisplacement d.problemDimension i = meanOver s.edge w i := fun i hi => by
    rw [interpolate_eq]
    exact meanOver_congr _ fun node hnode => represents_value hw (hn s hs node hnode) hi
  have h1 : staticN d s = normalComponent d.problemDimension (meanOver s.edge w) s.normal := by
    rw [← normalComponent_congr hw.positive s.normal hm]
    unfold staticN staticNormalPart normalComponent
    rw [if_neg hp, if_neg hp]
  have h2 : staticT d s = tangentialComponent d.problemDimension (meanOver s.edge w) s.normal := by
    rw [← tangentialComponent_congr hw.positive s.normal hm]
    unfold staticT staticTangentialPart tangentialComponent staticNormalPart normalComponent
    simp only [if_neg hp]
  rw [h1, h2]
  exact quadrature_congr c hv.positive _ _ _ _ _ _ fun node hnode i hi =>
    represents_value hv (hn s hs node hnode) hi

/-- C48. A field that is constant on every contact surface is integrated exactly: the density times
the length of the surface, summed over the surfaces. -/
theorem C48_constant [CharZero K] (sqrt : K → K) (c : Conditions K) (d : ContactData K) (var : Flat K)
    (v w : ℕ → ℕ → K) (N : ℕ) (hv : Represents d.variableDimension var d.old v N)
    (hw : Represents d.problemDimension d.staticDisplacement d.staticDisplacement w N)
    (hp : d.problemDimension ≠ 1) (hn : ∀ s ∈ d.surfaces, ∀ node ∈ s.edge, node < N)
    (value : Surface K → ℕ → K)
    (hc : ∀ s ∈ d.surfaces, s.edge ≠ [] ∧ ∀ node ∈ s.edge, ∀ i < d.variableDimension,
      v node i = value s i) :
    contactCostFunctional sqrt c d var = (d.surfaces.map fun s =>
      surfaceLength sqrt d.nodes s.edge *
        density c d.variableDimension s.normal
          (normalComponent d.problemDimension (meanOver s.edge w) s.normal)
          (tangentialComponent d.problemDimension (meanOver s.edge w) s.normal) d.dt (value s)).sum := by
  rw [C48_quadrature sqrt c d var v w N hv hw hp hn]
  congr 1
  refine List.map_congr_left fun s hs => ?_
  obtain ⟨hne, hval⟩ := hc s hs
  rw [quadrature_congr c hv.positive _ _ _ _ _ _ (w := fun _ => value s) hval]
  unfold quadrature
  have hm : meanOver s.edge (fun _ => value s) = value s := by
    funext i
    unfold meanOver
    rw [sum_map_const]
    have : (s.edge.length : K) ≠ 0 := by
      exact_mod_cast fun h => hne (List.length_eq_zero_iff.1 h)
    field_simp
  rw [hm, sum_map_const]
  have : ((s.edge.length + 1 : ℕ) : K) ≠ 0 := by exact_mod_cast Nat.succ_ne_zero s.edge.length
  push_cast at this ⊢
  field_simp
  ring

/-- C48. The contact cost is additive over surfaces. -/
theorem C48_additive (sqrt : K → K) (c : Conditions K) (d : ContactData K) (var : Flat K)
    (first second : List (Surface K)) :
    contactCostFunctional sqrt c { d with surfaces := first ++ second } var =
      contactCostFunctional sqrt c { d with surfaces := first } var +
        contactCostFunctional sqrt c { d with surfaces := second } var := by
  simp only [contactCostFunctional_eq, List.map_append, List.sum_append]
  rfl

/-- C48. The order of the surfaces does not matter. -/
theorem C48_order (sqrt : K → K) (c : Conditions K) (d : ContactData K) (var : Flat K)
    (surfaces : List (Surface K)) (h : surfaces.Perm d.surfaces) :
    contactCostFunctional sqrt c { d with surfaces := surfaces } var =
      contactCostFunctional sqrt c d var := by
  simp only [contactCostFunctional_eq]
  exact (h.map _).sum_eq

/-- C48. The total cost is the energy of the linear system plus the contact cost. -/
theorem C48_energy (sqrt : K → K) (c : Conditions K) (d : ContactData K) (ind : ℕ) (S : System K)
    (var : Flat K) :
    costFunctional sqrt c d ind S.lhs S.rhs var =
      energy ind S var.get + contactCostFunctional sqrt c d var := by
  unfold costFunctional energy quad
  rw [Finset.sum_congr rfl fun i _ => mul_comm (∑ j ∈ Finset.range ind, S.lhs i j * var.get j) (var.get i)]

end

section order
variable {K : Type _} [Field K] [LinearOrder K] [IsStrictOrderedRing K]

/-- C48. In the plane the weight of a contact edge is its length. -/
theorem C48_length_partial (sqrt : K → K) (hs : IsSqrt sqrt) (nodes : ℕ → ℕ → K) (a b : ℕ) :
    0 ≤ surfaceLength sqrt nodes [a, b] ∧
    surfaceLength sqrt nodes [a, b] * surfaceLength sqrt nodes [a, b] =
      ∑ i ∈ Finset.range 2, (nodes a i - nodes b i) ^ 2 := by
  have := hs ((nodes a 0 - nodes b 0) ^ 2 + (nodes a 1 - nodes b 1) ^ 2) (by positivity)
  simpa [surfaceLength, Finset.sum_range_succ] using this

/-- C48, violated in space. The weight of a triangle is not its area: it does not depend on the third
node nor on the third coordinates, and a triangle whose first two nodes lie above each other
contributes nothing. -/
theorem C48_three_dim_wrong (sqrt : K → K) (hs : IsSqrt sqrt) (nodes : ℕ → ℕ → K) (a b e : ℕ)
    (h0 : nodes a 0 = nodes b 0) (h1 : nodes a 1 = nodes b 1) (c : Conditions K) (d : ContactData K)
    (normal : ℕ → K) (var : Flat K) :
    contactCostFunctional sqrt c { d with nodes := nodes, surfaces := [⟨[a, b, e], normal⟩] } var = 0 := by
  have h := (hs 0 (le_refl 0)).2
  have hz : sqrt 0 = 0 := by simpa using h
  rw [contactCostFunctional_eq]
  simp [surfaceCost, quadrature, surfaceLength, h0, h1, hz]

/-- The contact cost is convex if the density of the law is. -/
theorem C48_contact_convex (sqrt : K → K) (hs : IsSqrt sqrt) (c : Conditions K) (d : ContactData K)
    (hg : ∀ s ∈ d.surfaces, ∀ sn st,
      ConvexVec (density c d.variableDimension s.normal sn st d.dt)) (n : ℕ) :
    ConvexVec fun x => contactCostFunctional sqrt c d ⟨n, x⟩ := by
  intro x y a b ha hb hab
  simp only [contactCostFunctional_eq]
  rw [← sum_map_mul, ← sum_map_mul, ← sum_map_add']
  refine List.sum_le_sum fun s hmem => ?_
  unfold surfaceCost
  rw [nodeValue_combine _ _ _ _ _ _ _ hab]
  exact quadrature_convex _ _ (hs _ (by positivity)).1 _ (hg s hmem _ _) _ _ a b ha hb hab

omit [LinearOrder K] [IsStrictOrderedRing K] in
theorem normalComponent_combine (dim : ℕ) (x y n : ℕ → K) (a b : K) :
    normalComponent dim (fun i => a * x i + b * y i) n =
      a * normalComponent dim x n + b * normalComponent dim y n := by
  unfold normalComponent
  split_ifs
  · rfl
  · rw [Finset.mul_sum, Finset.mul_sum, ← Finset.sum_add_distrib]
    exact Finset.sum_congr rfl fun i _ => by ring

omit [IsStrictOrderedRing K] in
/-- C48. A law with unit bounds, a convex normal potential and no tangential potential has a convex
density, for every normal. -/
theorem C48_density_convex (potential : K → K → K → K) (dim : ℕ) (normal : ℕ → K) (sn : K)
    (st : List K) (dt : K) (h : Convex1 fun x => potential x sn dt) :
    ConvexVec (density (makeConditions (.function potential) unitBound zeroTangential unitBound)
      dim normal sn st dt) := by
  intro x y a b ha hb hab
  simp only [density, makeConditions, Condition.njit, unitBound, zeroTangential, one_mul, mul_zero,
    add_zero, normalComponent_combine]
  exact h _ _ a b ha hb hab

omit [LinearOrder K] [IsStrictOrderedRing K] in
theorem quad_combine (n : ℕ) (A : ℕ → ℕ → K) (x y : ℕ → K) (a b : K) (hab : a + b = 1) :
    quad n A (fun i => a * x i + b * y i) =
      a * quad n A x + b * quad n A y - a * b * quad n A (fun i => x i - y i) := by
  have hb : b = 1 - a := by rw [← hab]; ring
  subst hb
  unfold quad
  simp only [Finset.mul_sum, ← Finset.sum_add_distrib, ← Finset.sum_sub_distrib]
  refine Finset.sum_congr rfl fun i _ => Finset.sum_congr rfl fun j _ => ?_
  ring

omit [LinearOrder K] [IsStrictOrderedRing K] in
theorem energy_combine (n : ℕ) (S : System K) (x y : ℕ → K) (a b : K) (hab : a + b = 1) :
    energy n S (fun i => a * x i + b * y i) =
      a * energy n S x + b * energy n S y - a * b * (1 / 2 * quad n S.lhs (fun i => x i - y i)) := by
  unfold energy
  rw [quad_combine n S.lhs x y a b hab]
  have : ∑ r ∈ Finset.range n, S.rhs r * (a * x r + b * y r) =
      a * ∑ r ∈ Finset.range n, S.rhs r * x r + b * ∑ r ∈ Finset.range n, S.rhs r * y r := by
    rw [Finset.mul_sum, Finset.mul_sum, ← Finset.sum_add_distrib]
    exact Finset.sum_congr rfl fun i _ => by ring
  rw [this]; ring

/-- C48. For a nonnegative quadratic form the total cost is convex. -/
theorem C48_convex (sqrt : K → K) (hs : IsSqrt sqrt) (c : Conditions K) (d : ContactData K)
    (hg : ∀ s ∈ d.surfaces, ∀ sn st,
      ConvexVec (density c d.variableDimension s.normal sn st d.dt)) (n ind : ℕ) (S : System K)
    (hq : ∀ x, 0 ≤ quad ind S.lhs x) :
    ConvexVec fun x => costFunctional sqrt c d ind S.lhs S.rhs ⟨n, x⟩ := by
  intro x y a b ha hb hab
  simp only [C48_energy]
  have h1 := C48_contact_convex sqrt hs c d hg n x y a b ha hb hab
  simp only at h1
  rw [energy_combine ind S x y a b hab]
  have h2 : 0 ≤ a * b * (1 / 2 * quad ind S.lhs (fun i => x i - y i)) :=
    mul_nonneg (mul_nonneg ha hb) (mul_nonneg (by norm_num) (hq _))
  linarith

/-- C48. In particular the cost of a slope law with nonnegative slope is convex. -/
theorem C48_slope_convex (sqrt : K → K) (hs : IsSqrt sqrt) (slope : K) (hslope : 0 ≤ slope)
    (d : ContactData K) (n ind : ℕ) (S : System K) (hq : ∀ x, 0 ≤ quad ind S.lhs x) :
    ConvexVec fun x => costFunctional sqrt
      (makeConditions (.function (slopePotential slope)) unitBound zeroTangential unitBound) d ind
      S.lhs S.rhs ⟨n, x⟩ :=
  C48_convex sqrt hs _ d (fun _ _ sn _ =>
    C48_density_convex _ _ _ _ _ _ (C47_convex slope sn d.dt hslope)) n ind S hq

/-- C48. For a positive definite system the minimiser of the cost is unique: two minimisers agree in
all unknowns. -/
theorem C48_unique (sqrt : K → K) (hs : IsSqrt sqrt) (c : Conditions K) (d : ContactData K)
    (hg : ∀ s ∈ d.surfaces, ∀ sn st,
      ConvexVec (density c d.variableDimension s.normal sn st d.dt)) (n ind : ℕ) (S : System K)
    (hq : ∀ x, 0 ≤ quad ind S.lhs x) (hd : ∀ x, quad ind S.lhs x = 0 → ∀ i < ind, x i = 0)
    (x y : ℕ → K)
    (hx : ∀ z, costFunctional sqrt c d ind S.lhs S.rhs ⟨n, x⟩ ≤
      costFunctional sqrt c d ind S.lhs S.rhs ⟨n, z⟩)
    (hy : ∀ z, costFunctional sqrt c d ind S.lhs S.rhs ⟨n, y⟩ ≤
      costFunctional sqrt c d ind S.lhs S.rhs ⟨n, z⟩) : ∀ i < ind, x i = y i := by
  have hab : (1 / 2 : K) + 1 / 2 = 1 := by norm_num
  have h1 := C48_contact_convex sqrt hs c d hg n x y (1 / 2) (1 / 2) (by norm_num) (by norm_num) hab
  have h2 := energy_combine ind S x y (1 / 2) (1 / 2) hab
  have h3 := hx fun i => 1 / 2 * x i + 1 / 2 * y i
  have h4 := hx y
  have h5 := hy x
  simp only [C48_energy] at h1 h3 h4 h5
  rw [h2] at h3
  have h6 := hq fun i => x i - y i
  have h7 : quad ind S.lhs (fun i => x i - y i) = 0 := by
    refine le_antisymm ?_ h6
    linarith
  intro i hi
  exact sub_eq_zero.1 (hd _ h7 i hi)

/-! Instances of the hypotheses: an edge of length two in the plane with a field that is constant on
it, one node of which is not among the unknowns; and a law with a convex density. -/

/-- Data used in the examples: one contact edge from (0,0) to (2,0) with normal (0,-1). -/
def exampleData (old static : Flat ℚ) : ContactData ℚ where
  variableDimension := 2
  problemDimension := 2
  meshDimension := 2
  nodes := fun node i => if node = 1 ∧ i = 0 then 2 else 0
  surfaces := [⟨[0, 1], fun i => if i = 1 then -1 else 0⟩]
  old := old
  staticDisplacement := static
  dt := 1

example : Represents 2 (⟨2, fun _ => -3⟩ : Flat ℚ) ⟨4, fun _ => -3⟩ (fun _ _ => -3) 2 ∧
    Represents 2 (⟨4, fun k => k⟩ : Flat ℚ) ⟨4, fun k => k⟩ (fun node i => 2 * i + node) 2 ∧
    (∀ s ∈ (exampleData ⟨4, fun _ => -3⟩ ⟨4, fun k => k⟩).surfaces,
      s.edge ≠ [] ∧ ∀ node ∈ s.edge, node < 2) := by
  refine ⟨⟨by norm_num, 1, by norm_num, by simp, by simp⟩,
    ⟨by norm_num, 2, by norm_num, ?_, ?_⟩, by simp [exampleData]⟩
  · intro i _ node _; push_cast; ring
  · intro i _ node h1 h2; omega

/-- The value of the example: the length two times the potential of a penetration of three. -/
example : contactCostFunctional (fun x : ℚ => x / 2)
    (makeConditions (.function (slopePotential 10)) unitBound zeroTangential unitBound)
    (exampleData ⟨4, fun _ => -3⟩ ⟨4, fun k => k⟩) ⟨2, fun _ => -3⟩ = 2 * 45 := by decide +kernel

example : IsSqrt (K := ℝ) Real.sqrt ∧ (∀ x : ℕ → ℝ, 0 ≤ quad 2 (fun i j => if i = j then 2 else 1) x) ∧
    (∀ x : ℕ → ℝ, quad 2 (fun i j => if i = j then 2 else 1) x = 0 → ∀ i < 2, x i = 0) := by
  have key : ∀ x : ℕ → ℝ, quad 2 (fun i j => if i = j then 2 else 1) x =
      x 0 ^ 2 + x 1 ^ 2 + (x 0 + x 1) ^ 2 := fun x => by
    simp [quad, Finset.sum_range_succ]; ring
  refine ⟨fun x hx => ⟨Real.sqrt_nonneg x, Real.mul_self_sqrt hx⟩, fun x => by rw [key]; positivity, ?_⟩
  intro x hx i hi
  rw [key] at hx
  have h0 : x 0 = 0 := by nlinarith [sq_nonneg (x 0), sq_nonneg (x 1), sq_nonneg (x 0 + x 1)]
  have h1 : x 1 = 0 := by nlinarith [sq_nonneg (x 0), sq_nonneg (x 1), sq_nonneg (x 0 + x 1)]
  interval_cases i <;> assumption

end order

end Conmech
