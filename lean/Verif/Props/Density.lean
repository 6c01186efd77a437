import Verif.Props.MassStiffness
/-!
C29: stiffness reassembled with a density for every element.
-/
namespace Conmech
open Spec

section
variable {K : Type _} [Field K]

theorem foldl_proj {α β : Type _} (l : List α) (step : β → α → β) (proj : β → K) (inc : α → K)
    (h : ∀ F a, proj (step F a) = proj F + inc a) (F : β) :
    proj (l.foldl step F) = proj F + (l.map inc).sum := by
  induction l generalizing F with
  | nil => simp
  | cons a l ih => rw [List.foldl_cons, ih, h, List.map_cons, List.sum_cons, add_assoc]

theorem assembly_apply (size : ℕ) (elements : List (List ℕ)) (L : ℕ → ℕ → ℕ → ℕ → ℕ → K)
    (density : ℕ → K) :
    ∃ w, assemblyWithDensity size elements (some L) density = some w ∧ ∀ k l p q, w k l p q =
      sumElements elements fun t e => ∑ i ∈ Finset.range size, ∑ j ∈ Finset.range size,
        if p = e.getD i 0 ∧ q = e.getD j 0 then density t * L k l t i j else 0 := by
  refine ⟨_, rfl, fun k l p q => ?_⟩
  dsimp only
  rw [foldl_proj _ _ (fun w : ℕ → ℕ → ℕ → ℕ → K => w k l p q) (fun et =>
    ∑ i ∈ Finset.range size, ∑ j ∈ Finset.range size,
      if p = et.1.getD i 0 ∧ q = et.1.getD j 0 then density et.2 * L k l et.2 i j else 0), zero_add,
    list_sum_range _ ([], 0), List.length_zipIdx]
  · refine Finset.sum_congr rfl fun t ht => ?_
    have ht := Finset.mem_range.1 ht
    rw [List.getD_eq_getElem _ _ (by simpa using ht), List.getElem_zipIdx,
      List.getD_eq_getElem _ _ ht, Nat.zero_add]
  · intro F et
    rw [foldl_proj _ _ (fun w : ℕ → ℕ → ℕ → ℕ → K => w k l p q) (fun i =>
      ∑ j ∈ Finset.range size,
        if p = et.1.getD i 0 ∧ q = et.1.getD j 0 then density et.2 * L k l et.2 i j else 0),
      sum_map_range]
    intro F i
    rw [foldl_proj _ _ (fun w : ℕ → ℕ → ℕ → ℕ → K => w k l p q) (fun j =>
        if p = et.1.getD i 0 ∧ q = et.1.getD j 0 then density et.2 * L k l et.2 i j else 0),
      sum_map_range]
    intro F j
    split_ifs <;> simp

end

section
variable {K : Type _} [Field K] [LinearOrder K] [IsStrictOrderedRing K]
variable {N : ℕ} {elements : List (List ℕ)} {nodes : ℕ → ℕ → K}

/-- The reassembled stiffness of a triangular mesh. -/
def reassembled2 (elements : List (List ℕ)) (nodes : ℕ → ℕ → K) (density : ℕ → K) :
    Option (ℕ → ℕ → ℕ → ℕ → K) :=
  assemblyWithDensity 3 elements (basicMatrices2 elements nodes).localStiffness density

theorem reassembled2_apply (elements : List (List ℕ)) (nodes : ℕ → ℕ → K) (density : ℕ → K) :
    ∃ w, reassembled2 elements nodes density = some w ∧ ∀ k l p q, w k l p q =
      sumElements elements fun t e => ∑ i ∈ Finset.range 3, ∑ j ∈ Finset.range 3,
        if p = e.getD i 0 ∧ q = e.getD j 0 then
          density t * Plane.localStiffness (vertices nodes (elements.getD t [])) k l i j else 0 :=
  assembly_apply 3 elements _ density

/-- C29, for triangles: unit density gives the plain stiffness. -/
theorem C29_unit_density (elements : List (List ℕ)) (nodes : ℕ → ℕ → K) :
    ∃ w, reassembled2 elements nodes (fun _ => 1) = some w ∧
      ∀ k < 2, ∀ l < 2, ∀ p q, w k l p q = (basicMatrices2 elements nodes).W k l p q := by
  obtain ⟨w, hw, h⟩ := reassembled2_apply elements nodes (fun _ => 1)
  refine ⟨w, hw, fun k hk l hl p q => ?_⟩
  rw [h]
  refine Eq.trans ?_ (edgesFeatures_apply 3 Plane.features elements nodes (2 + 2 * (k + 1) + l) p q).symm
  refine sumElements_congr fun t ht => ?_
  refine Finset.sum_congr rfl fun i _ => Finset.sum_congr rfl fun j _ => ?_
  rw [one_mul]
  congr 1
  interval_cases k <;> interval_cases l <;>
    simp only [Plane.localStiffness, Plane.features, List.map_cons, List.getD_cons_zero,
        List.getD_cons_succ, Nat.add_zero, Nat.zero_add, Nat.mul_one]

/-- C29, for triangles: reassembly is linear in the density. -/
theorem C29_linear (elements : List (List ℕ)) (nodes : ℕ → ℕ → K) (c c' : K) (rho rho' : ℕ → K) :
    ∃ w w' w'', reassembled2 elements nodes rho = some w ∧ reassembled2 elements nodes rho' = some w' ∧
      reassembled2 elements nodes (fun t => c * rho t + c' * rho' t) = some w'' ∧
      ∀ k l p q, w'' k l p q = c * w k l p q + c' * w' k l p q := by
  obtain ⟨w, hw, h⟩ := reassembled2_apply elements nodes rho
  obtain ⟨w', hw', h'⟩ := reassembled2_apply elements nodes rho'
  obtain ⟨w'', hw'', h''⟩ := reassembled2_apply elements nodes (fun t => c * rho t + c' * rho' t)
  refine ⟨w, w', w'', hw, hw', hw'', fun k l p q => ?_⟩
  rw [h, h', h'', ← sumElements_mul, ← sumElements_mul, ← sumElements_add]
  refine sumElements_congr fun t _ => ?_
  rw [Finset.mul_sum, Finset.mul_sum, ← Finset.sum_add_distrib]
  refine Finset.sum_congr rfl fun i _ => ?_
  rw [Finset.mul_sum, Finset.mul_sum, ← Finset.sum_add_distrib]
  refine Finset.sum_congr rfl fun j _ => ?_
  split_ifs
  · ring
  · simp

/-- C29, for triangles: the form of the reassembled stiffness weighs every element with its density; an
element of density zero contributes nothing. -/
theorem C29_form (hv : ValidElements 2 N elements) (hn : Nondegenerate2 elements nodes) (rho : ℕ → K)
    (k l : ℕ) (hk : k < 2) (hl : l < 2) (x y : ℕ → K) (X Y : ℕ → ℕ → K)
    (hX : FieldGradient 2 elements nodes x X) (hY : FieldGradient 2 elements nodes y Y) :
    ∃ w, reassembled2 elements nodes rho = some w ∧ form N N (w k l) x y =
      sumElements elements fun t e => rho t * (area (vertices nodes e) * (X t k * Y t l)) := by
  obtain ⟨w, hw, happ⟩ := reassembled2_apply elements nodes rho
  refine ⟨w, hw, ?_⟩
  unfold form
  rw [Finset.sum_congr rfl fun p _ => Finset.sum_congr rfl fun q _ => by rw [happ k l p q]]
  simp only [sumElements, Finset.mul_sum, Finset.sum_mul]
  rw [Finset.sum_congr rfl fun p _ => Finset.sum_comm]
  rw [Finset.sum_comm]
  refine Finset.sum_congr rfl fun t ht => ?_
  have ht := Finset.mem_range.1 ht
  have he := getD_mem ht
  have hd := Plane.allLocal hn _ he
  rw [← hd.shape.gradient_eq (hX t ht) hk, ← hd.shape.gradient_eq (hY t ht) hl, Finset.sum_mul,
    Finset.mul_sum, Finset.mul_sum]
  set e := elements.getD t []
  rw [Finset.sum_congr rfl fun p _ => Finset.sum_comm]
  rw [Finset.sum_comm]
  refine Finset.sum_congr rfl fun i hi => ?_
  rw [Finset.mul_sum, Finset.mul_sum, Finset.mul_sum]
  rw [Finset.sum_congr rfl fun p _ => Finset.sum_comm]
  rw [Finset.sum_comm]
  refine Finset.sum_congr rfl fun j hj => ?_
  have hi' := getD_lt hv he (Finset.mem_range.1 hi)
  have hj' := getD_lt hv he (Finset.mem_range.1 hj)
  rw [Finset.sum_eq_single (e.getD i 0)]
  · rw [Finset.sum_eq_single (e.getD j 0)]
    · rw [if_pos ⟨rfl, rfl⟩]
      simp only [valuesOn, Plane.localStiffness, Plane.volume_eq _ i (Finset.mem_range.1 hi)]
      ring
    · intro q _ hq; rw [if_neg (fun h => hq h.2), mul_zero, zero_mul]
    · intro h; exact absurd (Finset.mem_range.2 hj') h
  · intro p _ hp
    refine Finset.sum_eq_zero fun q _ => ?_
    rw [if_neg (fun h => hp h.1), mul_zero, zero_mul]
  · intro h; exact absurd (Finset.mem_range.2 hi') h

/-- C29, part: everything claimed holds for triangular meshes (`C29_unit_density`, `C29_linear`,
`C29_form`). For tetrahedral meshes reassembly is impossible, see `C29_three_dim_wrong`. -/
theorem C29_zero_density_partial (hv : ValidElements 2 N elements) (hn : Nondegenerate2 elements nodes)
    (rho : ℕ → K) (s : ℕ) (hs : rho s = 0) (k l : ℕ) (hk : k < 2) (hl : l < 2) (x y : ℕ → K)
    (X Y : ℕ → ℕ → K) (hX : FieldGradient 2 elements nodes x X)
    (hY : FieldGradient 2 elements nodes y Y) :
    ∃ w, reassembled2 elements nodes rho = some w ∧ form N N (w k l) x y =
      ∑ t ∈ (Finset.range elements.length).erase s,
        rho t * (area (vertices nodes (elements.getD t [])) * (X t k * Y t l)) := by
  obtain ⟨w, hw, h⟩ := C29_form hv hn rho k l hk hl x y X Y hX hY
  refine ⟨w, hw, h.trans ?_⟩
  unfold sumElements
  by_cases hm : s ∈ Finset.range elements.length
  · rw [← Finset.add_sum_erase _ _ hm]
    simp only [hs, zero_mul, zero_add]
  · rw [Finset.erase_eq_of_notMem hm]

omit [IsStrictOrderedRing K] in
/-- C29 fails in space: no tetrahedral mesh can be reassembled. -/
theorem C29_three_dim_wrong (elements : List (List ℕ)) (nodes : ℕ → ℕ → K) (rho : ℕ → K) :
    assemblyWithDensity 4 elements (basicMatrices3 elements nodes).localStiffness rho = none := rfl

end

example : (fun t => if t = 0 then 0 else 7 : ℕ → ℚ) 0 = 0 := rfl

end Conmech
