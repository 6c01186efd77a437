import Verif.Model.MeshIndices
import Verif.Props.Boundary
import Mathlib.Data.Finset.Card
import Mathlib.Data.Finset.Range

/-!
Property C09: index ranges of a constructed mesh.
-/
namespace Conmech
open Spec

/-- Membership in a `slice`. -/
def InSlice (s : ℤ × ℤ) (w : ℤ) : Prop := s.1 ≤ w ∧ w < s.2

instance (s : ℤ × ℤ) (w : ℤ) : Decidable (InSlice s w) :=
  inferInstanceAs (Decidable (s.1 ≤ w ∧ w < s.2))

section
variable {α : Type} [Inhabited α] (mean : List α → α) (k : ℕ) (nodes : List α)
  (elements : List (List ℕ)) (isContact isDirichlet : α → Bool)

/-- The sizes of the groups bound the counts. -/
theorem counts_bounds (hv : Valid nodes.length elements) (hk : ∀ e ∈ elements, e.length = k)
    (hdisj : ∀ v, BoundaryNode elements v →
      ¬ (holdsAt nodes isContact v = true ∧ holdsAt nodes isDirichlet v = true)) :
    let c := (identifyBoundaries mean nodes elements isContact isDirichlet).counts
    0 ≤ c.contact ∧ 0 ≤ c.dirichlet ∧ c.contact + c.dirichlet ≤ c.nodes := by
  intro c
  obtain ⟨a1, a2, a3, a4, a5, a6, a7⟩ :=
    counts_aux mean k nodes elements isContact isDirichlet hv hk
  simp only [c, MeshBoundaries.counts]
  rw [a1, a2, a3]
  refine ⟨by omega, by omega, ?_⟩
  have : ∀ l : List ℕ, l.countP (fun v => onBoundary elements v && holdsAt nodes isContact v) +
      l.countP (fun v => onBoundary elements v && holdsAt nodes isDirichlet v) ≤ l.length := by
    intro l
    induction l with
    | nil => rfl
    | cons x l ih =>
      have hx : onBoundary elements x = true → ¬ (holdsAt nodes isContact x = true ∧
        holdsAt nodes isDirichlet x = true) := fun h => hdisj x (of_decide_eq_true h)
      simp only [List.countP_cons, List.length_cons]
      revert hx
      cases onBoundary elements x <;> cases holdsAt nodes isContact x <;>
        cases holdsAt nodes isDirichlet x <;> simp <;> omega
  have := this (List.range nodes.length)
  simp only [List.length_range] at this
  omega

/-- C09 (partial: needs `hdisj`, see `C09_partition_overlap_wrong`). Every node number lies in
exactly one of the contact, free and Dirichlet ranges; the independent range is the union of the
contact and the free range; independent and inner counts are the sizes of these ranges. -/
theorem C09_ranges_partition_partial (hv : Valid nodes.length elements)
    (hk : ∀ e ∈ elements, e.length = k)
    (hdisj : ∀ v, BoundaryNode elements v →
      ¬ (holdsAt nodes isContact v = true ∧ holdsAt nodes isDirichlet v = true)) :
    let c := (identifyBoundaries mean nodes elements isContact isDirichlet).counts
    (∀ w : ℤ, 0 ≤ w → w < c.nodes →
      (InSlice c.contactIndices w ∨ InSlice c.freeIndices w ∨ InSlice c.dirichletIndices w) ∧
      ¬ (InSlice c.contactIndices w ∧ InSlice c.freeIndices w) ∧
      ¬ (InSlice c.contactIndices w ∧ InSlice c.dirichletIndices w) ∧
      ¬ (InSlice c.freeIndices w ∧ InSlice c.dirichletIndices w) ∧
      (InSlice c.independentIndices w ↔ InSlice c.contactIndices w ∨ InSlice c.freeIndices w)) ∧
    c.independentNodesCount = c.independentIndices.2 - c.independentIndices.1 := by
  intro c
  obtain ⟨h1, h2, h3⟩ := counts_bounds mean k nodes elements isContact isDirichlet hv hk hdisj
  refine ⟨?_, ?_⟩
  · intro w hw0 hwn
    simp only [InSlice, Counts.contactIndices, Counts.freeIndices, Counts.dirichletIndices,
      Counts.independentIndices, Counts.independentNodesCount]
    change 0 ≤ c.contact at h1
    change 0 ≤ c.dirichlet at h2
    change c.contact + c.dirichlet ≤ c.nodes at h3
    omega
  · simp [Counts.independentIndices]

/-- C09 (partial: the reported number of free nodes is the size of the free range only if there is no
Dirichlet node). -/
theorem C09_free_count_partial (c : Counts) (hd : c.dirichlet = 0) :
    c.freeNodesCount = c.freeIndices.2 - c.freeIndices.1 := by
  simp only [Counts.freeNodesCount, Counts.freeIndices, Counts.independentNodesCount]; omega

/-- C09: the reported number of free nodes is the size of the free range less the number of Dirichlet
nodes, which are subtracted twice. -/
theorem C09_free_count (c : Counts) :
    c.freeNodesCount = c.freeIndices.2 - c.freeIndices.1 - c.dirichlet := rfl

/-- C09, negation: with a Dirichlet node the reported number of free nodes is always wrong. -/
theorem C09_free_count_wrong (c : Counts) (hd : c.dirichlet ≠ 0) :
    c.freeNodesCount ≠ c.freeIndices.2 - c.freeIndices.1 := by
  rw [C09_free_count]; omega

/-- C09: the reported number of inner nodes is the number of nodes that are in no boundary face, and
the reported number of boundary nodes is the number of the other ones. -/
theorem C09_inner_count (hv : Valid nodes.length elements) (hk : ∀ e ∈ elements, e.length = k) :
    let c := (identifyBoundaries mean nodes elements isContact isDirichlet).counts
    c.innerNodesCount = ((Finset.range nodes.length).filter fun v => ¬ BoundaryNode elements v).card ∧
    c.boundaryNodesCount =
      ((Finset.range nodes.length).filter fun v => BoundaryNode elements v).card := by
  intro c
  obtain ⟨a1, a2, a3, a4, -⟩ := counts_aux mean k nodes elements isContact isDirichlet hv hk
  have hb : c.boundaryNodesCount = ((List.range nodes.length).countP (onBoundary elements) : ℤ) := by
    simp only [Counts.boundaryNodesCount, MeshBoundaries.counts, c]
    rw [a2, a3, a4]; omega
  have hcard : ((List.range nodes.length).countP (onBoundary elements)) =
      ((Finset.range nodes.length).filter fun v => BoundaryNode elements v).card := by
    rw [List.countP_eq_length_filter]
    unfold onBoundary
    rfl
  have hsum := Finset.card_filter_add_card_filter_not (s := Finset.range nodes.length)
    (fun v => BoundaryNode elements v)
  rw [Finset.card_range] at hsum
  have hn : c.nodes = (nodes.length : ℤ) := by
    simp only [c, MeshBoundaries.counts]; exact_mod_cast a1
  refine ⟨?_, by rw [hb, hcard]⟩
  rw [Counts.innerNodesCount, hb, hcard, hn]
  omega

/-- C09 (partial: needs `hdisj`, see `C09_partition_overlap_wrong`). The contact, Neumann and Dirichlet
ranges select the boundary nodes of their kind, and the Neumann range begins where the contact range
ends. -/
theorem C09_node_ranges_partial (hv : Valid nodes.length elements)
    (hk : ∀ e ∈ elements, e.length = k)
    (hdisj : ∀ v, BoundaryNode elements v →
      ¬ (holdsAt nodes isContact v = true ∧ holdsAt nodes isDirichlet v = true)) :
    let m := identifyBoundaries mean nodes elements isContact isDirichlet
    (∀ w < m.nodes.length,
      (InSlice m.counts.contactIndices w ↔ BoundaryNode m.elements w ∧
        holdsAt m.nodes isContact w = true) ∧
      (InSlice m.counts.neumannIndices w ↔ BoundaryNode m.elements w ∧
        holdsAt m.nodes isContact w = false ∧ holdsAt m.nodes isDirichlet w = false) ∧
      (InSlice m.counts.dirichletIndices w ↔ BoundaryNode m.elements w ∧
        holdsAt m.nodes isDirichlet w = true)) ∧
    m.counts.contactIndices.2 = m.counts.neumannIndices.1 ∧
    m.counts.neumannIndices.2 - m.counts.neumannIndices.1 = m.counts.neumann := by
  intro m
  obtain ⟨h1, h2, -, h4, -⟩ :=
    C06_ranges_partial mean k nodes elements isContact isDirichlet hv hk hdisj
  obtain ⟨h5, -⟩ := C06_dirichlet_range mean k nodes elements isContact isDirichlet hv hk
  obtain ⟨-, -, -, -, a5, a6, a7⟩ := counts_aux mean k nodes elements isContact isDirichlet hv hk
  refine ⟨fun w hw => ⟨?_, ?_, ?_⟩, rfl, ?_⟩
  · rw [← h1 w hw, a5]; rfl
  · rw [← h2 w hw, a6]; rfl
  · rw [← h5 w hw, a7]; rfl
  · simp [Counts.neumannIndices]

/-- C09. The boundary range selects exactly the boundary nodes if and only if the mesh has no
Dirichlet node or no internal node. -/
theorem C09_boundary_range_iff (hv : Valid nodes.length elements)
    (hk : ∀ e ∈ elements, e.length = k) :
    let m := identifyBoundaries mean nodes elements isContact isDirichlet
    (∀ w < m.nodes.length, InSlice m.counts.boundaryIndices w ↔ BoundaryNode m.elements w) ↔
      ((∀ w < m.nodes.length, ¬ (BoundaryNode m.elements w ∧
          holdsAt m.nodes isDirichlet w = true)) ∨
        ∀ w < m.nodes.length, BoundaryNode m.elements w) := by
  intro m
  obtain ⟨π, h⟩ := identify_stage mean k nodes elements isContact isDirichlet hv hk
  obtain ⟨a1, a2, a3, a4, a5, a6, a7⟩ :=
    counts_aux mean k nodes elements isContact isDirichlet hv hk
  have hlen := group_sizes nodes elements isContact isDirichlet
  have hrank := fun w hw => rank_at h w hw
  simp only at hlen hrank
  change m.nodes.length = nodes.length at a1
  have hB : (List.range nodes.length).countP (onBoundary elements) =
      (List.range nodes.length).countP (fun v => onBoundary elements v &&
        holdsAt nodes isContact v && !holdsAt nodes isDirichlet v) +
      (List.range nodes.length).countP (fun v => onBoundary elements v &&
        !holdsAt nodes isContact v && !holdsAt nodes isDirichlet v) +
      (List.range nodes.length).countP (fun v => onBoundary elements v &&
        holdsAt nodes isDirichlet v) := by
    generalize List.range nodes.length = l
    induction l with
    | nil => rfl
    | cons x l ih =>
      simp only [List.countP_cons, ih]
      cases onBoundary elements x <;> cases holdsAt nodes isContact x <;>
        cases holdsAt nodes isDirichlet x <;> simp <;> omega
  have hbc : m.counts.boundaryNodesCount =
      ((List.range nodes.length).countP (onBoundary elements) : ℤ) := by
    simp only [Counts.boundaryNodesCount, MeshBoundaries.counts, m]
    rw [a2, a3, a4]; omega
  have hb2 : ∀ w, BoundaryNode m.elements w ↔
      groupRank m.nodes m.elements isContact isDirichlet w ≠ 2 := by
    intro w
    have : BoundaryNode m.elements w ↔ onBoundary m.elements w = true := by simp [onBoundary]
    rw [this]; unfold groupRank
    cases onBoundary m.elements w <;> cases holdsAt m.nodes isContact w <;>
      cases holdsAt m.nodes isDirichlet w <;> simp
  have hb3 : ∀ w, (BoundaryNode m.elements w ∧ holdsAt m.nodes isDirichlet w = true) ↔
      groupRank m.nodes m.elements isContact isDirichlet w = 3 := by
    intro w
    have : BoundaryNode m.elements w ↔ onBoundary m.elements w = true := by simp [onBoundary]
    rw [this]; unfold groupRank
    cases onBoundary m.elements w <;> cases holdsAt m.nodes isContact w <;>
      cases holdsAt m.nodes isDirichlet w <;> simp
  simp only [InSlice, Counts.boundaryIndices, hbc, hB, hb3]
  simp only [hb2]
  rw [a1]
  change ∀ w, w < nodes.length → groupRank m.nodes m.elements isContact isDirichlet w = _ at hrank
  set A := (List.range nodes.length).countP (fun v => onBoundary elements v &&
        holdsAt nodes isContact v && !holdsAt nodes isDirichlet v)
  set B := (List.range nodes.length).countP (fun v => onBoundary elements v &&
        !holdsAt nodes isContact v && !holdsAt nodes isDirichlet v)
  set C := (List.range nodes.length).countP (fun v => !onBoundary elements v)
  set D := (List.range nodes.length).countP (fun v => onBoundary elements v &&
        holdsAt nodes isDirichlet v)
  constructor
  · intro hall
    by_cases hD : D = 0
    · left
      intro w hw
      rw [hrank w hw]
      split_ifs <;> first | (simp; done) | omega
    · by_cases hC : C = 0
      · right
        intro w hw
        rw [hrank w hw]
        split_ifs <;> omega
      · exfalso
        have hw : A + B < nodes.length := by omega
        have := (hall (A + B) hw).1 ⟨by omega, by push_cast; omega⟩
        rw [hrank _ hw, if_neg (by omega), if_neg (by omega), if_pos (by omega)] at this
        exact this rfl
  · intro hor w hw
    have hD0 : D = 0 ∨ C = 0 := by
      by_contra hcon
      rcases hor with h1 | h1
      · have hw : A + B + C < nodes.length := by omega
        apply h1 _ hw
        rw [hrank _ hw, if_neg (by omega), if_neg (by omega), if_neg (by omega)]
      · have hw : A + B < nodes.length := by omega
        apply h1 _ hw
        rw [hrank _ hw, if_neg (by omega), if_neg (by omega), if_pos (by omega)]
    rw [hrank w hw]
    constructor
    · rintro ⟨_, h2⟩
      push_cast at h2
      split_ifs <;> omega
    · intro h2
      refine ⟨by omega, ?_⟩
      push_cast
      split_ifs at h2 <;> omega

end

/-- C09, negation: on the square with Dirichlet nodes on the left the boundary range contains the
internal node and misses a Dirichlet node. -/
theorem C09_boundary_range_wrong :
    let m := identifyBoundaries sumPoints squareNodes squareElements (fun _ => false)
      (fun p => p.1 == 0)
    ¬ ∀ w < m.nodes.length, InSlice m.counts.boundaryIndices w ↔ BoundaryNode m.elements w := by
  decide +kernel

/-- C09, negation: if the predicates overlap, a node number can lie in the contact and in the
Dirichlet range. -/
theorem C09_partition_overlap_wrong :
    let m := identifyBoundaries sumPoints squareNodes squareElements (fun _ => true)
      (fun p => p.1 == 0)
    ∃ w < m.nodes.length, InSlice m.counts.contactIndices w ∧ InSlice m.counts.dirichletIndices w := by
  refine ⟨3, ?_⟩
  decide +kernel

example : (identifyBoundaries sumPoints squareNodes squareElements (fun p => p.1 == 2)
      (fun p => p.1 == 0)).counts = { nodes := 5, contact := 2, neumann := 0, dirichlet := 2 } := by
  simp only [MeshBoundaries.counts, Counts.mk.injEq]; decide +kernel

-- the square with a node in the middle: four boundary nodes and an inner one
example : (identifyBoundaries sumPoints squareNodes squareElements (fun p => p.1 == 2)
      (fun p => p.1 == 0)).counts.innerNodesCount = 1 ∧
    ((Finset.range squareNodes.length).filter fun v => ¬ BoundaryNode squareElements v) = {0} := by
  decide +kernel

end Conmech
