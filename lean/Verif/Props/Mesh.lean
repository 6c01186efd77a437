import Verif.Lemmas.Mesh

/-!
Properties C01, C02, C03: mesh clean-up and edges.
-/
namespace Conmech
open Spec

/-- C01. Dropping unconnected nodes keeps the coordinates of every vertex of every element. -/
theorem C01_remove_unconnected_geometry {α} (nodes : List α) (elements : List (List Nat))
    (hv : Valid nodes.length elements) :
    geometry (removeUnconnected nodes elements).1 (removeUnconnected nodes elements).2 =
      geometry nodes elements :=
  (removeLoop_spec nodes elements 0 hv (Nat.zero_le _) (by omega)).1

example : Valid 5 [[1, 3, 4], [4, 3, 1]] ∧
    removeUnconnected ['a', 'b', 'c', 'd', 'e'] [[1, 3, 4], [4, 3, 1]] =
      (['b', 'd', 'e'], [[0, 1, 2], [2, 1, 0]]) := by
  constructor
  · unfold Valid; decide
  · simp +decide [removeUnconnected, removeLoop, decrementAbove]

/-- C02. The remaining nodes are exactly the used ones in their original order, every one of them is
used by the renumbered elements, and no element refers to a missing node. -/
theorem C02_remove_unconnected_exact {α} (nodes : List α) (elements : List (List Nat))
    (hv : Valid nodes.length elements) :
    let r := removeUnconnected nodes elements
    r.1.map some =
        ((List.range nodes.length).filter fun v => decide (Used elements v)).map (nodes[·]?) ∧
      Valid r.1.length r.2 ∧ ∀ v < r.1.length, Used r.2 v := by
  obtain ⟨_, h2, h3, h4⟩ := removeLoop_spec nodes elements 0 hv (Nat.zero_le _) (by omega)
  exact ⟨h4, h2, h3⟩

/-- C02, second half: a mesh without unconnected nodes is left alone (numbers included). -/
theorem C02_remove_unconnected_clean {α} (nodes : List α) (elements : List (List Nat))
    (hu : ∀ v < nodes.length, Used elements v) :
    removeUnconnected nodes elements = (nodes, elements) := by
  unfold removeUnconnected
  suffices ∀ k index, nodes.length - index = k →
      removeLoop nodes elements nodes.length index = (nodes, elements) from this _ 0 rfl
  intro k
  induction k with
  | zero => intro index h; rw [removeLoop, if_neg (by omega)]
  | succ k ih =>
    intro index h
    rw [removeLoop, if_pos (by omega), if_pos ((any_contains_iff _ _).2 (hu _ (by omega)))]
    exact ih _ (by omega)

/-- C02, consequence: cleaning is idempotent. -/
theorem C02_remove_unconnected_idempotent {α} (nodes : List α) (elements : List (List Nat))
    (hv : Valid nodes.length elements) :
    let r := removeUnconnected nodes elements
    removeUnconnected r.1 r.2 = r :=
  C02_remove_unconnected_clean _ _ (C02_remove_unconnected_exact nodes elements hv).2.2

example : Valid 4 [[0, 3], [3, 0]] ∧ ¬ Used [[0, 3], [3, 0]] 1 := by
  unfold Valid Used; decide

/-- C03. The edge list contains exactly the pairs of adjacent nodes, smaller number first. -/
theorem C03_edges_exact (n k : Nat) (elements : List (List Nat)) (hv : Valid n elements)
    (hk : ∀ e ∈ elements, e.length = k) (hd : ∀ e ∈ elements, e.Nodup) (i j : Nat) :
    (i, j) ∈ edgesList n (edgesMatrix elements) ↔ i < j ∧ Adjacent elements i j := by
  unfold edgesList
  simp only [List.mem_filter, List.mem_flatMap, List.mem_range, List.mem_map, Prod.mk.injEq,
    decide_eq_true_eq]
  have hp := edgesMatrix_pos elements k hk hd i j
  constructor
  · rintro ⟨_, h1, h2⟩; exact ⟨h1, hp.1 h2⟩
  · rintro ⟨h1, h2⟩
    obtain ⟨e, he, hi, hj⟩ := h2.2
    exact ⟨⟨i, hv e he i hi, j, hv e he j hj, rfl, rfl⟩, h1, hp.2 h2⟩

/-- C03. An entry of the edge matrix is the number of elements containing both nodes; in particular
the matrix is symmetric with zero diagonal. -/
theorem C03_edges_matrix_counts (k : Nat) (elements : List (List Nat))
    (hk : ∀ e ∈ elements, e.length = k) (hd : ∀ e ∈ elements, e.Nodup) (i j : Nat) :
    (i ≠ j → edgesMatrix elements i j = elements.countP fun e => decide (i ∈ e ∧ j ∈ e)) ∧
      edgesMatrix elements i i = 0 ∧ edgesMatrix elements i j = edgesMatrix elements j i := by
  simp only [edgesMatrix_eq elements k hk hd]
  refine ⟨fun h => by simp [h], by simp, ?_⟩
  congr 1; funext e; rw [decide_eq_decide]
  constructor <;> rintro ⟨a, b, c⟩ <;> exact ⟨Ne.symm a, c, b⟩

/-- C03. The edge list is strictly increasing in lexicographic order; in particular no edge occurs
twice. -/
theorem C03_edges_sorted (n : Nat) (M : Nat → Nat → Nat) :
    (edgesList n M).Pairwise (fun p q => p.1 < q.1 ∨ (p.1 = q.1 ∧ p.2 < q.2)) ∧
      (edgesList n M).Nodup := by
  have h := (ndindex_pairwise n n).filter
    (fun p => decide (p.2 > p.1 ∧ M p.1 p.2 > 0))
  refine ⟨h, h.imp ?_⟩
  rintro a b hab rfl
  omega

example : Valid 4 [[0, 1, 2], [1, 2, 3]] ∧
    edgesList 4 (edgesMatrix [[0, 1, 2], [1, 2, 3]]) = [(0,1), (0,2), (1,2), (1,3), (2,3)] := by
  constructor
  · unfold Valid; decide
  · decide

end Conmech
