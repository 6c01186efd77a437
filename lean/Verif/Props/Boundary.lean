import Verif.Lemmas.Groups

/-!
Properties C04 – C08: reordering of the nodes and identification of the boundary.
-/
namespace Conmech
open Spec

/-! ### C04: one reordering step -/

/-- C04. Nothing negative is left in the element array, no element changes its geometry, and the
nodes are permuted. -/
theorem C04_reorder_geometry {α} [Inhabited α] (nodes : List α) (elements : List (List ℕ))
    (selected : List ℕ) (toTop : Bool) (hv : Valid nodes.length elements) :
    let r := reorderNumba nodes elements selected toTop
    ∃ elements' : List (List ℕ), r.2.1 = elements'.map (fun row => row.map Int.ofNat) ∧
      geometry r.1 elements' = geometry nodes elements ∧ r.1.Perm nodes := by
  intro r
  have hr : r = _ := reorderNumba_eq nodes elements selected toTop hv
  refine ⟨elements.map fun row => row.map (newIdx nodes.length (goesFront selected toTop)),
    ?_, ?_, ?_⟩
  · rw [hr]; simp [List.map_map, Function.comp_def]
  · rw [hr]
    unfold geometry
    rw [List.map_map]
    apply List.map_congr_left
    intro row hrow
    simp only [Function.comp, List.map_map]
    apply List.map_congr_left
    intro v hvr
    exact arrange_newIdx _ nodes v (hv row hrow v hvr)
  · rw [hr]
    simp only [arrange, pick]
    refine (List.Perm.append_left _ (List.reverse_perm _)).trans ?_
    rw [← List.map_append]
    refine ((List.filter_append_perm _ nodes.zipIdx).map _).trans ?_
    simp

/-- C04. Selected nodes are contiguous at the requested end, in order at the top and reversed at the
bottom; the others fill the rest from the opposite end. -/
theorem C04_reorder_contiguous {α} [Inhabited α] (nodes : List α) (elements : List (List ℕ))
    (selected : List ℕ) (hv : Valid nodes.length elements) :
    let sel := (nodes.zipIdx.filter fun p => decide (p.2 ∈ selected)).map (·.1)
    let oth := (nodes.zipIdx.filter fun p => decide (p.2 ∉ selected)).map (·.1)
    (reorderNumba nodes elements selected true).1 = sel ++ oth.reverse ∧
      (reorderNumba nodes elements selected false).1 = oth ++ sel.reverse := by
  intro sel oth
  rw [reorderNumba_eq nodes elements selected true hv,
    reorderNumba_eq nodes elements selected false hv]
  have e1 : ∀ v : ℕ, goesFront selected true v = decide (v ∈ selected) := by
    intro v; simp [goesFront]
  have e2 : ∀ v : ℕ, goesFront selected false v = decide (v ∉ selected) := by
    intro v; simp [goesFront]
  constructor
  · simp [arrange, pick, e1, sel, oth]
  · simp [arrange, pick, e2, sel, oth]

example : Valid 4 [[0, 1, 2], [3, 2, 1]] ∧
    reorderNumba ['a', 'b', 'c', 'd'] [[0, 1, 2], [3, 2, 1]] [1, 3] true =
      (['b', 'd', 'c', 'a'], [[3, 0, 2], [1, 2, 0]], 2) := by
  constructor
  · unfold Valid; decide
  · decide

/-! ### C05: node layout -/

section
variable {α : Type} [Inhabited α] (mean : List α → α) (k : ℕ) (nodes : List α)
  (elements : List (List ℕ)) (isContact isDirichlet : α → Bool)

theorem identify_stage (hv : Valid nodes.length elements) (hk : ∀ e ∈ elements, e.length = k) :
    let m := identifyBoundaries mean nodes elements isContact isDirichlet
    ∃ π, Stage nodes elements m.nodes m.elements (layout nodes.length (onBoundary elements)
      (holdsAt nodes isContact) (holdsAt nodes isDirichlet)) π := by
  obtain ⟨⟨π, h⟩, _⟩ := reorderBoundaryNodes_stage k nodes elements hv hk isContact isDirichlet
  exact ⟨π, h.sort⟩

/-- C05. After construction the groups appear in the order contact, Neumann, internal, Dirichlet,
where group membership is decided in the constructed mesh itself. -/
theorem C05_layout_sorted (hv : Valid nodes.length elements)
    (hk : ∀ e ∈ elements, e.length = k) :
    let m := identifyBoundaries mean nodes elements isContact isDirichlet
    ∀ v w, v ≤ w → w < m.nodes.length →
      groupRank m.nodes m.elements isContact isDirichlet v ≤
        groupRank m.nodes m.elements isContact isDirichlet w := by
  intro m v w hvw hw
  obtain ⟨π, h⟩ := identify_stage mean k nodes elements isContact isDirichlet hv hk
  have hlen := h.nodes_length
  have e := groupRank_stage h isContact isDirichlet
  rw [layout_ranks] at e
  have hsorted : ((List.range nodes.length).map
      (groupRank m.nodes m.elements isContact isDirichlet)).Pairwise (· ≤ ·) := by
    rw [e]
    simp only [List.pairwise_append, List.pairwise_replicate, List.mem_append, List.mem_replicate]
    refine ⟨⟨⟨by simp, by simp, ?_⟩, by simp, ?_⟩, by simp, ?_⟩ <;>
      (intro a ha b hb; omega)
  rcases Nat.eq_or_lt_of_le hvw with rfl | hlt
  · exact le_rfl
  · have hw' : w < nodes.length := by rw [← hlen]; exact hw
    have := List.pairwise_iff_getElem.1 hsorted v w (by simp; omega) (by simpa using hw') hlt
    simpa using this

/-- C05. The constructed mesh is a renumbering of the given one: the nodes are a rearrangement
(given explicitly by `layout`), and every element has the same vertices up to their order. -/
theorem C05_layout_renumbering (hv : Valid nodes.length elements)
    (hk : ∀ e ∈ elements, e.length = k) :
    let m := identifyBoundaries mean nodes elements isContact isDirichlet
    let L := layout nodes.length (onBoundary elements) (holdsAt nodes isContact)
      (holdsAt nodes isDirichlet)
    L.Perm (List.range nodes.length) ∧ m.nodes.map some = L.map (nodes[·]?) ∧
      List.Forall₂ (fun a b : List (Option α) => a.Perm b) (geometry m.nodes m.elements)
        (geometry nodes elements) ∧ Valid m.nodes.length m.elements := by
  intro m L
  obtain ⟨π, h⟩ := identify_stage mean k nodes elements isContact isDirichlet hv hk
  refine ⟨h.perm, h.nodes_eq, h.geometry hv, ?_⟩
  rw [h.nodes_length]; exact h.valid hv

/-! ### C06: counts and ranges -/

theorem counts_aux (hv : Valid nodes.length elements) (hk : ∀ e ∈ elements, e.length = k) :
    let m := identifyBoundaries mean nodes elements isContact isDirichlet
    let b := onBoundary elements
    let c := holdsAt nodes isContact
    let d := holdsAt nodes isDirichlet
    let R := List.range nodes.length
    m.nodes.length = nodes.length ∧
    m.contactCount = R.countP (fun v => b v && c v) ∧
    m.dirichletCount = R.countP (fun v => b v && d v) ∧
    m.neumannCount = (R.countP b : ℤ) - R.countP (fun v => b v && c v) -
      R.countP (fun v => b v && d v) ∧
    m.contactRange = (0, m.contactCount) ∧
    m.neumannRange = (m.contactCount, m.contactCount + m.neumannCount) ∧
    m.dirichletRange = ((m.nodes.length : ℤ) - m.dirichletCount, (m.nodes.length : ℤ)) := by
  intro m b c d R
  obtain ⟨⟨π, h⟩, h1, h2, h3⟩ :=
    reorderBoundaryNodes_stage k nodes elements hv hk isContact isDirichlet
  refine ⟨h.nodes_length, ?_, ?_, ?_, rfl, rfl, rfl⟩
  · show ((_ : ℕ) : ℤ) = _; exact congrArg _ h2
  · show ((_ : ℕ) : ℤ) = _; exact congrArg _ h3
  · simp only [m, identifyBoundaries]; rw [h1, h2, h3]

/-- C06, Dirichlet part, without any restriction: the Dirichlet range selects exactly the boundary
nodes which satisfy the Dirichlet predicate, and the count is its length. -/
theorem C06_dirichlet_range (hv : Valid nodes.length elements)
    (hk : ∀ e ∈ elements, e.length = k) :
    let m := identifyBoundaries mean nodes elements isContact isDirichlet
    (∀ w < m.nodes.length, (m.dirichletRange.1 ≤ (w : ℤ) ∧ (w : ℤ) < m.dirichletRange.2) ↔
      (BoundaryNode m.elements w ∧ holdsAt m.nodes isDirichlet w = true)) ∧
    m.dirichletCount = m.dirichletRange.2 - m.dirichletRange.1 := by
  intro m
  obtain ⟨π, h⟩ := identify_stage mean k nodes elements isContact isDirichlet hv hk
  obtain ⟨a1, a2, a3, a4, a5, a6, a7⟩ :=
    counts_aux mean k nodes elements isContact isDirichlet hv hk
  refine ⟨?_, by rw [a7]; ring⟩
  intro w hw
  have hw' : w < nodes.length := by rw [← a1]; exact hw
  have hlen := group_sizes nodes elements isContact isDirichlet
  have hrank := rank_at h w hw'
  simp only at hlen hrank
  have hg : (BoundaryNode m.elements w ∧ holdsAt m.nodes isDirichlet w = true) ↔
      groupRank m.nodes m.elements isContact isDirichlet w = 3 := by
    have : BoundaryNode m.elements w ↔ onBoundary m.elements w = true := by simp [onBoundary]
    rw [this]; unfold groupRank
    cases onBoundary m.elements w <;> cases holdsAt m.nodes isContact w <;>
      cases holdsAt m.nodes isDirichlet w <;> simp
  rw [hg, a7, a3, a1, hrank]
  simp only
  constructor
  · rintro ⟨h1, h2⟩
    split_ifs <;> first | rfl | (exfalso; omega)
  · intro h3
    split_ifs at h3 <;> first | (constructor <;> omega) | (exfalso; omega)

/-- C06 (partial: the full statement drops `hdisj`; it is then false, see
`C06_contact_range_overlap_wrong`). If no boundary node satisfies both predicates then the contact
and Neumann ranges select exactly the contact and Neumann nodes. -/
theorem C06_ranges_partial (hv : Valid nodes.length elements)
    (hk : ∀ e ∈ elements, e.length = k)
    (hdisj : ∀ v, BoundaryNode elements v →
      ¬ (holdsAt nodes isContact v = true ∧ holdsAt nodes isDirichlet v = true)) :
    let m := identifyBoundaries mean nodes elements isContact isDirichlet
    (∀ w < m.nodes.length, (m.contactRange.1 ≤ (w : ℤ) ∧ (w : ℤ) < m.contactRange.2) ↔
      (BoundaryNode m.elements w ∧ holdsAt m.nodes isContact w = true)) ∧
    (∀ w < m.nodes.length, (m.neumannRange.1 ≤ (w : ℤ) ∧ (w : ℤ) < m.neumannRange.2) ↔
      (BoundaryNode m.elements w ∧ holdsAt m.nodes isContact w = false ∧
        holdsAt m.nodes isDirichlet w = false)) ∧
    m.contactCount = m.contactRange.2 - m.contactRange.1 ∧
    m.neumannCount = m.neumannRange.2 - m.neumannRange.1 ∧ 0 ≤ m.neumannCount := by
  intro m
  obtain ⟨π, h⟩ := identify_stage mean k nodes elements isContact isDirichlet hv hk
  obtain ⟨a1, a2, a3, a4, a5, a6, a7⟩ :=
    counts_aux mean k nodes elements isContact isDirichlet hv hk
  set b := onBoundary elements with hb
  set c := holdsAt nodes isContact with hc
  set d := holdsAt nodes isDirichlet with hd
  have hex : ∀ v, (b v && c v && d v) = false := by
    intro v
    cases h1 : b v
    · rfl
    · cases h2 : c v
      · rfl
      · cases h3 : d v
        · rfl
        · exact absurd ⟨h2, h3⟩ (hdisj v (of_decide_eq_true h1))
  -- counts of the groups
  have eA : (List.range nodes.length).countP (fun v => b v && c v) =
      (List.range nodes.length).countP (fun v => b v && c v && !d v) := by
    apply List.countP_congr; intro v _; have := hex v
    revert this; cases b v <;> cases c v <;> cases d v <;> simp
  have eN : (List.range nodes.length).countP b =
      (List.range nodes.length).countP (fun v => b v && c v && !d v) +
      (List.range nodes.length).countP (fun v => b v && !c v && !d v) +
      (List.range nodes.length).countP (fun v => b v && d v) := by
    clear eA a2 a3 a4
    induction (List.range nodes.length) with
    | nil => rfl
    | cons x l ih =>
      simp only [List.countP_cons, ih]
      have := hex x
      revert this
      cases b x <;> cases c x <;> cases d x <;> simp <;> omega
  refine ⟨?_, ?_, by rw [a5]; ring, by rw [a6]; ring, by rw [a4, eA, eN]; push_cast; omega⟩ <;>
  · intro w hw
    have hw' : w < nodes.length := by rw [← a1]; exact hw
    have hlen := group_sizes nodes elements isContact isDirichlet
    have hrank := rank_at h w hw'
    simp only [← hb, ← hc, ← hd] at hlen hrank
    obtain ⟨v, hvlt, _, hLv⟩ := h.surj hw'
    obtain ⟨f1, f2⟩ := h.flags w v hw' hLv
    have hexw : (onBoundary m.elements w && holdsAt m.nodes isContact w &&
        holdsAt m.nodes isDirichlet w) = false := by
      rw [f1, f2, f2]; exact hex v
    have hg0 : (BoundaryNode m.elements w ∧ holdsAt m.nodes isContact w = true) ↔
        groupRank m.nodes m.elements isContact isDirichlet w = 0 := by
      have : BoundaryNode m.elements w ↔ onBoundary m.elements w = true := by simp [onBoundary]
      rw [this]; unfold groupRank
      revert hexw
      cases onBoundary m.elements w <;> cases holdsAt m.nodes isContact w <;>
        cases holdsAt m.nodes isDirichlet w <;> simp
    have hg1 : (BoundaryNode m.elements w ∧ holdsAt m.nodes isContact w = false ∧
        holdsAt m.nodes isDirichlet w = false) ↔
        groupRank m.nodes m.elements isContact isDirichlet w = 1 := by
      have : BoundaryNode m.elements w ↔ onBoundary m.elements w = true := by simp [onBoundary]
      rw [this]; unfold groupRank
      cases onBoundary m.elements w <;> cases holdsAt m.nodes isContact w <;>
        cases holdsAt m.nodes isDirichlet w <;> simp
    first
    | rw [hg0, a5, a2, eA, hrank]
      simp only
      constructor
      · rintro ⟨h1, h2⟩
        split_ifs <;> first | rfl | (exfalso; omega)
      · intro h3
        split_ifs at h3 <;> first | (constructor <;> omega) | (exfalso; omega)
    | rw [hg1, a6, a4, a2, eA, eN, hrank]
      simp only
      push_cast
      constructor
      · rintro ⟨h1, h2⟩
        split_ifs <;> first | rfl | (exfalso; omega)
      · intro h3
        split_ifs at h3 <;> first | (constructor <;> omega) | (exfalso; omega)

end

/-- The mesh of the unit test `test_condition_boundaries`: a square cut into four triangles by its
centre; contact below (`y = 0`), Dirichlet on the left (`x = 0`); the corner is both. -/
def squareNodes : List (ℤ × ℤ) := [(1, 1), (0, 0), (0, 2), (2, 2), (2, 0)]
def squareElements : List (List ℕ) := [[1, 2, 0], [2, 3, 0], [3, 4, 0], [4, 1, 0]]
/-- Doubled barycentre of an edge is enough for predicates that compare with `0`. -/
def sumPoints (l : List (ℤ × ℤ)) : ℤ × ℤ := (l.map (·.1) |>.sum, l.map (·.2) |>.sum)

-- the hypotheses of C05, C06 hold for this mesh, also the disjointness for non-touching predicates
example : Valid squareNodes.length squareElements ∧ (∀ e ∈ squareElements, e.length = 3) ∧
    (∀ v < 5, BoundaryNode squareElements v →
      ¬ (holdsAt squareNodes (fun p => p.1 == 2) v = true ∧
        holdsAt squareNodes (fun p => p.1 == 0) v = true)) := by
  unfold Valid; decide +kernel

example : (identifyBoundaries sumPoints squareNodes squareElements (fun p => p.2 == 0)
    (fun p => p.1 == 0)).nodes = [(2, 0), (2, 2), (1, 1), (0, 2), (0, 0)] := by decide +kernel

/-- C06, negation of the full statement: with a node that satisfies both predicates the contact range
contains a node which is not a contact node, and the Neumann range misses a Neumann node. -/
theorem C06_contact_range_overlap_wrong :
    let m := identifyBoundaries sumPoints squareNodes squareElements (fun p => p.2 == 0)
      (fun p => p.1 == 0)
    ∃ w < m.nodes.length, (m.contactRange.1 ≤ (w : ℤ) ∧ (w : ℤ) < m.contactRange.2) ∧
      ¬ (m.neumannRange.1 ≤ (w : ℤ) ∧ (w : ℤ) < m.neumannRange.2) ∧
      BoundaryNode m.elements w ∧
      holdsAt m.nodes (fun p => p.2 == 0) w = false ∧
      holdsAt m.nodes (fun p => p.1 == 0) w = false := by
  refine ⟨1, ?_⟩
  decide +kernel

/-! ### C07: boundary surfaces -/

/-- C07. The boundary surfaces are exactly the faces of exactly one element (as sorted lists). -/
theorem C07_boundary_surfaces_exact (k : ℕ) (elements : List (List ℕ))
    (hk : ∀ e ∈ elements, e.length = k) (f : List ℕ) :
    f ∈ (getBoundarySurfaces elements).1 ↔
      f.Pairwise (· ≤ ·) ∧ BoundaryFace elements (f : Multiset ℕ) :=
  mem_boundarySurfaces k elements hk f

/-- C07. Each boundary surface is listed once, in lexicographic order. -/
theorem C07_boundary_surfaces_nodup (elements : List (List ℕ)) :
    (getBoundarySurfaces elements).1.Nodup ∧
      (getBoundarySurfaces elements).1.Pairwise (fun a b => List.le a b) := by
  unfold getBoundarySurfaces
  simp only [extractUniqueElements_fst]
  exact ⟨(nodup_uniqueRows _).filter _, (sorted_uniqueRows _).filter _⟩

/-- C07. The `i`-th interior vertex completes the `i`-th surface to the only element it belongs
to. -/
theorem C07_interior_vertex (k : ℕ) (elements : List (List ℕ))
    (hk : ∀ e ∈ elements, e.length = k) :
    let g := getBoundarySurfaces elements
    g.1.length = g.2.1.length ∧ ∀ i (h1 : i < g.1.length) (h2 : i < g.2.1.length),
      ∃ e ∈ elements, (e : Multiset ℕ) = g.2.1[i] ::ₘ (g.1[i] : Multiset ℕ) := by
  intro g
  have hks := length_map_sortRow hk
  refine ⟨by simp [g, getBoundarySurfaces, extractUniqueElements], ?_⟩
  intro i h1 h2
  set S := identifySurfaces (elements.map sortRow) with hS
  set I := ((uniqueRows S.1).filter fun r => S.1.count r == 1).map S.1.idxOf with hI
  have e1 : g.1 = I.map fun i => S.1.getD i [] := rfl
  have e2 : g.2.1 = I.map fun i => S.2.getD i 0 := rfl
  have hiI : i < I.length := by rw [e1] at h1; simpa using h1
  have hmem : I[i] ∈ I := List.getElem_mem hiI
  have hlt : I[i] < S.1.length := by
    generalize I[i] = x at hmem
    rw [hI] at hmem
    obtain ⟨r, hr, rfl⟩ := List.mem_map.1 hmem
    exact List.idxOf_lt_length_of_mem ((mem_uniqueRows _ _).1 (List.mem_filter.1 hr).1)
  obtain ⟨e, he, heq⟩ := identifySurfaces_pair k _ hks I[i] hlt
  obtain ⟨a, ha, rfl⟩ := List.mem_map.1 he
  refine ⟨a, ha, ?_⟩
  have g1 : g.1[i] = S.1.getD I[i] [] := by
    have : g.1[i]? = (I.map fun i => S.1.getD i [])[i]? := by rw [e1]
    rw [List.getElem?_eq_getElem h1, List.getElem?_map, List.getElem?_eq_getElem hiI] at this
    simpa using this
  have g2 : g.2.1[i] = S.2.getD I[i] 0 := by
    have : g.2.1[i]? = (I.map fun i => S.2.getD i 0)[i]? := by rw [e2]
    rw [List.getElem?_eq_getElem h2, List.getElem?_map, List.getElem?_eq_getElem hiI] at this
    simpa using this
  rw [g1, g2, ← heq, Multiset.coe_eq_coe]
  exact (sortRow_perm a).symm

/-- C07. The boundary nodes are exactly the nodes of boundary faces, listed in increasing order. -/
theorem C07_boundary_nodes_exact (k : ℕ) (elements : List (List ℕ))
    (hk : ∀ e ∈ elements, e.length = k) :
    (∀ v, v ∈ (getBoundarySurfaces elements).2.2.1 ↔ BoundaryNode elements v) ∧
      (getBoundarySurfaces elements).2.2.1.Pairwise (· < ·) :=
  ⟨mem_boundaryIndices k elements hk, sorted_uniqueNats _⟩

example : (∀ e ∈ squareElements, e.length = 3) ∧
    getBoundarySurfaces squareElements =
      ([[1, 2], [1, 4], [2, 3], [3, 4]], [0, 0, 0, 0], [1, 2, 3, 4],
        [[0, 1, 2], [0, 2, 3], [0, 3, 4], [0, 1, 4]]) := by decide +kernel

/-! ### C08: classification of the boundary surfaces -/

section
variable {α : Type} [Inhabited α] (mean : List α → α) (nodes : List α)
  (elements : List (List ℕ)) (isContact isDirichlet : α → Bool)

/-- C08. A surface is listed under a kind if and only if it is a boundary surface of the constructed
mesh whose barycentre satisfies the predicate of that kind. -/
theorem C08_classification_exact (f : List ℕ) :
    let m := identifyBoundaries mean nodes elements isContact isDirichlet
    let x := mean (f.filterMap (m.nodes[·]?))
    (f ∈ m.contactSurfaces ↔ f ∈ m.boundarySurfaces ∧ isContact x = true) ∧
    (f ∈ m.dirichletSurfaces ↔ f ∈ m.boundarySurfaces ∧ isDirichlet x = true) ∧
    (f ∈ m.neumannSurfaces ↔ f ∈ m.boundarySurfaces ∧ isContact x = false ∧
      isDirichlet x = false) := by
  simp [identifyBoundaries, applyPredicateToSurfaces, List.mem_filter]

/-- C08. The listed boundary surfaces are exactly the faces that belong to exactly one of the
constructed elements; every one has a kind, and the Neumann surfaces are the ones with no other
kind. -/
theorem C08_classification_total (k : ℕ) (hv : Valid nodes.length elements)
    (hk : ∀ e ∈ elements, e.length = k) (f : List ℕ) :
    let m := identifyBoundaries mean nodes elements isContact isDirichlet
    (f ∈ m.boundarySurfaces ↔ f.Pairwise (· ≤ ·) ∧ BoundaryFace m.elements (f : Multiset ℕ)) ∧
    (f ∈ m.boundarySurfaces ↔ f ∈ m.contactSurfaces ∨ f ∈ m.neumannSurfaces ∨
      f ∈ m.dirichletSurfaces) ∧
    ¬ (f ∈ m.neumannSurfaces ∧ (f ∈ m.contactSurfaces ∨ f ∈ m.dirichletSurfaces)) := by
  intro m
  obtain ⟨h1, h2, h3⟩ := C08_classification_exact mean nodes elements isContact isDirichlet f
  have hm : identifyBoundaries mean nodes elements isContact isDirichlet = m := rfl
  rw [hm] at h1 h2 h3
  obtain ⟨⟨π, h⟩, _⟩ := reorderBoundaryNodes_stage k nodes elements hv hk isContact isDirichlet
  refine ⟨?_, ?_, ?_⟩
  · have hk' := h.rowlen hk
    have e0 : m.boundarySurfaces = (getBoundarySurfaces
      (reorderBoundaryNodes nodes elements isContact isDirichlet).elements).1 := by
      simp only [m, identifyBoundaries]
    rw [e0, mem_boundarySurfaces k _ hk' f]
    unfold BoundaryFace
    have e : m.elements = (reorderBoundaryNodes nodes elements isContact isDirichlet).elements.map
      sortRow := by
      simp only [m, identifyBoundaries, getBoundarySurfaces]
    rw [e, faces_congr (forall₂_sortRow _)]
  · rw [h1, h2, h3]
    generalize mean (f.filterMap (m.nodes[·]?)) = x
    cases isContact x <;> cases isDirichlet x <;> simp
  · rw [h1, h2, h3]
    generalize mean (f.filterMap (m.nodes[·]?)) = x
    cases isContact x <;> cases isDirichlet x <;> simp

/-- C08. A boundary of the user's own is registered if and only if its predicate holds at the
barycentre of some boundary surface; its surfaces are all of these, and its nodes, in increasing order,
are the nodes of these. -/
theorem C08_own_boundary (k : ℕ) (hk2 : 2 ≤ k) (hv : Valid nodes.length elements)
    (hk : ∀ e ∈ elements, e.length = k) (indicator : α → Bool) :
    let m := identifyBoundaries mean nodes elements isContact isDirichlet
    let selected := fun f => f ∈ m.boundarySurfaces ∧
      indicator (mean (f.filterMap (m.nodes[·]?))) = true
    ((otherBoundary mean m.boundarySurfaces m.nodes indicator).isSome ↔ ∃ f, selected f) ∧
    ∀ S I, otherBoundary mean m.boundarySurfaces m.nodes indicator = some (S, I) →
      (∀ f, f ∈ S ↔ selected f) ∧ (∀ v, v ∈ I ↔ ∃ f, selected f ∧ v ∈ f) ∧ I.Pairwise (· < ·) := by
  intro m selected
  have hmem : ∀ f, f ∈ applyPredicateToSurfaces mean m.boundarySurfaces m.nodes indicator ↔
      selected f := fun f => by simp [applyPredicateToSurfaces, selected, List.mem_filter]
  have hne : ∀ f ∈ m.boundarySurfaces, f ≠ [] := by
    intro f hf
    have h1 := ((C08_classification_total mean nodes elements isContact isDirichlet k hv hk f).1.mp
      hf).2
    obtain ⟨π, h⟩ := identify_stage mean k nodes elements isContact isDirichlet hv hk
    have hl := h.rowlen hk
    rintro rfl
    unfold BoundaryFace at h1
    have h2 : ((([] : List ℕ) : Multiset ℕ)) ∈ faces m.elements :=
      Multiset.count_pos.mp (by rw [h1]; exact Nat.one_pos)
    simp only [faces, Multiset.mem_bind, Multiset.mem_map, Multiset.mem_coe] at h2
    obtain ⟨e, he, v, hve, h3⟩ := h2
    have h4 := congrArg Multiset.card h3
    rw [Multiset.card_erase_of_mem (by simpa using hve)] at h4
    simp only [Multiset.coe_card, hl e he, List.length_nil, Nat.pred_eq_sub_one] at h4
    omega
  have hnil : uniqueNats (applyPredicateToSurfaces mean m.boundarySurfaces m.nodes indicator).flatten
      = [] ↔ ¬ ∃ f, selected f := by
    constructor
    · rintro h0 ⟨f, hf⟩
      obtain ⟨v, hv'⟩ := List.exists_mem_of_ne_nil f (hne f hf.1)
      have : v ∈ uniqueNats
          (applyPredicateToSurfaces mean m.boundarySurfaces m.nodes indicator).flatten :=
        (mem_uniqueNats _ _).mpr (List.mem_flatten.mpr ⟨f, (hmem f).mpr hf, hv'⟩)
      rw [h0] at this
      cases this
    · intro hno
      refine List.eq_nil_iff_forall_not_mem.mpr fun v hv' => ?_
      obtain ⟨f, hf, -⟩ := List.mem_flatten.mp ((mem_uniqueNats _ _).mp hv')
      exact hno ⟨f, (hmem f).mp hf⟩
  refine ⟨?_, ?_⟩
  · by_cases hex : ∃ f, selected f
    · have := mt hnil.mp (not_not.mpr hex)
      simp only [otherBoundary, ne_eq, List.length_eq_zero_iff, this, not_false_eq_true, if_true,
        Option.isSome_some, true_iff]
      exact hex
    · have := hnil.mpr hex
      simp only [otherBoundary, this, List.length_nil, ne_eq, not_true_eq_false, if_false,
        Option.isSome_none, Bool.false_eq_true, false_iff]
      exact hex
  · intro S I h
    simp only [otherBoundary] at h
    split_ifs at h with h0
    simp only [Option.some.injEq, Prod.mk.injEq] at h
    obtain ⟨rfl, rfl⟩ := h
    refine ⟨hmem, fun v => ?_, sorted_uniqueNats _⟩
    rw [mem_uniqueNats, List.mem_flatten]
    simp only [hmem]

end

example :
    let m := identifyBoundaries sumPoints squareNodes squareElements (fun p => p.2 == 0)
      (fun p => p.1 == 0)
    m.contactSurfaces = [[0, 4]] ∧ m.dirichletSurfaces = [[3, 4]] ∧
      m.neumannSurfaces = [[0, 1], [1, 3]] ∧
      otherBoundary sumPoints m.boundarySurfaces m.nodes (fun p => p.1 == 4) =
        some ([[0, 1]], [0, 1]) ∧
      otherBoundary sumPoints m.boundarySurfaces m.nodes (fun p => p.1 == 5) = none := by
  decide +kernel

end Conmech
