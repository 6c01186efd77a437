import Mathlib.Data.List.Dedup
import Mathlib.Data.List.Sort
/-
Model of `conmech/mesh/boundaries_factory.py`.

Node rows have an arbitrary type `α`. `Inhabited α` stands for the rows of `np.zeros`. The barycentre
`np.mean(nodes[surface], axis=...)` of a surface is a parameter `mean : List α → α`.
numpy's `np.unique(a, axis=0, return_index=True, return_counts=True)` is modelled by its
documented result (any sorting algorithm gives it): sorted distinct rows, index of the first occurrence, number of occurrences.
-/
namespace Conmech

/-- One row of `elements.sort(axis=1)`, `conmech/mesh/boundaries_factory.py:46`. -/
def sortRow (row : List Nat) : List Nat := row.insertionSort (· ≤ ·)

/-- `identify_surfaces_numba`, `conmech/mesh/boundaries_factory.py:30-42`: for each `j`, for each
element, the row without its `j`-th entry together with that entry. -/
def identifySurfaces (sortedElements : List (List Nat)) : List (List Nat) × List Nat :=
  let elementSize := (sortedElements.headD []).length
  ((List.range elementSize).flatMap fun j =>
      sortedElements.map fun e => e.take j ++ e.drop (j + 1),
    (List.range elementSize).flatMap fun j => sortedElements.map fun e => e.getD j 0)

/-- `np.unique(rows, axis=0)`: the sorted list of distinct rows. -/
def uniqueRows (rows : List (List Nat)) : List (List Nat) :=
  rows.dedup.insertionSort List.le

/-- `np.unique` of a flat array, `conmech/mesh/boundaries_factory.py:57`. -/
def uniqueNats (xs : List Nat) : List Nat :=
  xs.dedup.insertionSort (· ≤ ·)

/-- `extract_unique_indices`, `conmech/mesh/boundaries_factory.py:56-57`. -/
def extractUniqueIndices (surfaces : List (List Nat)) : List Nat := uniqueNats surfaces.flatten

/-- `extract_unique_elements`, `conmech/mesh/boundaries_factory.py:60-63`: rows occurring once, and
the opposing index at the (first) position of the row. -/
def extractUniqueElements (elements : List (List Nat)) (opposing : List Nat) :
    List (List Nat) × List Nat :=
  let indices := ((uniqueRows elements).filter fun r => elements.count r == 1).map elements.idxOf
  (indices.map fun i => elements.getD i [], indices.map fun i => opposing.getD i 0)

/-- `get_boundary_surfaces`, `conmech/mesh/boundaries_factory.py:45-53`. The in-place sort of
`elements` is visible to the caller; the sorted elements are the fourth component here. -/
def getBoundarySurfaces (elements : List (List Nat)) :
    List (List Nat) × List Nat × List Nat × List (List Nat) :=
  let elements := elements.map sortRow
  let s := identifySurfaces elements
  let u := extractUniqueElements s.1 s.2
  (u.1, u.2, extractUniqueIndices u.1, elements)

/-- Assignment to a (numba) array element with a signed index: negative indices wrap around. -/
def setPy {α : Type _} (l : List α) (i : Int) (x : α) : List α :=
  if 0 ≤ i then l.set i.toNat x else l.set (l.length + i).toNat x

/-- Local variables of the loop in `reorder_numba`, `conmech/mesh/boundaries_factory.py:144-150`. -/
structure ReorderState (α : Type _) where
  nodes : List α
  elements : List (List Int)
  selectedIndex : Int
  otherIndex : Int

/-- Loop body, `conmech/mesh/boundaries_factory.py:154-163`. `p` is
`(unordered_nodes[old_index], old_index)`. -/
def reorderStep {α : Type _} (selected : List Nat) (indexChange : Int) (st : ReorderState α)
    (p : α × Nat) : ReorderState α :=
  let isSel := selected.contains p.2
  let newIndex := if isSel then st.selectedIndex else st.otherIndex
  { selectedIndex := if isSel then st.selectedIndex + indexChange else st.selectedIndex
    otherIndex := if isSel then st.otherIndex else st.otherIndex - indexChange
    nodes := setPy st.nodes newIndex p.1
    elements := st.elements.map fun row => row.map fun v =>
      if v = -(p.2 : Int) - 1 then newIndex else v }

/-- `reorder_numba`, `conmech/mesh/boundaries_factory.py:135-165`. -/
def reorderNumba {α : Type _} [Inhabited α] (unorderedNodes : List α)
    (unorderedElements : List (List Nat)) (selected : List Nat) (toTop : Bool) :
    List α × List (List Int) × Nat :=
  let nodesCount := unorderedNodes.length
  let lastIndex : Int := (nodesCount : Int) - 1
  let init : ReorderState α :=
    { nodes := List.replicate nodesCount default
      elements := unorderedElements.map fun row => row.map fun (v : Nat) => -(v : Int) - 1
      selectedIndex := if toTop then 0 else lastIndex
      otherIndex := if toTop then lastIndex else 0 }
  let st := unorderedNodes.zipIdx.foldl (reorderStep selected (if toTop then 1 else -1)) init
  (st.nodes, st.elements, selected.length)

/-- `apply_predicate_to_boundary_nodes`, `conmech/mesh/boundaries_factory.py:128-131`. Returns also
the elements, which were sorted in place. -/
def applyPredicateToBoundaryNodes {α : Type _} (elements : List (List Nat)) (nodes : List α)
    (predicate : α → Bool) : List Nat × List (List Nat) :=
  let b := getBoundarySurfaces elements
  (b.2.2.1.filter fun v => match nodes[v]? with
    | some x => predicate x
    | none => false, b.2.2.2)

/-- `reorder`, `conmech/mesh/boundaries_factory.py:116-125`. The resulting node numbers are
non-negative (proved in `Lemmas`), so that `Int.toNat` does not lose anything. -/
def reorder {α : Type _} [Inhabited α] (nodes : List α) (elements : List (List Nat))
    (predicate : α → Bool) (toTop : Bool) : List α × List (List Nat) × Nat :=
  let s := applyPredicateToBoundaryNodes elements nodes predicate
  let r := reorderNumba nodes s.2 s.1 toTop
  (r.1, r.2.1.map fun row => row.map Int.toNat, r.2.2)

/-- Result of `reorder_boundary_nodes`. -/
structure Reordered (α : Type _) where
  nodes : List α
  elements : List (List Nat)
  boundaryNodesCount : Nat
  contactNodesCount : Nat
  dirichletNodesCount : Nat

/-- `reorder_boundary_nodes`, `conmech/mesh/boundaries_factory.py:71-113`. -/
def reorderBoundaryNodes {α : Type _} [Inhabited α] (nodes : List α) (elements : List (List Nat))
    (isContact isDirichlet : α → Bool) : Reordered α :=
  let r1 := reorder nodes elements (fun _ => true) true
  let r2 := reorder r1.1 r1.2.1 (fun x => !isContact x && !isDirichlet x) false
  let r3 := reorder r2.1 r2.2.1 isContact true
  let r4 := reorder r3.1 r3.2.1 isDirichlet false
  { nodes := r4.1
    elements := r4.2.1
    boundaryNodesCount := r1.2.2
    contactNodesCount := r3.2.2
    dirichletNodesCount := r4.2.2 }

/-- `apply_predicate_to_surfaces`, `conmech/mesh/boundaries_factory.py:66-68`. -/
def applyPredicateToSurfaces {α : Type _} (mean : List α → α) (surfaces : List (List Nat))
    (nodes : List α) (predicate : α → Bool) : List (List Nat) :=
  surfaces.filter fun s => predicate (mean (s.filterMap (nodes[·]?)))

/-- What `identify_boundaries_and_reorder_nodes` computes for the three standard boundaries:
surfaces, and `(start, stop)` of the node ranges, `conmech/mesh/boundaries_factory.py:180-227`.
Counts are integers, as `neumann_nodes_count` is a difference (line 195). -/
structure MeshBoundaries (α : Type _) where
  nodes : List α
  elements : List (List Nat)
  boundarySurfaces : List (List Nat)
  internalIndices : List Nat
  contactSurfaces : List (List Nat)
  neumannSurfaces : List (List Nat)
  dirichletSurfaces : List (List Nat)
  contactCount : Int
  neumannCount : Int
  dirichletCount : Int
  contactRange : Int × Int
  neumannRange : Int × Int
  dirichletRange : Int × Int

/-- `BoundariesFactory.identify_boundaries_and_reorder_nodes`,
`conmech/mesh/boundaries_factory.py:177-253`, without the additional user-named boundaries (lines
229-242, modelled separately in `otherBoundary`). -/
def identifyBoundaries {α : Type _} [Inhabited α] (mean : List α → α) (nodes : List α)
    (elements : List (List Nat)) (isContact isDirichlet : α → Bool) : MeshBoundaries α :=
  let r := reorderBoundaryNodes nodes elements isContact isDirichlet
  let neumannNodesCount : Int :=
    (r.boundaryNodesCount : Int) - r.contactNodesCount - r.dirichletNodesCount
  let b := getBoundarySurfaces r.elements
  { nodes := r.nodes
    elements := b.2.2.2
    boundarySurfaces := b.1
    internalIndices := b.2.1
    contactSurfaces := applyPredicateToSurfaces mean b.1 r.nodes isContact
    dirichletSurfaces := applyPredicateToSurfaces mean b.1 r.nodes isDirichlet
    neumannSurfaces := applyPredicateToSurfaces mean b.1 r.nodes
      (fun x => !isContact x && !isDirichlet x)
    contactCount := r.contactNodesCount
    neumannCount := neumannNodesCount
    dirichletCount := r.dirichletNodesCount
    contactRange := (0, r.contactNodesCount)
    neumannRange := (r.contactNodesCount, r.contactNodesCount + neumannNodesCount)
    dirichletRange := ((r.nodes.length : Int) - r.dirichletNodesCount, r.nodes.length) }

/-- A user-named boundary, `conmech/mesh/boundaries_factory.py:230-242`: its surfaces and its sorted
node numbers; `none` if there is no node (the boundary is then not registered). -/
def otherBoundary {α : Type _} (mean : List α → α) (boundarySurfaces : List (List Nat))
    (nodes : List α) (indicator : α → Bool) : Option (List (List Nat) × List Nat) :=
  let surfaces := applyPredicateToSurfaces mean boundarySurfaces nodes indicator
  let nodeIndices := uniqueNats surfaces.flatten
  if nodeIndices.length ≠ 0 then some (surfaces, nodeIndices) else none

end Conmech
