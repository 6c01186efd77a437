import Verif.Spec.CrossBoundary
import Verif.Lemmas.CrossBoundary
import Verif.Props.MeshZoo
import Verif.Props.Boundary
import Verif.Props.Mesh
import Verif.Props.Patch
/-!
C87: the boundary nodes of generated meshes are the nodes on the boundary of the rectangle; C86 on
generated meshes.
-/
namespace Conmech
open Spec

section
variable {K : Type} [Field K] [LinearOrder K] [IsStrictOrderedRing K]

theorem onBorder_iff {sx sy : ℕ} {ex ey : K} (hex : 0 < ex) (hey : 0 < ey) (h : ℕ × ℕ) :
    OnBorder sx sy h ↔ OnRectangle (sx * ex) (sy * ey) (halfPoint ex ey h) := by
  have z : ∀ (a : ℕ) (e : K), 0 < e → ((a : K) / 2 * e = 0 ↔ a = 0) := by
    intro a e he
    rw [mul_eq_zero, div_eq_zero_iff]
    simp [he.ne']
  have l : ∀ (a s : ℕ) (e : K), 0 < e → ((a : K) / 2 * e = s * e ↔ a = 2 * s) := by
    intro a s e he
    rw [mul_left_inj' he.ne', div_eq_iff (by norm_num : (2 : K) ≠ 0)]
    constructor
    · intro h
      have : ((a : ℕ) : K) = ((2 * s : ℕ) : K) := by push_cast; linarith
      exact_mod_cast this
    · rintro rfl; push_cast; ring
  simp only [OnBorder, OnRectangle, halfPoint, z _ _ hex, z _ _ hey, l _ _ _ hex, l _ _ _ hey]

/-- What a cross mesh is made of. -/
theorem crossMesh_data [FloorSemiring K] {perimeter width height : K} (hp : 0 < perimeter)
    (hw : 0 < width) (hh : 0 < height) (htol : 1 / 10000 ≤ perimeter / 2)
    (hw' : 1 / 10000 ≤ width) (hh' : 1 / 10000 ≤ height) {nodes : List (K × K)}
    {elements : List (ℕ × ℕ × ℕ)} (hm : crossMesh perimeter width height = some (nodes, elements)) :
    ∃ (sx sy : ℕ) (ex ey : K), 1 ≤ sx ∧ 1 ≤ sy ∧ 0 < ex ∧ 0 < ey ∧ sx * ex = width ∧ sy * ey = height ∧
      nodes = (halfWrites sx sy).map (halfPoint ex ey) ∧
      elementRows elements = (triangleNumbers sx sy).map (rowOf sx sy) ∧
      List.Forall₂ (Spec.HasCorners nodes) elements (crossTriangles sx sy ex ey) := by
  obtain ⟨w1, w2⟩ := crossSize_tolerance hp hw htol hw'
  obtain ⟨h1, h2⟩ := crossSize_tolerance hp hh htol hh'
  have hsx := crossSize_pos hw hp
  have hsy := crossSize_pos hh hp
  refine ⟨crossSize width perimeter, crossSize height perimeter, _, _, hsx, hsy,
    (crossSize_edge hw hp).1, (crossSize_edge hh hp).1, w2, h2, ?_⟩
  obtain ⟨es, g1, g2⟩ := crossElements_corners (sx := crossSize width perimeter)
    (sy := crossSize height perimeter) w1 h1
  simp only [crossMesh, g1, Option.bind_eq_bind, Option.bind_some, Option.some.injEq,
    Prod.mk.injEq] at hm
  obtain ⟨rfl, rfl⟩ := hm
  exact ⟨crossNodes_eq hsx hsy _ _, crossElements_rows hsx hsy w1 h1 g1, g2⟩

theorem getElem?_halfPoint {sx sy : ℕ} (hx : 1 ≤ sx) (hy : 1 ≤ sy) {ex ey : K} {k : ℕ} {p : K × K}
    (hk : ((halfWrites sx sy).map (halfPoint ex ey))[k]? = some p) :
    ∃ h, OnGrid sx sy h ∧ halfIndex sx sy h = k ∧ halfPoint ex ey h = p := by
  rw [List.getElem?_map, Option.map_eq_some_iff] at hk
  obtain ⟨h, hk, hp⟩ := hk
  refine ⟨h, (mem_halfWrites hx hy h).1 (List.mem_of_getElem? hk), ?_, hp⟩
  obtain ⟨hlt, rfl⟩ := List.getElem?_eq_some_iff.1 hk
  exact (nodup_halfWrites hx hy).idxOf_getElem k hlt

/-- C87: a node of a generated mesh belongs to a boundary face exactly if it lies on the boundary of the
rectangle, and the code's search for boundary nodes finds exactly these. Missing for the full property:
cells shorter than the tolerance of the search for nodes (see C52). -/
theorem C87_nodes_partial [FloorSemiring K] {perimeter width height : K} (hp : 0 < perimeter)
    (hw : 0 < width) (hh : 0 < height) (htol : 1 / 10000 ≤ perimeter / 2)
    (hw' : 1 / 10000 ≤ width) (hh' : 1 / 10000 ≤ height) {nodes : List (K × K)}
    {elements : List (ℕ × ℕ × ℕ)} (hm : crossMesh perimeter width height = some (nodes, elements))
    (k : ℕ) (p : K × K) (hk : nodes[k]? = some p) :
    (BoundaryNode (elementRows elements) k ↔ OnRectangle width height p) ∧
    (k ∈ (getBoundarySurfaces (elementRows elements)).2.2.1 ↔ OnRectangle width height p) := by
  obtain ⟨sx, sy, ex, ey, hsx, hsy, hex, hey, rfl, rfl, rfl, hrows, -⟩ :=
    crossMesh_data hp hw hh htol hw' hh' hm
  obtain ⟨h, hg, rfl, rfl⟩ := getElem?_halfPoint hsx hsy hk
  have key : BoundaryNode (elementRows elements) (halfIndex sx sy h) ↔
      OnRectangle (sx * ex) (sy * ey) (halfPoint ex ey h) := by
    rw [hrows, boundaryNode_cross hsx hsy hg, onBorder_iff hex hey]
  refine ⟨key, ?_⟩
  rw [(C07_boundary_nodes_exact 3 (elementRows elements) (by
    intro e he
    obtain ⟨t, -, rfl⟩ := List.mem_map.1 he
    rfl)).1, key]

theorem valid_crossMesh [FloorSemiring K] {perimeter width height : K} (hp : 0 < perimeter)
    (hw : 0 < width) (hh : 0 < height) (htol : 1 / 10000 ≤ perimeter / 2)
    (hw' : 1 / 10000 ≤ width) (hh' : 1 / 10000 ≤ height) {nodes : List (K × K)}
    {elements : List (ℕ × ℕ × ℕ)} (hm : crossMesh perimeter width height = some (nodes, elements)) :
    ValidElements 2 nodes.length (elementRows elements) := by
  obtain ⟨sx, sy, ex, ey, hsx, hsy, hex, hey, rfl, rfl, rfl, hrows, hc⟩ :=
    crossMesh_data hp hw hh htol hw' hh' hm
  intro row hrow
  obtain ⟨e, he, rfl⟩ := List.mem_map.1 hrow
  refine ⟨rfl, ?_⟩
  obtain ⟨t, -, c1, c2, c3⟩ := forall₂_left hc e he
  have hlt : ∀ {k : ℕ} {p : K × K}, ((halfWrites sx sy).map (halfPoint ex ey))[k]? = some p →
      k < ((halfWrites sx sy).map (halfPoint ex ey)).length := fun h =>
    (List.getElem?_eq_some_iff.1 h).1
  intro v hv
  simp only [List.mem_cons, List.not_mem_nil, or_false] at hv
  rcases hv with rfl | rfl | rfl
  · exact hlt c1
  · exact hlt c2
  · exact hlt c3

/-- C87: every node of a generated mesh belongs to an element, so the removal of unconnected nodes
keeps the mesh as it is. -/
theorem C87_connected_partial [FloorSemiring K] {perimeter width height : K} (hp : 0 < perimeter)
    (hw : 0 < width) (hh : 0 < height) (htol : 1 / 10000 ≤ perimeter / 2)
    (hw' : 1 / 10000 ≤ width) (hh' : 1 / 10000 ≤ height) {nodes : List (K × K)}
    {elements : List (ℕ × ℕ × ℕ)} (hm : crossMesh perimeter width height = some (nodes, elements)) :
    (∀ v < nodes.length, Used (elementRows elements) v) ∧
    removeUnconnected nodes (elementRows elements) = (nodes, elementRows elements) := by
  have key : ∀ v < nodes.length, Used (elementRows elements) v := by
    obtain ⟨sx, sy, ex, ey, hsx, hsy, hex, hey, rfl, rfl, rfl, hrows, hc⟩ :=
      crossMesh_data hp hw hh htol hw' hh' hm
    intro v hv
    obtain ⟨h, hg, rfl, -⟩ := getElem?_halfPoint hsx hsy (List.getElem?_eq_getElem hv)
    rw [hrows]
    obtain ⟨a, b⟩ := h
    obtain ⟨h1, h2, h3⟩ := hg
    simp only at h1 h2 h3
    have find : ∀ i j n, i < sx → j < sy → n < 4 →
        ((a, b) = (halfRow i j n).1 ∨ (a, b) = (halfRow i j n).2.1 ∨ (a, b) = (halfRow i j n).2.2) →
        Used ((triangleNumbers sx sy).map (rowOf sx sy)) (halfIndex sx sy (a, b)) := by
      intro i j n hi hj hn hc
      refine ⟨_, List.mem_map_of_mem ((mem_triangleNumbers ((i, j), n)).2 ⟨hi, hj, hn⟩), ?_⟩
      rcases hc with hc | hc | hc <;> rw [hc] <;> simp [rowOf]
    by_cases hodd : a % 2 = 1
    · refine find (a / 2) (b / 2) 0 (by omega) (by omega) (by omega) (Or.inr (Or.inr ?_))
      simp only [halfRow, Prod.mk.injEq]; omega
    · by_cases ha : a = 2 * sx
      · by_cases hb : b = 2 * sy
        · refine find (sx - 1) (sy - 1) 2 (by omega) (by omega) (by omega) (Or.inl ?_)
          simp only [halfRow, Prod.mk.injEq]; omega
        · refine find (sx - 1) (b / 2) 1 (by omega) (by omega) (by omega) (Or.inl ?_)
          simp only [halfRow, Prod.mk.injEq]; omega
      · by_cases hb : b = 2 * sy
        · refine find (a / 2) (sy - 1) 3 (by omega) (by omega) (by omega) (Or.inl ?_)
          simp only [halfRow, Prod.mk.injEq]; omega
        · refine find (a / 2) (b / 2) 0 (by omega) (by omega) (by omega) (Or.inl ?_)
          simp only [halfRow, Prod.mk.injEq]; omega
  exact ⟨key, C02_remove_unconnected_clean _ _ key⟩

/-- C87: after the renumbering by the mesh constructor, the nodes with imposed values are exactly the
nodes on the boundary of the rectangle at which the Dirichlet predicate holds. -/
theorem C87_dirichlet_partial [FloorSemiring K] [Inhabited (K × K)] {perimeter width height : K} (hp : 0 < perimeter)
    (hw : 0 < width) (hh : 0 < height) (htol : 1 / 10000 ≤ perimeter / 2)
    (hw' : 1 / 10000 ≤ width) (hh' : 1 / 10000 ≤ height) {nodes : List (K × K)}
    {elements : List (ℕ × ℕ × ℕ)} (hm : crossMesh perimeter width height = some (nodes, elements))
    (mean : List (K × K) → K × K) (isContact isDirichlet : K × K → Bool) :
    let m := identifyBoundaries mean nodes (elementRows elements) isContact isDirichlet
    m.nodes.Perm nodes ∧ ∀ (w : ℕ) (p : K × K), m.nodes[w]? = some p →
      (BoundaryNode m.elements w ↔ OnRectangle width height p) ∧
      ((m.dirichletRange.1 ≤ (w : ℤ) ∧ (w : ℤ) < m.dirichletRange.2) ↔
        OnRectangle width height p ∧ isDirichlet p = true) := by
  intro m
  have hval := valid_crossMesh hp hw hh htol hw' hh' hm
  have hv : Valid nodes.length (elementRows elements) := fun row h v hv => (hval row h).2 v hv
  have hk : ∀ e ∈ elementRows elements, e.length = 3 := fun row h => (hval row h).1
  obtain ⟨π, h⟩ := identify_stage mean 3 nodes (elementRows elements) isContact isDirichlet hv hk
  refine ⟨?_, fun w p hwp => ?_⟩
  · have h1 : (m.nodes.map some).Perm (nodes.map some) := by
      rw [h.nodes_eq]
      refine (h.perm.map _).trans (List.Perm.of_eq ?_)
      apply List.ext_getElem?
      intro i
      by_cases hi : i < nodes.length
      · simp [hi]
      · simp [Nat.not_lt.1 hi]
    exact (List.map_perm_map_iff (Option.some_injective _)).1 h1
  · have hwm : w < m.nodes.length := (List.getElem?_eq_some_iff.1 hwp).1
    have hwn : w < nodes.length := by rw [← h.nodes_length]; exact hwm
    obtain ⟨v, hvn, hπ, hL⟩ := h.surj hwn
    have hnode : nodes[v]? = some p := by rw [← h.node_at hL hvn]; exact hwp
    have hb : BoundaryNode m.elements w ↔ OnRectangle width height p := by
      rw [← hπ, h.boundary]
      exact (C87_nodes_partial hp hw hh htol hw' hh' hm v p hnode).1
    refine ⟨hb, ?_⟩
    rw [(C06_dirichlet_range mean 3 nodes (elementRows elements) isContact isDirichlet hv hk).1 w hwm]
    rw [show BoundaryNode (identifyBoundaries mean nodes (elementRows elements) isContact
      isDirichlet).elements w ↔ OnRectangle width height p from hb]
    have : holdsAt m.nodes isDirichlet w = isDirichlet p := by
      unfold holdsAt; rw [hwp]
    rw [show holdsAt (identifyBoundaries mean nodes (elementRows elements) isContact
      isDirichlet).nodes isDirichlet w = isDirichlet p from this]

/-- A point is inside a simplex independently of the order of the vertices. -/
theorem StrictlyInside.reorder {d : ℕ} {Y : ℕ → ℕ → K} {σ : ℕ → ℕ} (hσ : Reorders (d + 1) σ)
    {x : ℕ → K} (h : StrictlyInside d (fun i => Y (σ i)) x) : StrictlyInside d Y x := by
  obtain ⟨w, w1, w2, w3⟩ := h
  have hbij : ∀ f : ℕ → K, ∑ i ∈ Finset.range (d + 1), f (σ i) = ∑ i ∈ Finset.range (d + 1), f i := by
    intro f
    refine Finset.sum_nbij σ (fun i hi => Finset.mem_range.2 (hσ.1 i (Finset.mem_range.1 hi)))
      (fun a ha b hb h => hσ.2 a (by simpa using ha) b (by simpa using hb) h) ?_ (fun _ _ => rfl)
    exact Finset.surjOn_of_injOn_of_card_le σ
      (fun i hi => Finset.mem_coe.2 (Finset.mem_range.2 (hσ.1 i (by simpa using hi))))
      (fun a ha b hb h => hσ.2 a (by simpa using ha) b (by simpa using hb) h) le_rfl
  have hsurj : ∀ m < d + 1, ∃ i < d + 1, σ i = m := by
    intro m hm
    have := Finset.surjOn_of_injOn_of_card_le (s := Finset.range (d + 1))
      (t := Finset.range (d + 1)) σ
      (fun i hi => Finset.mem_coe.2 (Finset.mem_range.2 (hσ.1 i (by simpa using hi))))
      (fun a ha b hb h => hσ.2 a (by simpa using ha) b (by simpa using hb) h) le_rfl
      (Finset.mem_coe.2 (Finset.mem_range.2 hm))
    obtain ⟨i, hi, h⟩ := this
    exact ⟨i, by simpa using hi, h⟩
  choose! τ hτ using hsurj
  have hτσ : ∀ i < d + 1, τ (σ i) = i := fun i hi =>
    hσ.2 _ (hτ _ (hσ.1 i hi)).1 _ hi (hτ _ (hσ.1 i hi)).2
  refine ⟨fun m => w (τ m), fun m hm => w1 _ (hτ m hm).1, ?_, ?_⟩
  · rw [← hbij fun m => w (τ m)]
    rw [Finset.sum_congr rfl fun i hi => by rw [hτσ i (Finset.mem_range.1 hi)]]
    exact w2
  · intro k hk
    rw [← hbij fun m => w (τ m) * Y m k, w3 k hk]
    exact Finset.sum_congr rfl fun i hi => by rw [hτσ i (Finset.mem_range.1 hi)]

/-- Two orders of the same vertices. -/
theorem exists_reorder {d : ℕ} {e e' : List ℕ} (hl : e.length = d + 1) (hn : e.Nodup)
    (hp : e'.Perm e) : ∃ σ, Reorders (d + 1) σ ∧ ∀ i < d + 1, e'.getD i 0 = e.getD (σ i) 0 := by
  have hl' : e'.length = d + 1 := by rw [hp.length_eq, hl]
  have hn' : e'.Nodup := hp.nodup_iff.2 hn
  have hmem : ∀ i < d + 1, e'.getD i 0 ∈ e := fun i hi => by
    rw [← hp.mem_iff, List.getD_eq_getElem _ _ (by omega)]
    exact List.getElem_mem _
  have hget : ∀ i < d + 1, e.getD (e.idxOf (e'.getD i 0)) 0 = e'.getD i 0 := fun i hi => by
    rw [List.getD_eq_getElem _ _ (List.idxOf_lt_length_iff.2 (hmem i hi)), List.getElem_idxOf]
  refine ⟨fun i => e.idxOf (e'.getD i 0), ⟨fun i hi => ?_, fun i hi j hj h => ?_⟩, fun i hi => (hget i hi).symm⟩
  · have := List.idxOf_lt_length_iff.2 (hmem i hi)
    rwa [hl] at this
  · simp only at h
    have := hget i hi
    rw [h, hget j hj] at this
    rw [List.getD_eq_getElem _ _ (by omega), List.getD_eq_getElem _ _ (by omega)] at this
    exact ((List.Nodup.getElem_inj_iff hn').1 this).symm

/-- Two tables of elements with the same simplices, the vertices possibly in another order. -/
def SameSimplices (d : ℕ) (nodes nodes' : ℕ → ℕ → K) (elements elements' : List (List ℕ)) : Prop :=
  List.Forall₂ (fun e' e => ∃ σ, Reorders (d + 1) σ ∧ ∀ i < d + 1,
    vertices nodes' e' i = vertices nodes e (σ i)) elements' elements

omit [IsStrictOrderedRing K] in
theorem strictlyInside_congr {d : ℕ} {X Y : ℕ → ℕ → K} (h : ∀ i < d + 1, X i = Y i) {x : ℕ → K}
    (hx : StrictlyInside d X x) : StrictlyInside d Y x := by
  obtain ⟨w, w1, w2, w3⟩ := hx
  refine ⟨w, w1, w2, fun k hk => ?_⟩
  rw [w3 k hk]
  exact Finset.sum_congr rfl fun i hi => by rw [h i (Finset.mem_range.1 hi)]

theorem forall₂_getD {α β : Type} {R : α → β → Prop} {l : List α} {m : List β} (a : α) (b : β)
    (h : List.Forall₂ R l m) (t : ℕ) (ht : t < l.length) : R (l.getD t a) (m.getD t b) := by
  rw [List.getD_eq_getElem _ _ ht, List.getD_eq_getElem _ _ (by rw [← h.length_eq]; exact ht)]
  exact h.get ht (by rw [← h.length_eq]; exact ht)

theorem SameSimplices.nonOverlapping {d : ℕ} {nodes nodes' : ℕ → ℕ → K} {elements elements' : List (List ℕ)}
    (h : SameSimplices d nodes nodes' elements elements') (hno : NonOverlapping d elements nodes) :
    NonOverlapping d elements' nodes' := by
  have key : ∀ t < elements'.length, ∀ x,
      StrictlyInside d (vertices nodes' (elements'.getD t [])) x →
      StrictlyInside d (vertices nodes (elements.getD t [])) x := by
    intro t ht x hx
    obtain ⟨σ, hσ, hs⟩ := forall₂_getD [] [] h t ht
    exact StrictlyInside.reorder hσ (strictlyInside_congr hs hx)
  intro t ht t' ht' hne x h1 h2
  have hl := h.length_eq
  exact hno t (hl ▸ ht) t' (hl ▸ ht') hne x (key t ht x h1) (key t' ht' x h2)

theorem SameSimplices.nondegenerate {nodes nodes' : ℕ → ℕ → K} {elements elements' : List (List ℕ)}
    (h : SameSimplices 2 nodes nodes' elements elements') (hn : Nondegenerate2 elements nodes) :
    Nondegenerate2 elements' nodes' := by
  intro e' he'
  obtain ⟨e, he, σ, hσ, hs⟩ := forall₂_mem_left h he'
  have h1 := hn e he
  rw [← abs_pos, ← abs_det2_reorder _ σ hσ, abs_pos] at h1
  have : det2 (vertices nodes' e') = det2 fun i => vertices nodes e (σ i) := by
    unfold det2
    rw [hs 0 (by omega), hs 1 (by omega), hs 2 (by omega)]
  rwa [this]

omit [LinearOrder K] [IsStrictOrderedRing K] in
theorem coordinates_corners {nodes : List (K × K)} {e : ℕ × ℕ × ℕ} {t : (K × K) × (K × K) × (K × K)}
    (h : HasCorners nodes e t) : ∀ i < 3, vertices (coordinates nodes) [e.1, e.2.1, e.2.2] i =
      fun k => if k = 0 then ([t.1, t.2.1, t.2.2].getD i 0).1 else ([t.1, t.2.1, t.2.2].getD i 0).2 := by
  obtain ⟨h1, h2, h3⟩ := h
  intro i hi
  funext k
  interval_cases i <;> simp [vertices, coordinates, h1, h2, h3, List.getD_eq_getElem?_getD]

/-- Twice the area of the triangle. -/
theorem det2_corners {nodes : List (K × K)} {e : ℕ × ℕ × ℕ} {t : (K × K) × (K × K) × (K × K)}
    (h : HasCorners nodes e t) :
    det2 (vertices (coordinates nodes) [e.1, e.2.1, e.2.2]) = 2 * triArea t := by
  unfold det2
  rw [coordinates_corners h 0 (by omega), coordinates_corners h 1 (by omega),
    coordinates_corners h 2 (by omega)]
  simp [triArea, orient]
  ring

theorem inside_corners {nodes : List (K × K)} {e : ℕ × ℕ × ℕ} {t : (K × K) × (K × K) × (K × K)}
    (h : HasCorners nodes e t) (ht : 0 < triArea t) {x : ℕ → K}
    (hx : StrictlyInside 2 (vertices (coordinates nodes) [e.1, e.2.1, e.2.2]) x) :
    InsideTriangle t (x 0, x 1) := by
  obtain ⟨w, w1, w2, w3⟩ := hx
  have h0 := w3 0 (by omega)
  have h1 := w3 1 (by omega)
  have a0 := w1 0 (by omega)
  have a1 := w1 1 (by omega)
  have a2 := w1 2 (by omega)
  simp only [Finset.sum_range_succ, Finset.sum_range_zero, zero_add, Nat.reduceAdd] at h0 h1 w2
  rw [coordinates_corners h 0 (by omega), coordinates_corners h 1 (by omega),
    coordinates_corners h 2 (by omega)] at h0 h1
  simp at h0 h1
  have e0 : w 0 = 1 - w 1 - w 2 := by linear_combination w2
  unfold triArea orient at ht
  have ht' : 0 < (t.2.1.1 - t.1.1) * (t.2.2.2 - t.1.2) - (t.2.1.2 - t.1.2) * (t.2.2.1 - t.1.1) := by
    linarith
  refine ⟨?_, ?_, ?_⟩
  · have := mul_pos a2 ht'
    refine lt_of_lt_of_eq this ?_
    simp only [orient, h0, h1, e0]; ring
  · have := mul_pos a0 ht'
    refine lt_of_lt_of_eq this ?_
    simp only [orient, h0, h1, e0]; ring
  · have := mul_pos a1 ht'
    refine lt_of_lt_of_eq this ?_
    simp only [orient, h0, h1, e0]; ring

theorem crossMesh_good [FloorSemiring K] {perimeter width height : K} (hp : 0 < perimeter)
    (hw : 0 < width) (hh : 0 < height) (htol : 1 / 10000 ≤ perimeter / 2)
    (hw' : 1 / 10000 ≤ width) (hh' : 1 / 10000 ≤ height) {nodes : List (K × K)}
    {elements : List (ℕ × ℕ × ℕ)} (hm : crossMesh perimeter width height = some (nodes, elements)) :
    Nondegenerate2 (elementRows elements) (coordinates nodes) ∧
    NonOverlapping 2 (elementRows elements) (coordinates nodes) := by
  obtain ⟨sx, sy, ex, ey, hsx, hsy, hex, hey, rfl, rfl, rfl, hrows, hc⟩ :=
    crossMesh_data hp hw hh htol hw' hh' hm
  have T := crossTriangles_tiles hsx hsy hex hey
  constructor
  · intro row hrow
    obtain ⟨e, he, rfl⟩ := List.mem_map.1 hrow
    obtain ⟨t, ht, hct⟩ := forall₂_left hc e he
    rw [det2_corners hct]
    exact (mul_pos two_pos (T.oriented t ht)).ne'
  · intro a ha b hb hne x h1 h2
    have key : ∀ a < (elementRows elements).length,
        StrictlyInside 2 (vertices (coordinates ((halfWrites sx sy).map (halfPoint ex ey)))
          ((elementRows elements).getD a [])) x →
        ∃ t, (crossTriangles sx sy ex ey)[a]? = some t ∧ InsideTriangle t (x 0, x 1) := by
      intro a ha hx
      have ha' : a < elements.length := by simpa [elementRows] using ha
      have hat : a < (crossTriangles sx sy ex ey).length := by rw [← hc.length_eq]; exact ha'
      have hR := hc.get ha' hat
      refine ⟨_, List.getElem?_eq_getElem hat, ?_⟩
      refine inside_corners hR (T.oriented _ (List.getElem_mem hat)) ?_
      rw [List.getD_eq_getElem _ _ ha] at hx
      simpa [elementRows] using hx
    obtain ⟨t, t1, t2⟩ := key a ha h1
    obtain ⟨u, u1, u2⟩ := key b hb h2
    exact hne (T.disjoint a b t u _ t1 u1 t2 u2)

theorem Stage.sameSimplices {nodes nodes' : List (K × K)} {elements elements' : List (List ℕ)}
    {L : List ℕ} {π : ℕ → ℕ} (h : Stage nodes elements nodes' elements' L π)
    (hv : ValidElements 2 nodes.length elements)
    (hn : Nondegenerate2 elements (coordinates nodes)) :
    SameSimplices 2 (coordinates nodes) (coordinates nodes') elements elements' := by
  have hcoord : ∀ v < nodes.length, coordinates nodes' (π v) = coordinates nodes v := by
    intro v hv
    have := h.node_at (h.get v hv) hv
    funext k
    simp only [coordinates, List.getD_eq_getElem?_getD, this]
  have key : ∀ {a b : List (List ℕ)}, List.Forall₂ (fun e' e : List ℕ => e'.Perm (e.map π)) a b →
      (∀ e ∈ b, e.length = 3 ∧ (∀ v ∈ e, v < nodes.length) ∧ e.Nodup) →
      SameSimplices 2 (coordinates nodes) (coordinates nodes') b a := by
    intro a b hab
    induction hab with
    | nil => intro _; exact List.Forall₂.nil
    | @cons e' e a b hp _ ih =>
      intro hb
      refine List.Forall₂.cons ?_ (ih fun e he => hb e (List.mem_cons_of_mem _ he))
      obtain ⟨hl, hlt, hnd⟩ := hb e (by simp)
      obtain ⟨σ, hσ, hs⟩ := exists_reorder (d := 2) (e := e.map π) (e' := e') (by simpa using hl)
        (hnd.map h.inj) hp
      refine ⟨σ, hσ, fun i hi => ?_⟩
      have hσi := hσ.1 i hi
      unfold vertices
      have e1 : (e.map π).getD (σ i) 0 = π (e.getD (σ i) 0) := by
        rw [List.getD_eq_getElem _ _ (by simpa [hl] using hσi),
          List.getD_eq_getElem _ _ (by rw [hl]; exact hσi), List.getElem_map]
      rw [hs i hi, e1]
      refine hcoord _ (hlt _ ?_)
      rw [List.getD_eq_getElem _ _ (by rw [hl]; exact hσi)]
      exact List.getElem_mem _
  refine key h.elems fun e he => ⟨(hv e he).1, (hv e he).2, ?_⟩
  exact (Plane.shape _ (hn e he)).nodup (hv e he).1

/-- C86 on generated meshes: after the renumbering by the mesh constructor, a generated mesh has the
properties that the patch test needs, and a homogeneous deformation exerts no force on any node that
does not lie on the boundary of the rectangle. -/
theorem C86_generated [FloorSemiring K] [Inhabited (K × K)] {perimeter width height : K}
    (hp : 0 < perimeter) (hw : 0 < width) (hh : 0 < height) (htol : 1 / 10000 ≤ perimeter / 2)
    (hw' : 1 / 10000 ≤ width) (hh' : 1 / 10000 ≤ height) {nodes : List (K × K)}
    {elements : List (ℕ × ℕ × ℕ)} (hm : crossMesh perimeter width height = some (nodes, elements))
    (mean : List (K × K) → K × K) (isContact isDirichlet : K × K → Bool) :
    let m := identifyBoundaries mean nodes (elementRows elements) isContact isDirichlet
    let N := m.nodes.length
    (ValidElements 2 N m.elements ∧ Nondegenerate2 m.elements (coordinates m.nodes) ∧
      NonOverlapping 2 m.elements (coordinates m.nodes)) ∧
    ∀ (mu lam : K) (R : ℕ → ℕ → ℕ → K) (c : ℕ → K) (G : ℕ → ℕ → K) (u : ℕ → K),
      (∀ b < 2, AffineField 2 N (coordinates m.nodes) (c b) (G b) (component N u b)) →
      ∀ a < 2, ∀ (w : ℕ) (p : K × K), m.nodes[w]? = some p → ¬ OnRectangle width height p →
      act (2 * N) (Plane.constitutive N (basicMatrices2 m.elements (coordinates m.nodes)).W mu lam) u
        (a * N + w) = 0 ∧
      act (2 * N) (Plane.relaxationTensor N (basicMatrices2 m.elements (coordinates m.nodes)).W R) u
        (a * N + w) = 0 := by
  intro m N
  have hval := valid_crossMesh hp hw hh htol hw' hh' hm
  obtain ⟨hnd, hno⟩ := crossMesh_good hp hw hh htol hw' hh' hm
  have hv : Valid nodes.length (elementRows elements) := fun row h v hv => (hval row h).2 v hv
  have hk : ∀ e ∈ elementRows elements, e.length = 3 := fun row h => (hval row h).1
  obtain ⟨π, h⟩ := identify_stage mean 3 nodes (elementRows elements) isContact isDirichlet hv hk
  have hS := h.sameSimplices hval hnd
  have good : ValidElements 2 N m.elements ∧ Nondegenerate2 m.elements (coordinates m.nodes) ∧
      NonOverlapping 2 m.elements (coordinates m.nodes) := by
    refine ⟨fun e he => ⟨h.rowlen hk e he, fun v hve => ?_⟩, hS.nondegenerate hnd, hS.nonOverlapping hno⟩
    have := h.valid hv e he v hve
    rwa [← h.nodes_length] at this
  refine ⟨good, fun mu lam R c G u hu a ha w p hwp hout => ?_⟩
  have hb := ((C87_dirichlet_partial hp hw hh htol hw' hh' hm mean isContact isDirichlet).2 w p hwp).1
  exact C86_elastic2 good.1 good.2.1 good.2.2 mu lam R c G u hu a w ha
    (List.getElem?_eq_some_iff.1 hwp).1 fun h => hout (hb.1 h)

/-- The mesh with one cell: the centre is not on the boundary, the corners are. -/
example : (crossMesh (1 : ℚ) 1 1).map (fun m => (m.1, elementRows m.2)) =
      some ([(1 / 2, 1 / 2), (1, 1), (1, 0), (0, 0), (0, 1)],
        [[3, 2, 0], [2, 1, 0], [1, 4, 0], [4, 3, 0]]) ∧
    (getBoundarySurfaces [[3, 2, 0], [2, 1, 0], [1, 4, 0], [4, 3, 0]]).2.2.1 = [1, 2, 3, 4] := by
  decide +kernel

end
end Conmech
