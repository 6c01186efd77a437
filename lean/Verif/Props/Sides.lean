import Verif.Lemmas.Sides
import Verif.Props.CrossBoundary
import Verif.Props.Forces
import Mathlib.Analysis.Real.Sqrt
/-!
C102: the sides of a generated rectangle carry their length.
-/
namespace Conmech
open Spec

section
variable {K : Type} [Field K] [LinearOrder K] [IsStrictOrderedRing K]

/-- What a cross mesh is made of, with the numbers of cells. -/
theorem crossMesh_sizes [FloorSemiring K] {perimeter width height : K} (hp : 0 < perimeter)
    (hw : 0 < width) (hh : 0 < height) (htol : 1 / 10000 ≤ perimeter / 2)
    (hw' : 1 / 10000 ≤ width) (hh' : 1 / 10000 ≤ height) {nodes : List (K × K)}
    {elements : List (ℕ × ℕ × ℕ)} (hm : crossMesh perimeter width height = some (nodes, elements)) :
    let sx := ⌈width / perimeter⌉₊
    let sy := ⌈height / perimeter⌉₊
    1 ≤ sx ∧ 1 ≤ sy ∧
      nodes = (halfWrites sx sy).map (halfPoint (width / sx) (height / sy)) ∧
      elementRows elements = (triangleNumbers sx sy).map (rowOf sx sy) ∧
      List.Forall₂ (Spec.HasCorners nodes) elements
        (crossTriangles sx sy (width / sx) (height / sy)) := by
  intro sx sy
  obtain ⟨w1, w2⟩ := crossSize_tolerance hp hw htol hw'
  obtain ⟨h1, h2⟩ := crossSize_tolerance hp hh htol hh'
  have hsx := crossSize_pos hw hp
  have hsy := crossSize_pos hh hp
  refine ⟨hsx, hsy, ?_⟩
  obtain ⟨es, g1, g2⟩ := crossElements_corners (sx := crossSize width perimeter)
    (sy := crossSize height perimeter) w1 h1
  simp only [crossMesh, g1, Option.bind_eq_bind, Option.bind_some, Option.some.injEq,
    Prod.mk.injEq] at hm
  obtain ⟨rfl, rfl⟩ := hm
  exact ⟨crossNodes_eq hsx hsy _ _, crossElements_rows hsx hsy w1 h1 g1, g2⟩

/-- The ends of the outer faces are the ends of the segments. -/
theorem outerFaces_segments {sx sy : ℕ} (hx : 1 ≤ sx) (hy : 1 ≤ sy) (width height : K) :
    ((outerNumbers sx sy).map fun x =>
      ({halfPoint (width / sx) (height / sy) (halfRow x.1.1 x.1.2 x.2).1,
        halfPoint (width / sx) (height / sy) (halfRow x.1.1 x.1.2 x.2).2.1} : Multiset (K × K))) =
    (sideSegments sx sy width height).map fun s => {s.1, s.2} := by
  have hsx : (sx : K) ≠ 0 := by exact_mod_cast (by omega : sx ≠ 0)
  have hsy : (sy : K) ≠ 0 := by exact_mod_cast (by omega : sy ≠ 0)
  have ex : ((sx - 1 : ℕ) : K) + 1 = sx := by exact_mod_cast Nat.sub_add_cancel hx
  have ey : ((sy - 1 : ℕ) : K) + 1 = sy := by exact_mod_cast Nat.sub_add_cancel hy
  have e1 : (sx : K) * (width / sx) = width := mul_div_cancel₀ _ hsx
  have e2 : (sy : K) * (height / sy) = height := mul_div_cancel₀ _ hsy
  have half : ∀ n : ℕ, (2 * n : K) / 2 = n := fun n => mul_div_cancel_left₀ _ two_ne_zero
  have half1 : ∀ n : ℕ, (2 * ((n : K) + 1)) / 2 = n + 1 := fun n => mul_div_cancel_left₀ _ two_ne_zero
  simp only [outerNumbers, sideSegments, Side.all, List.flatMap_cons, List.flatMap_nil, List.map_append,
    List.map_map, List.append_nil, List.append_assoc]
  congr 1
  · refine List.map_congr_left fun i _ => ?_
    simp [halfRow, halfPoint, Side.at, Side.part, Side.length, Side.parts, half, half1]
  congr 1
  · refine List.map_congr_left fun i _ => ?_
    simp [halfRow, halfPoint, Side.at, Side.part, Side.length, Side.parts, half, half1, ex, e1]
  congr 1
  · refine List.map_congr_left fun i _ => ?_
    simp only [Function.comp]
    rw [Multiset.pair_comm]
    simp [halfRow, halfPoint, Side.at, Side.part, Side.length, Side.parts, half, half1, ey, e2]
  · refine List.map_congr_left fun i _ => ?_
    simp only [Function.comp]
    rw [Multiset.pair_comm]
    simp [halfRow, halfPoint, Side.at, Side.part, Side.length, Side.parts, half, half1]

omit [Field K] [LinearOrder K] [IsStrictOrderedRing K] in
/-- The listed boundary surfaces are different. -/
theorem nodup_boundarySurfaces [Inhabited (K × K)] (mean : List (K × K) → K × K) (nodes : List (K × K))
    (elements : List (List ℕ)) (isContact isDirichlet : K × K → Bool) :
    (identifyBoundaries mean nodes elements isContact isDirichlet).boundarySurfaces.Nodup := by
  have e0 : (identifyBoundaries mean nodes elements isContact isDirichlet).boundarySurfaces =
      (getBoundarySurfaces (reorderBoundaryNodes nodes elements isContact isDirichlet).elements).1 := by
    simp only [identifyBoundaries]
  rw [e0]
  exact (C07_boundary_surfaces_nodup _).1

/-- Lists of boundary faces of a renumbered cross mesh. -/
theorem segments_of_stage {sx sy : ℕ} (hsx : 1 ≤ sx) (hsy : 1 ≤ sy) {width height : K}
    {nodes nodes' : List (K × K)} {rows elements' : List (List ℕ)} {L : List ℕ} {π : ℕ → ℕ}
    (hnodes : nodes = (halfWrites sx sy).map (halfPoint (width / sx) (height / sy)))
    (hrows : rows = (triangleNumbers sx sy).map (rowOf sx sy))
    (h : Stage nodes rows nodes' elements' L π) {surfaces : List (List ℕ)}
    (hmem : ∀ f, f ∈ surfaces ↔ f.Pairwise (· ≤ ·) ∧ BoundaryFace elements' (f : Multiset ℕ))
    (hnd : surfaces.Nodup) :
    (surfaces.map (endsOf nodes')).Perm
      ((sideSegments sx sy width height).map fun s => ({s.1, s.2} : Multiset (K × K))) := by
  have hperm : (surfaces.map fun f : List ℕ => (f : Multiset ℕ)).Perm
      (((outerNumbers sx sy).map (outerFace sx sy)).map (Multiset.map π)) := by
    rw [List.perm_ext_iff_of_nodup]
    · intro g
      constructor
      · intro hg
        obtain ⟨f, hf, rfl⟩ := List.mem_map.1 hg
        obtain ⟨g, hg, hfg⟩ := (h.boundaryFace_iff _).1 ((hmem f).1 hf).2
        rw [hfg]
        refine List.mem_map_of_mem ?_
        rw [← boundaryFace_iff_outer hsx hsy, ← hrows]
        exact hg
      · intro hg
        obtain ⟨g', hg', rfl⟩ := List.mem_map.1 hg
        rw [← boundaryFace_iff_outer hsx hsy, ← hrows] at hg'
        refine List.mem_map.2 ⟨(Multiset.map π g').sort (· ≤ ·), (hmem _).2 ⟨?_, ?_⟩, ?_⟩
        · exact Multiset.pairwise_sort _ _
        · rw [Multiset.sort_eq]
          exact (h.boundaryFace_iff _).2 ⟨g', hg', rfl⟩
        · exact Multiset.sort_eq _ _
    · refine List.Nodup.map_on ?_ hnd
      intro a ha b hb hab
      exact eq_of_sorted_perm ((hmem a).1 ha).1 ((hmem b).1 hb).1 (Multiset.coe_eq_coe.1 hab)
    · exact (nodup_outerFaces hsx hsy).map (Multiset.map_injective h.inj)
  have hC := hperm.map (Multiset.filterMap (nodes'[·]?))
  rw [List.map_map, List.map_map, List.map_map] at hC
  refine (List.Perm.of_eq ?_).trans (hC.trans (List.Perm.of_eq ?_))
  · refine List.map_congr_left fun f _ => ?_
    exact (Multiset.filterMap_coe _ _).symm
  · rw [← outerFaces_segments hsx hsy width height]
    refine List.map_congr_left fun x hx => ?_
    obtain ⟨⟨i, j⟩, n⟩ := x
    obtain ⟨hi, hj, hn, -⟩ := (mem_outerNumbers hsx hsy).1 hx
    obtain ⟨g1, g2, -⟩ := halfRow_onGrid ((mem_triangleNumbers ((i, j), n)).2 ⟨hi, hj, hn⟩)
    have at' : ∀ p, OnGrid sx sy p →
        nodes'[π (halfIndex sx sy p)]? = some (halfPoint (width / sx) (height / sy) p) := by
      intro p hp
      have hpm := (mem_halfWrites hsx hsy p).2 hp
      have hlt : halfIndex sx sy p < (halfWrites sx sy).length := List.idxOf_lt_length_of_mem hpm
      have hlt' : halfIndex sx sy p < nodes.length := by rw [hnodes, List.length_map]; exact hlt
      rw [h.node_at (h.get _ hlt') hlt', hnodes, List.getElem?_map, List.getElem?_eq_getElem hlt]
      simp [halfIndex]
    simp only [Function.comp, outerFace, Multiset.insert_eq_cons, Multiset.map_cons,
      Multiset.map_singleton]
    rw [Multiset.filterMap_cons_some _ _ _ (at' _ g1), ← Multiset.cons_zero,
      Multiset.filterMap_cons_some _ _ _ (at' _ g2), Multiset.filterMap_zero]
    rfl

/-- C102: the boundary surfaces of a generated mesh are the segments of the sides of the rectangle, each
listed once. Missing for the full property: cells shorter than the tolerance of the search for nodes
(see C52). -/
theorem C102_segments_partial [FloorSemiring K] [Inhabited (K × K)] {perimeter width height : K}
    (hp : 0 < perimeter) (hw : 0 < width) (hh : 0 < height) (htol : 1 / 10000 ≤ perimeter / 2)
    (hw' : 1 / 10000 ≤ width) (hh' : 1 / 10000 ≤ height) {nodes : List (K × K)}
    {elements : List (ℕ × ℕ × ℕ)} (hm : crossMesh perimeter width height = some (nodes, elements))
    (mean : List (K × K) → K × K) (isContact isDirichlet : K × K → Bool) :
    let m := identifyBoundaries mean nodes (elementRows elements) isContact isDirichlet
    (m.boundarySurfaces.map (endsOf m.nodes)).Perm
    ((sideSegments ⌈width / perimeter⌉₊ ⌈height / perimeter⌉₊ width height).map fun s =>
      ({s.1, s.2} : Multiset (K × K))) := by
  intro m
  have hval := valid_crossMesh hp hw hh htol hw' hh' hm
  have hv : Valid nodes.length (elementRows elements) := fun row h v hv => (hval row h).2 v hv
  have hk : ∀ e ∈ elementRows elements, e.length = 3 := fun row h => (hval row h).1
  obtain ⟨hsx, hsy, hnodes, hrows, -⟩ := crossMesh_sizes hp hw hh htol hw' hh' hm
  obtain ⟨π, h⟩ := identify_stage mean 3 nodes (elementRows elements) isContact isDirichlet hv hk
  have h1 := fun f => (C08_classification_total mean nodes (elementRows elements) isContact isDirichlet 3
    hv hk f).1
  have h2 := nodup_boundarySurfaces mean nodes (elementRows elements) isContact isDirichlet
  exact segments_of_stage hsx hsy hnodes hrows h h1 h2

omit [LinearOrder K] [IsStrictOrderedRing K] in
theorem centre_pair (p q : K × K) : centre [p, q] = ((p.1 + q.1) / 2, (p.2 + q.2) / 2) := by
  simp [centre]

omit [LinearOrder K] [IsStrictOrderedRing K] in
theorem vertices_pair {nodes : List (K × K)} {a b : ℕ} {p q : K × K} (ha : nodes[a]? = some p)
    (hb : nodes[b]? = some q) (sqrt : K → K) :
    surfaceSize sqrt 2 (vertices (coordinates nodes) [a, b]) =
      sqrt ((p.1 - q.1) * (p.1 - q.1) + (p.2 - q.2) * (p.2 - q.2)) := by
  simp [surfaceSize, segmentLength, vertices, coordinates, List.getD_eq_getElem?_getD, ha, hb]

theorem sqrt_square {sqrt : K → K} (hs : IsSqrt sqrt) {x : K} (hx : 0 ≤ x) : sqrt (x * x) = x := by
  obtain ⟨h1, h2⟩ := hs (x * x) (mul_self_nonneg x)
  have := mul_self_inj h1 hx
  exact this.1 h2

/-- The middle and the length of a part of a side. -/
theorem side_middle (s : Side) {sx sy : ℕ} {width height : K} (n : ℕ)
    (hpos : 0 ≤ s.part sx sy width height) {sqrt : K → K} (hs : IsSqrt sqrt) :
    let p := s.at width height (n * s.part sx sy width height)
    let q := s.at width height ((n + 1) * s.part sx sy width height)
    ((p.1 + q.1) / 2, (p.2 + q.2) / 2) = s.at width height ((n + 1 / 2) * s.part sx sy width height) ∧
    sqrt ((p.1 - q.1) * (p.1 - q.1) + (p.2 - q.2) * (p.2 - q.2)) = s.part sx sy width height := by
  intro p q
  have e : ∀ x : K, (n * x - (n + 1) * x) * (n * x - (n + 1) * x) = x * x := fun x => by ring
  cases s <;> simp only [p, q, Side.at, Prod.mk.injEq, sub_self, mul_zero, zero_mul, add_zero, zero_add, e] <;>
    refine ⟨⟨?_, ?_⟩, sqrt_square hs hpos⟩ <;> ring

theorem Spec.Side.part_pos {sx sy : ℕ} (hx : 1 ≤ sx) (hy : 1 ≤ sy) {width height : K} (hw : 0 < width)
    (hh : 0 < height) (s : Side) : 0 < s.part sx sy width height ∧
      (s.parts sx sy : K) * s.part sx sy width height = s.length width height := by
  have hsx : (0 : K) < sx := by exact_mod_cast hx
  have hsy : (0 : K) < sy := by exact_mod_cast hy
  cases s <;> simp only [Side.part, Side.length, Side.parts] <;>
    exact ⟨by positivity, mul_div_cancel₀ _ (by positivity)⟩

/-- The surfaces are the parts of the sides of a rectangle. -/
structure Divides (nodes : List (K × K)) (surfaces : List (List ℕ)) (sx sy : ℕ) (width height : K) :
    Prop where
  two : ∀ f ∈ surfaces, f.length = 2
  ends : (surfaces.map (endsOf nodes)).Perm
    ((sideSegments sx sy width height).map fun s => ({s.1, s.2} : Multiset (K × K)))

omit [IsStrictOrderedRing K] in
theorem Divides.pair {nodes : List (K × K)} {surfaces : List (List ℕ)} {sx sy : ℕ} {width height : K}
    (h : Divides nodes surfaces sx sy width height) {f : List ℕ} (hf : f ∈ surfaces) :
    ∃ (s : Side) (n : ℕ), n < s.parts sx sy ∧
      endsOf nodes f = {s.at width height (n * s.part sx sy width height),
        s.at width height ((n + 1) * s.part sx sy width height)} := by
  obtain ⟨b, hb, he⟩ := exists_of_perm_map h.ends hf
  obtain ⟨s, -, hb⟩ := List.mem_flatMap.1 hb
  obtain ⟨n, hn, rfl⟩ := List.mem_map.1 hb
  exact ⟨s, n, List.mem_range.1 hn, he⟩

/-- The centre and the length of a surface with the given ends. -/
theorem surface_of_ends {nodes : List (K × K)} {f : List ℕ} (hl : f.length = 2) {p q : K × K}
    (h : endsOf nodes f = {p, q}) (sqrt : K → K) :
    centre (f.filterMap (nodes[·]?)) = ((p.1 + q.1) / 2, (p.2 + q.2) / 2) ∧
    surfaceSize sqrt 2 (vertices (coordinates nodes) f) =
      sqrt ((p.1 - q.1) * (p.1 - q.1) + (p.2 - q.2) * (p.2 - q.2)) := by
  obtain ⟨a, b, rfl, ⟨ha, hb⟩ | ⟨ha, hb⟩⟩ := ends_pair hl h
  · refine ⟨?_, vertices_pair ha hb sqrt⟩
    simp only [List.filterMap_cons, ha, hb, List.filterMap_nil]
    exact centre_pair p q
  · refine ⟨?_, ?_⟩
    · simp only [List.filterMap_cons, ha, hb, List.filterMap_nil]
      rw [centre_pair, add_comm q.1, add_comm q.2]
    · rw [vertices_pair ha hb sqrt]
      congr 1
      ring

/-- The total length of the surfaces whose centres satisfy a predicate. -/
theorem Divides.total {nodes : List (K × K)} {surfaces : List (List ℕ)} {sx sy : ℕ} {width height : K}
    (h : Divides nodes surfaces sx sy width height) (hx : 1 ≤ sx) (hy : 1 ≤ sy) (hw : 0 < width)
    (hh : 0 < height) {sqrt : K → K} (hs : IsSqrt sqrt) (P : K × K → Bool) :
    ((surfaces.filter fun f => P (centre (f.filterMap (nodes[·]?)))).map fun f =>
      surfaceSize sqrt 2 (vertices (coordinates nodes) f)).sum =
    (Side.all.map fun s => ((List.range (s.parts sx sy)).map fun n : ℕ =>
      if P (s.at width height ((n + 1 / 2) * s.part sx sy width height)) then s.part sx sy width height
      else 0).sum).sum := by
  rw [sum_filter_map]
  have key := sum_of_perm_map (φ := fun f =>
      if P (centre (f.filterMap (nodes[·]?))) then surfaceSize sqrt 2 (vertices (coordinates nodes) f) else 0)
    (ψ := fun g : (K × K) × (K × K) => if P ((g.1.1 + g.2.1) / 2, (g.1.2 + g.2.2) / 2) then
      sqrt ((g.1.1 - g.2.1) * (g.1.1 - g.2.1) + (g.1.2 - g.2.2) * (g.1.2 - g.2.2)) else 0) h.ends ?_
  · rw [key, sideSegments, List.map_flatMap, sum_of_flatMap]
    congr 1
    refine List.map_congr_left fun s _ => ?_
    rw [List.map_map]
    congr 1
    refine List.map_congr_left fun n _ => ?_
    obtain ⟨h1, h2⟩ := side_middle s (sx := sx) (sy := sy) (width := width) (height := height) n
      (s.part_pos hx hy hw hh).1.le hs
    simp only [Function.comp]
    rw [h1, h2]
  · intro f hf g _ hfg
    obtain ⟨h1, h2⟩ := surface_of_ends (h.two f hf) hfg sqrt
    simp only [h1, h2]

/-- The total length of the surfaces for a predicate that chooses sides. -/
theorem Divides.sides {nodes : List (K × K)} {surfaces : List (List ℕ)} {sx sy : ℕ} {width height : K}
    (h : Divides nodes surfaces sx sy width height) (hx : 1 ≤ sx) (hy : 1 ≤ sy) (hw : 0 < width)
    (hh : 0 < height) {sqrt : K → K} (hs : IsSqrt sqrt) {P : K × K → Bool} {chosen : Side → Bool}
    (hP : ChoosesSides width height P chosen) :
    ((surfaces.filter fun f => P (centre (f.filterMap (nodes[·]?)))).map fun f =>
      surfaceSize sqrt 2 (vertices (coordinates nodes) f)).sum = sidesLength width height chosen := by
  rw [h.total hx hy hw hh hs, sidesLength]
  congr 1
  refine List.map_congr_left fun s _ => ?_
  obtain ⟨h1, h2⟩ := s.part_pos hx hy hw hh
  have : ∀ n ∈ List.range (s.parts sx sy),
      (if P (s.at width height (((n : ℕ) + 1 / 2) * s.part sx sy width height)) then
        s.part sx sy width height else 0) = if chosen s then s.part sx sy width height else 0 := by
    intro n hn
    rw [List.mem_range] at hn
    have hn' : (n : K) + 1 ≤ s.parts sx sy := by exact_mod_cast hn
    have h0 : (0 : K) ≤ n := Nat.cast_nonneg n
    rw [hP s _ (by positivity) ?_]
    rw [← h2]
    exact mul_lt_mul_of_pos_right (by linarith) h1
  rw [List.map_congr_left this, List.map_const', List.sum_replicate, List.length_range, nsmul_eq_mul]
  split_ifs with hc
  · exact h2
  · exact mul_zero _

/-- The boundary surfaces of a generated mesh are the parts of the sides. -/
theorem divides_crossMesh [FloorSemiring K] [Inhabited (K × K)] {perimeter width height : K}
    (hp : 0 < perimeter) (hw : 0 < width) (hh : 0 < height) (htol : 1 / 10000 ≤ perimeter / 2)
    (hw' : 1 / 10000 ≤ width) (hh' : 1 / 10000 ≤ height) {nodes : List (K × K)}
    {elements : List (ℕ × ℕ × ℕ)} (hm : crossMesh perimeter width height = some (nodes, elements))
    (mean : List (K × K) → K × K) (isContact isDirichlet : K × K → Bool) :
    let m := identifyBoundaries mean nodes (elementRows elements) isContact isDirichlet
    1 ≤ ⌈width / perimeter⌉₊ ∧ 1 ≤ ⌈height / perimeter⌉₊ ∧
    Divides m.nodes m.boundarySurfaces ⌈width / perimeter⌉₊ ⌈height / perimeter⌉₊ width height := by
  intro m
  have hval := valid_crossMesh hp hw hh htol hw' hh' hm
  have hv : Valid nodes.length (elementRows elements) := fun row h v hv => (hval row h).2 v hv
  have hk : ∀ e ∈ elementRows elements, e.length = 3 := fun row h => (hval row h).1
  obtain ⟨hsx, hsy, hnodes, hrows, -⟩ := crossMesh_sizes hp hw hh htol hw' hh' hm
  obtain ⟨π, h⟩ := identify_stage mean 3 nodes (elementRows elements) isContact isDirichlet hv hk
  have h1 := fun f => (C08_classification_total mean nodes (elementRows elements) isContact isDirichlet 3
    hv hk f).1
  refine ⟨hsx, hsy, ?_, C102_segments_partial hp hw hh htol hw' hh' hm mean isContact isDirichlet⟩
  intro f hf
  obtain ⟨g, hg, hfg⟩ := (h.boundaryFace_iff _).1 ((h1 f).1 hf).2
  rw [hrows, boundaryFace_iff_outer hsx hsy] at hg
  obtain ⟨x, -, rfl⟩ := List.mem_map.1 hg
  have := congrArg Multiset.card hfg
  simpa [outerFace] using this

/-- C102: every boundary surface of a generated mesh lies on one side of the rectangle, and for
predicates that choose sides it has the kind of that side. -/
theorem C102_kinds_partial [FloorSemiring K] [Inhabited (K × K)] {perimeter width height : K}
    (hp : 0 < perimeter) (hw : 0 < width) (hh : 0 < height) (htol : 1 / 10000 ≤ perimeter / 2)
    (hw' : 1 / 10000 ≤ width) (hh' : 1 / 10000 ≤ height) {nodes : List (K × K)}
    {elements : List (ℕ × ℕ × ℕ)} (hm : crossMesh perimeter width height = some (nodes, elements))
    {isContact isDirichlet : K × K → Bool} {contact dirichlet : Side → Bool}
    (hc : ChoosesSides width height isContact contact)
    (hd : ChoosesSides width height isDirichlet dirichlet) :
    let m := identifyBoundaries centre nodes (elementRows elements) isContact isDirichlet
    ∀ f ∈ m.boundarySurfaces, ∃ s : Side,
      (∀ v ∈ f, ∃ p, m.nodes[v]? = some p ∧ s.On width height p) ∧
      (f ∈ m.contactSurfaces ↔ contact s = true) ∧ (f ∈ m.dirichletSurfaces ↔ dirichlet s = true) ∧
      (f ∈ m.neumannSurfaces ↔ contact s = false ∧ dirichlet s = false) := by
  intro m f hf
  obtain ⟨hsx, hsy, hD⟩ := divides_crossMesh hp hw hh htol hw' hh' hm centre isContact isDirichlet
  obtain ⟨c1, c2, c3⟩ := C08_classification_exact centre nodes (elementRows elements) isContact
    isDirichlet f
  have hf' : f ∈ (identifyBoundaries centre nodes (elementRows elements) isContact
    isDirichlet).boundarySurfaces := hf
  obtain ⟨s, n, hn, he⟩ := hD.pair hf'
  obtain ⟨h1, h2⟩ := s.part_pos hsx hsy hw hh
  have hn' : (n : K) + 1 ≤ s.parts ⌈width / perimeter⌉₊ ⌈height / perimeter⌉₊ := by exact_mod_cast hn
  have h0 : (0 : K) ≤ n := Nat.cast_nonneg n
  obtain ⟨e1, -⟩ := surface_of_ends (hD.two f hf') he fun x => x
  have e2 : centre (f.filterMap ((identifyBoundaries centre nodes (elementRows elements) isContact
      isDirichlet).nodes[·]?)) = s.at width height
        ((n + 1 / 2) * s.part ⌈width / perimeter⌉₊ ⌈height / perimeter⌉₊ width height) := by
    rw [e1]
    cases s <;> simp only [Side.at, Prod.mk.injEq] <;> constructor <;> ring
  have pos : (0 : K) < (n + 1 / 2) * s.part ⌈width / perimeter⌉₊ ⌈height / perimeter⌉₊ width height := by
    positivity
  have lt : (n + 1 / 2) * s.part ⌈width / perimeter⌉₊ ⌈height / perimeter⌉₊ width height <
      s.length width height := by
    rw [← h2]
    exact mul_lt_mul_of_pos_right (by linarith) h1
  refine ⟨s, ?_, ?_, ?_, ?_⟩
  · have on : ∀ k : K, 0 ≤ k → k ≤ s.parts ⌈width / perimeter⌉₊ ⌈height / perimeter⌉₊ →
        s.On width height (s.at width height
          (k * s.part ⌈width / perimeter⌉₊ ⌈height / perimeter⌉₊ width height)) := fun k k0 k1 =>
      ⟨_, mul_nonneg k0 h1.le, by rw [← h2]; exact mul_le_mul_of_nonneg_right k1 h1.le, rfl⟩
    obtain ⟨a, b, rfl, ⟨ha, hb⟩ | ⟨ha, hb⟩⟩ := ends_pair (hD.two f hf') he
    · intro v hv
      simp only [List.mem_cons, List.not_mem_nil, or_false] at hv
      rcases hv with rfl | rfl
      · exact ⟨_, ha, on _ h0 (by linarith)⟩
      · exact ⟨_, hb, on _ (by linarith) hn'⟩
    · intro v hv
      simp only [List.mem_cons, List.not_mem_nil, or_false] at hv
      rcases hv with rfl | rfl
      · exact ⟨_, ha, on _ (by linarith) hn'⟩
      · exact ⟨_, hb, on _ h0 (by linarith)⟩
  · rw [show f ∈ m.contactSurfaces ↔ _ from c1, e2, hc s _ pos lt]
    exact and_iff_right hf'
  · rw [show f ∈ m.dirichletSurfaces ↔ _ from c2, e2, hd s _ pos lt]
    exact and_iff_right hf'
  · rw [show f ∈ m.neumannSurfaces ↔ _ from c3, e2, hc s _ pos lt, hd s _ pos lt]
    exact and_iff_right hf'

omit [LinearOrder K] [IsStrictOrderedRing K] in
/-- The lists of surfaces. -/
theorem kinds_eq [Inhabited (K × K)] (mean : List (K × K) → K × K) (nodes : List (K × K))
    (elements : List (List ℕ)) (isContact isDirichlet : K × K → Bool) (m : MeshBoundaries (K × K))
    (hm : identifyBoundaries mean nodes elements isContact isDirichlet = m) :
    m.contactSurfaces = applyPredicateToSurfaces mean m.boundarySurfaces m.nodes isContact ∧
    m.dirichletSurfaces = applyPredicateToSurfaces mean m.boundarySurfaces m.nodes isDirichlet ∧
    m.neumannSurfaces = applyPredicateToSurfaces mean m.boundarySurfaces m.nodes
      fun x => !isContact x && !isDirichlet x := by
  subst hm
  refine ⟨?_, ?_, ?_⟩ <;> simp only [identifyBoundaries]

omit [IsStrictOrderedRing K] in
theorem Spec.ChoosesSides.neither {width height : K} {P Q : K × K → Bool} {p q : Side → Bool}
    (hp : ChoosesSides width height P p) (hq : ChoosesSides width height Q q) :
    ChoosesSides width height (fun x => !P x && !Q x) fun s => !p s && !q s := by
  intro s t h1 h2
  simp only [hp s t h1 h2, hq s t h1 h2]

/-- C102: for predicates that choose sides the lengths of the contact, Dirichlet and Neumann surfaces of
a generated mesh add up to the lengths of the respective sides. -/
theorem C102_lengths_partial [FloorSemiring K] [Inhabited (K × K)] {perimeter width height : K}
    (hp : 0 < perimeter) (hw : 0 < width) (hh : 0 < height) (htol : 1 / 10000 ≤ perimeter / 2)
    (hw' : 1 / 10000 ≤ width) (hh' : 1 / 10000 ≤ height) {nodes : List (K × K)}
    {elements : List (ℕ × ℕ × ℕ)} (hm : crossMesh perimeter width height = some (nodes, elements))
    {isContact isDirichlet : K × K → Bool} {contact dirichlet : Side → Bool}
    (hc : ChoosesSides width height isContact contact)
    (hd : ChoosesSides width height isDirichlet dirichlet) {sqrt : K → K} (hs : IsSqrt sqrt) :
    let m := identifyBoundaries centre nodes (elementRows elements) isContact isDirichlet
    let size := fun f => surfaceSize sqrt 2 (vertices (coordinates m.nodes) f)
    (m.contactSurfaces.map size).sum = sidesLength width height contact ∧
    (m.dirichletSurfaces.map size).sum = sidesLength width height dirichlet ∧
    (m.neumannSurfaces.map size).sum =
      sidesLength width height fun s => !contact s && !dirichlet s := by
  obtain ⟨hsx, hsy, hD⟩ := divides_crossMesh hp hw hh htol hw' hh' hm centre isContact isDirichlet
  have hk := kinds_eq centre nodes (elementRows elements) isContact isDirichlet _ rfl
  generalize identifyBoundaries centre nodes (elementRows elements) isContact isDirichlet = m at hD hk ⊢
  obtain ⟨k1, k2, k3⟩ := hk
  intro size
  rw [k1, k2, k3]
  exact ⟨hD.sides hsx hsy hw hh hs hc, hD.sides hsx hsy hw hh hs hd,
    hD.sides hsx hsy hw hh hs (hc.neither hd)⟩

/-- The parts of a side, counted from its end, whose middle is before `b`. -/
theorem parts_before {e : K} (he : 0 < e) {b : K} (hb : 0 ≤ b) (N : ℕ) (R : K → Bool)
    (h1 : ∀ t, t < b → R t = true) (h2 : ∀ t, b < t → R t = false) :
    ((N : K) * e ≤ b → ((List.range N).map fun n : ℕ => if R ((n + 1 / 2) * e) then e else 0).sum = N * e) ∧
    (b < N * e → |((List.range N).map fun n : ℕ => if R ((n + 1 / 2) * e) then e else 0).sum - b| ≤ e / 2) := by
  induction N with
  | zero => exact ⟨fun _ => by simp, fun h => by simp at h; linarith⟩
  | succ N ih =>
    obtain ⟨i1, i2⟩ := ih
    rw [List.range_succ, List.map_append, List.sum_append, List.map_singleton, List.sum_singleton]
    push_cast
    constructor
    · intro h
      rw [i1 (by linarith), h1 _ (by linarith), if_pos rfl]
      ring
    · intro h
      by_cases hN : (N : K) * e ≤ b
      · rw [i1 hN]
        split_ifs with hR
        · have : ¬ b < (N + 1 / 2) * e := fun hlt => by rw [h2 _ hlt] at hR; cases hR
          rw [abs_le]; constructor <;> linarith
        · have : ¬ (N + 1 / 2) * e < b := fun hlt => hR (h1 _ hlt)
          rw [abs_le]; constructor <;> linarith
      · push Not at hN
        rw [h2 _ (by linarith), if_neg (by simp), add_zero]
        exact i2 hN

/-- The parts of a side whose middle is between `a` and `b`. -/
theorem parts_between {e : K} (he : 0 < e) {a b : K} (ha : 0 ≤ a) (hab : a ≤ b) (N : ℕ)
    (hN : b ≤ N * e) :
    |((List.range N).map fun n : ℕ =>
      if decide (a ≤ (n + 1 / 2) * e ∧ (n + 1 / 2) * e ≤ b) then e else 0).sum - (b - a)| ≤ e := by
  have split : ((List.range N).map fun n : ℕ =>
      if decide (a ≤ (n + 1 / 2) * e ∧ (n + 1 / 2) * e ≤ b) then e else 0).sum =
      ((List.range N).map fun n : ℕ => if decide ((n + 1 / 2) * e ≤ b) then e else 0).sum -
      ((List.range N).map fun n : ℕ => if decide ((n + 1 / 2) * e < a) then e else 0).sum := by
    clear hN
    induction N with
    | zero => simp
    | succ N ih =>
      simp only [List.range_succ, List.map_append, List.sum_append, List.map_singleton,
        List.sum_singleton]
      rw [ih]
      by_cases h1 : (N + 1 / 2) * e ≤ b <;> by_cases h2 : (N + 1 / 2) * e < a
      · simp only [h1, h2, not_le.2 h2, decide_true, if_true, false_and, decide_false]
        simp
      · simp only [h1, h2, not_lt.1 h2, decide_true, if_true, and_true, decide_false]
        simp; ring
      · exact absurd (h2.le.trans hab) h1
      · simp only [h1, h2, and_false, decide_false]
        simp
  have B := parts_before he (ha.trans hab) N (fun t => decide (t ≤ b)) (fun t h => by simpa using h.le)
    fun t h => by simpa using h
  have A := parts_before he ha N (fun t => decide (t < a)) (fun t h => by simpa using h)
    fun t h => by simpa using h.le
  rw [split]
  set S := ((List.range N).map fun n : ℕ => if decide ((n + 1 / 2) * e ≤ b) then e else 0).sum
  set T := ((List.range N).map fun n : ℕ => if decide ((n + 1 / 2) * e < a) then e else 0).sum
  have near : ∀ {x c : K}, c ≤ N * e → (N * e ≤ c → x = N * e) → (c < N * e → |x - c| ≤ e / 2) →
      |x - c| ≤ e / 2 := by
    intro x c hc h1 h2
    rcases lt_or_eq_of_le hc with h | h
    · exact h2 h
    · rw [h1 h.ge, h, sub_self, abs_zero]; linarith
  have hS := near hN B.1 B.2
  have hT := near (hab.trans hN) A.1 A.2
  rw [abs_le] at hS hT ⊢
  constructor <;> linarith [hS.1, hS.2, hT.1, hT.2]

/-- The total length of the surfaces for a predicate that chooses a part of a side. -/
theorem Divides.partOf {nodes : List (K × K)} {surfaces : List (List ℕ)} {sx sy : ℕ} {width height : K}
    (hD : Divides nodes surfaces sx sy width height) (hx : 1 ≤ sx) (hy : 1 ≤ sy) (hw : 0 < width)
    (hh : 0 < height) {sqrt : K → K} (hs : IsSqrt sqrt) {P : K × K → Bool} {s : Side} {a b : K}
    (ha : 0 ≤ a) (hab : a ≤ b) (hb : b ≤ s.length width height)
    (hP : ChoosesPart width height P s a b) :
    |((surfaces.filter fun f => P (centre (f.filterMap (nodes[·]?)))).map fun f =>
      surfaceSize sqrt 2 (vertices (coordinates nodes) f)).sum - (b - a)| ≤
      s.part sx sy width height := by
  obtain ⟨h1, h2⟩ := s.part_pos hx hy hw hh
  have hval : ∀ s' ∈ Side.all, ((List.range (s'.parts sx sy)).map
      fun n : ℕ => if P (s'.at width height ((n + 1 / 2) * s'.part sx sy width height)) then
        s'.part sx sy width height else 0).sum =
      if s' = s then ((List.range (s.parts sx sy)).map
        fun n : ℕ => if decide (a ≤ (n + 1 / 2) * s.part sx sy width height ∧
            (n + 1 / 2) * s.part sx sy width height ≤ b) then
          s.part sx sy width height else 0).sum else 0 := by
    intro s' _
    obtain ⟨g1, g2⟩ := s'.part_pos hx hy hw hh
    have hin : ∀ n ∈ List.range (s'.parts sx sy),
        P (s'.at width height (((n : ℕ) + 1 / 2) * s'.part sx sy width height)) =
        decide (s' = s ∧ a ≤ (n + 1 / 2) * s'.part sx sy width height ∧
            (n + 1 / 2) * s'.part sx sy width height ≤ b) := by
      intro n hn
      rw [List.mem_range] at hn
      have hn' : (n : K) + 1 ≤ s'.parts sx sy := by exact_mod_cast hn
      have h0 : (0 : K) ≤ n := Nat.cast_nonneg n
      refine hP s' _ (by positivity) ?_
      rw [← g2]
      exact mul_lt_mul_of_pos_right (by linarith) g1
    by_cases h : s' = s
    · subst h
      rw [if_pos rfl]
      congr 1
      refine List.map_congr_left fun n hn => ?_
      rw [hin n hn]
      simp only [true_and]
    · rw [if_neg h]
      refine List.sum_eq_zero fun x hx => ?_
      obtain ⟨n, hn, rfl⟩ := List.mem_map.1 hx
      rw [hin n hn]
      simp [h]
  have one : ∀ x : K, (Side.all.map fun s' => if s' = s then x else 0).sum = x := by
    intro x
    cases s <;> simp [Side.all]
  rw [hD.total hx hy hw hh hs, List.map_congr_left hval, one]
  exact parts_between h1 ha hab (s.parts sx sy) (by rw [h2]; exact hb)

/-- C102: for a predicate that chooses a part of a side, the surfaces that are found add up to the length
of the part up to the size of one cell. -/
theorem C102_part_partial [FloorSemiring K] [Inhabited (K × K)] {perimeter width height : K}
    (hp : 0 < perimeter) (hw : 0 < width) (hh : 0 < height) (htol : 1 / 10000 ≤ perimeter / 2)
    (hw' : 1 / 10000 ≤ width) (hh' : 1 / 10000 ≤ height) {nodes : List (K × K)}
    {elements : List (ℕ × ℕ × ℕ)} (hm : crossMesh perimeter width height = some (nodes, elements))
    (isContact isDirichlet P : K × K → Bool) (s : Side) {a b : K} (ha : 0 ≤ a) (hab : a ≤ b)
    (hb : b ≤ s.length width height) (hP : ChoosesPart width height P s a b)
    {sqrt : K → K} (hs : IsSqrt sqrt) :
    let m := identifyBoundaries centre nodes (elementRows elements) isContact isDirichlet
    |((applyPredicateToSurfaces centre m.boundarySurfaces m.nodes P).map fun f =>
      surfaceSize sqrt 2 (vertices (coordinates m.nodes) f)).sum - (b - a)| ≤ perimeter := by
  obtain ⟨hsx, hsy, hD⟩ := divides_crossMesh hp hw hh htol hw' hh' hm centre isContact isDirichlet
  refine le_trans (hD.partOf hsx hsy hw hh hs ha hab hb hP) ?_
  cases s
  · exact (crossSize_edge hw hp).2
  · exact (crossSize_edge hh hp).2
  · exact (crossSize_edge hw hp).2
  · exact (crossSize_edge hh hp).2

omit [IsStrictOrderedRing K] in
/-- A sum over elements as the sum of a list. -/
theorem sumElements_map (elements : List (List ℕ)) (f : List ℕ → K) :
    (sumElements elements fun _ e => f e) = (elements.map f).sum := by
  unfold sumElements
  induction elements using List.reverseRecOn with
  | nil => simp
  | append_singleton l e ih =>
    rw [List.length_append, List.length_singleton, Finset.sum_range_succ, List.map_append,
      List.sum_append, ← ih]
    congr 1
    · refine Finset.sum_congr rfl fun t ht => ?_
      have ht := Finset.mem_range.1 ht
      simp [List.getD_eq_getElem?_getD, List.getElem?_append_left ht]
    · simp

/-- The area of a renumbered mesh is the area of the mesh. -/
theorem SameSimplices.total_area {nodes nodes' : ℕ → ℕ → K} {elements elements' : List (List ℕ)}
    (h : SameSimplices 2 nodes nodes' elements elements') :
    (sumElements elements' fun _ e => area (vertices nodes' e)) =
      sumElements elements fun _ e => area (vertices nodes e) := by
  rw [sumElements_map, sumElements_map]
  congr 1
  induction h with
  | nil => rfl
  | @cons e' e l' l h _ ih =>
    rw [List.map_cons, List.map_cons, ih]
    congr 1
    obtain ⟨σ, hσ, hs⟩ := h
    unfold area
    rw [← abs_det2_reorder (vertices nodes e) σ hσ]
    congr 2
    unfold det2
    rw [hs 0 (by omega), hs 1 (by omega), hs 2 (by omega)]

/-- The area of a generated mesh, before and after renumbering. -/
theorem crossMesh_area [FloorSemiring K] [Inhabited (K × K)] {perimeter width height : K}
    (hp : 0 < perimeter) (hw : 0 < width) (hh : 0 < height) (htol : 1 / 10000 ≤ perimeter / 2)
    (hw' : 1 / 10000 ≤ width) (hh' : 1 / 10000 ≤ height) {nodes : List (K × K)}
    {elements : List (ℕ × ℕ × ℕ)} (hm : crossMesh perimeter width height = some (nodes, elements))
    (mean : List (K × K) → K × K) (isContact isDirichlet : K × K → Bool) :
    let m := identifyBoundaries mean nodes (elementRows elements) isContact isDirichlet
    (sumElements m.elements fun _ e => area (vertices (coordinates m.nodes) e)) = width * height := by
  intro m
  have hval := valid_crossMesh hp hw hh htol hw' hh' hm
  obtain ⟨hnd, hno⟩ := crossMesh_good hp hw hh htol hw' hh' hm
  have hv : Valid nodes.length (elementRows elements) := fun row h v hv => (hval row h).2 v hv
  have hk : ∀ e ∈ elementRows elements, e.length = 3 := fun row h => (hval row h).1
  obtain ⟨π, h⟩ := identify_stage mean 3 nodes (elementRows elements) isContact isDirichlet hv hk
  rw [(h.sameSimplices hval hnd).total_area, sumElements_map, elementRows, List.map_map]
  obtain ⟨sx, sy, ex, ey, hsx, hsy, hex, hey, rfl, rfl, rfl, hrows, hc⟩ :=
    crossMesh_data hp hw hh htol hw' hh' hm
  have T := crossTriangles_tiles hsx hsy hex hey
  rw [← T.area]
  have key : ∀ {es : List (ℕ × ℕ × ℕ)} {ts : List ((K × K) × (K × K) × (K × K))},
      List.Forall₂ (HasCorners ((halfWrites sx sy).map (halfPoint ex ey))) es ts →
      (∀ t ∈ ts, 0 < triArea t) →
      es.map ((fun e => area (vertices (coordinates ((halfWrites sx sy).map (halfPoint ex ey))) e)) ∘
        fun e => [e.1, e.2.1, e.2.2]) = ts.map triArea := by
    intro es ts h
    induction h with
    | nil => intro _; rfl
    | @cons e t es ts h _ ih =>
      intro hpos
      rw [List.map_cons, List.map_cons, ih fun t ht => hpos t (List.mem_cons_of_mem _ ht)]
      congr 1
      simp only [Function.comp, area]
      rw [det2_corners h, abs_of_pos (mul_pos two_pos (hpos t (by simp))),
        mul_div_cancel_left₀ _ two_ne_zero]
  rw [key hc T.oriented]

/-- C102: on a generated mesh a constant force per area and a constant force per length on the sides that
are neither in contact nor held have the totals force times area and force times length. -/
theorem C102_load_partial [FloorSemiring K] [Inhabited (K × K)] {perimeter width height : K}
    (hp : 0 < perimeter) (hw : 0 < width) (hh : 0 < height) (htol : 1 / 10000 ≤ perimeter / 2)
    (hw' : 1 / 10000 ≤ width) (hh' : 1 / 10000 ≤ height) {nodes : List (K × K)}
    {elements : List (ℕ × ℕ × ℕ)} (hm : crossMesh perimeter width height = some (nodes, elements))
    {isContact isDirichlet : K × K → Bool} {contact dirichlet : Side → Bool}
    (hc : ChoosesSides width height isContact contact)
    (hd : ChoosesSides width height isDirichlet dirichlet) {sqrt : K → K} (hs : IsSqrt sqrt)
    (inner outer : ℕ → K) :
    let m := identifyBoundaries centre nodes (elementRows elements) isContact isDirichlet
    let N := m.nodes.length
    ∃ r, integrateForces sqrt 2 N (basicMatrices2 m.elements (coordinates m.nodes)).volumeAtNodes
        m.neumannSurfaces (coordinates m.nodes) (fun _ => inner) (fun _ => outer) = some r ∧
      ∀ a, ∑ p ∈ Finset.range N, r (a * N + p) = inner a * (width * height) +
        outer a * sidesLength width height fun s => !contact s && !dirichlet s := by
  obtain ⟨hsx, hsy, hD⟩ := divides_crossMesh hp hw hh htol hw' hh' hm centre isContact isDirichlet
  have hk := kinds_eq centre nodes (elementRows elements) isContact isDirichlet _ rfl
  have hl := (C102_lengths_partial hp hw hh htol hw' hh' hm hc hd hs).2.2
  have hA := crossMesh_area hp hw hh htol hw' hh' hm centre isContact isDirichlet
  obtain ⟨⟨hv, hn, -⟩, -⟩ := C86_generated hp hw hh htol hw' hh' hm centre isContact isDirichlet
  generalize identifyBoundaries centre nodes (elementRows elements) isContact isDirichlet = m
    at hD hk hl hA hv hn ⊢
  intro m N
  have hf : ∀ f ∈ m.neumannSurfaces, f.length = 2 ∧ f.Nodup ∧ ∀ p ∈ f, p < N := by
    intro f hf
    rw [hk.2.2] at hf
    have hf := (List.mem_filter.1 hf).1
    obtain ⟨s, n, hn, he⟩ := hD.pair hf
    obtain ⟨h1, h2⟩ := s.part_pos hsx hsy hw hh
    refine ⟨hD.two f hf, ?_⟩
    have hne : s.at width height (n * s.part ⌈width / perimeter⌉₊ ⌈height / perimeter⌉₊ width height) ≠
        s.at width height ((n + 1) * s.part ⌈width / perimeter⌉₊ ⌈height / perimeter⌉₊ width height) := by
      intro h
      cases s <;> simp only [Side.at, Prod.mk.injEq, true_and, and_true] at h <;> linarith
    obtain ⟨a, b, rfl, hab⟩ := ends_pair (hD.two f hf) he
    have hlt : ∀ {v : ℕ} {p : K × K}, m.nodes[v]? = some p → v < N := fun h =>
      (List.getElem?_eq_some_iff.1 h).1
    have hab' : a ≠ b := by
      rintro rfl
      rcases hab with ⟨ha, hb⟩ | ⟨ha, hb⟩
      · exact hne (Option.some.inj (ha.symm.trans hb))
      · exact hne (Option.some.inj (hb.symm.trans ha))
    refine ⟨by simpa using hab', ?_⟩
    intro p hp
    simp only [List.mem_cons, List.not_mem_nil, or_false] at hp
    rcases hab with ⟨ha, hb⟩ | ⟨ha, hb⟩ <;> rcases hp with rfl | rfl <;>
      first | exact hlt ha | exact hlt hb
  obtain ⟨r, hr, hval⟩ := C31_integrate sqrt 2 (Or.inl rfl) (coordinates m.nodes) N m.neumannSurfaces
    (basicMatrices2 m.elements (coordinates m.nodes)).volumeAtNodes (fun f h => (hf f h).1)
    (fun _ => inner) fun _ => outer
  refine ⟨r, hr, fun a => ?_⟩
  obtain ⟨w, -, hw1, hw2⟩ := C31_weights sqrt 2 (Or.inl rfl) (by norm_num) (coordinates m.nodes) N
    m.neumannSurfaces hf
  rw [Finset.sum_congr rfl fun p hp => hval a p (Finset.mem_range.1 hp), Finset.sum_add_distrib,
    (C30_constant inner a).1 hv hn, hA]
  congr 1
  rw [← Finset.sum_mul, ← Finset.sum_congr rfl fun p _ => hw1 p, hw2, mul_comm]
  congr 1

/-- C102: a part of a side at its end that is shorter than half a cell has no surfaces at all. -/
theorem C102_part_wrong [FloorSemiring K] [Inhabited (K × K)] {perimeter width height : K}
    (hp : 0 < perimeter) (hw : 0 < width) (hh : 0 < height) (htol : 1 / 10000 ≤ perimeter / 2)
    (hw' : 1 / 10000 ≤ width) (hh' : 1 / 10000 ≤ height) {nodes : List (K × K)}
    {elements : List (ℕ × ℕ × ℕ)} (hm : crossMesh perimeter width height = some (nodes, elements))
    (isContact isDirichlet P : K × K → Bool) (s : Side) {b : K}
    (hb : b < s.part ⌈width / perimeter⌉₊ ⌈height / perimeter⌉₊ width height / 2)
    (hP : ChoosesPart width height P s 0 b) :
    let m := identifyBoundaries centre nodes (elementRows elements) isContact isDirichlet
    applyPredicateToSurfaces centre m.boundarySurfaces m.nodes P = [] := by
  obtain ⟨hsx, hsy, hD⟩ := divides_crossMesh hp hw hh htol hw' hh' hm centre isContact isDirichlet
  generalize identifyBoundaries centre nodes (elementRows elements) isContact isDirichlet = m at hD ⊢
  intro m
  unfold applyPredicateToSurfaces
  rw [List.filter_eq_nil_iff]
  intro f hf
  obtain ⟨s', n, hn, he⟩ := hD.pair hf
  obtain ⟨h1, h2⟩ := s'.part_pos hsx hsy hw hh
  have hn' : (n : K) + 1 ≤ s'.parts ⌈width / perimeter⌉₊ ⌈height / perimeter⌉₊ := by exact_mod_cast hn
  have h0 : (0 : K) ≤ n := Nat.cast_nonneg n
  obtain ⟨e1, -⟩ := surface_of_ends (hD.two f hf) he fun x => x
  have e2 : centre (f.filterMap (m.nodes[·]?)) = s'.at width height
        ((n + 1 / 2) * s'.part ⌈width / perimeter⌉₊ ⌈height / perimeter⌉₊ width height) := by
    rw [e1]
    cases s' <;> simp only [Side.at, Prod.mk.injEq] <;> constructor <;> ring
  rw [e2, hP s' _ (by positivity) (by rw [← h2]; exact mul_lt_mul_of_pos_right (by linarith) h1)]
  simp only [decide_eq_true_eq, not_and, not_le]
  rintro rfl -
  have := mul_nonneg h0 h1.le
  linarith

/-- Predicates as in the examples: contact below, held on the left. -/
theorem chooses_examples {width height : K} (hw : 0 < width) (hh : 0 < height) :
    ChoosesSides width height (fun p => decide (p.2 = 0)) (fun s => decide (s = .bottom)) ∧
    ChoosesSides width height (fun p => decide (p.1 = 0)) (fun s => decide (s = .left)) := by
  constructor <;> intro s t h1 h2 <;> cases s <;>
    simp [Side.at, h1.ne', hw.ne', hh.ne']

end

/-- A rectangle with two cells: contact below, held on the left. -/
example : ∃ nodes elements, crossMesh (1 : ℚ) 2 1 = some (nodes, elements) ∧
    ChoosesSides (2 : ℚ) 1 (fun p => decide (p.2 = 0)) (fun s => decide (s = .bottom)) ∧
    ChoosesSides (2 : ℚ) 1 (fun p => decide (p.1 = 0)) (fun s => decide (s = .left)) ∧
    (let m := identifyBoundaries centre nodes (elementRows elements) (fun p => decide (p.2 = 0))
      fun p => decide (p.1 = 0)
    (m.boundarySurfaces.length, m.contactSurfaces.length, m.dirichletSurfaces.length,
      m.neumannSurfaces.length) = (6, 2, 1, 3)) ∧
    (sidesLength (2 : ℚ) 1 fun s => !decide (s = .bottom) && !decide (s = .left)) = 3 := by
  obtain ⟨h1, h2⟩ := chooses_examples (K := ℚ) (width := 2) (height := 1) (by norm_num) (by norm_num)
  refine ⟨[(3 / 2, 1 / 2), (1 / 2, 1 / 2), (1, 1), (2, 1), (2, 0), (1, 0), (0, 0), (0, 1)],
    [(6, 5, 1), (5, 2, 1), (2, 7, 1), (7, 6, 1), (5, 4, 0), (4, 3, 0), (3, 2, 0), (2, 5, 0)],
    ?_, h1, h2, ?_, ?_⟩ <;> decide +kernel

/-- A quarter of the lower side of a cell: no surface is found, although the node at its end satisfies
the predicate and is counted as a contact node. -/
example : ∃ nodes elements, crossMesh (1 : ℚ) 1 1 = some (nodes, elements) ∧
    (let m := identifyBoundaries centre nodes (elementRows elements)
      (fun p => decide (p.2 = 0 ∧ p.1 ≤ 1 / 4)) fun _ => false
    m.contactSurfaces = [] ∧ m.neumannSurfaces.length = 4 ∧ m.contactRange = (0, 1)) := by
  refine ⟨[(1 / 2, 1 / 2), (1, 1), (1, 0), (0, 0), (0, 1)],
    [(3, 2, 0), (2, 1, 0), (1, 4, 0), (4, 3, 0)], ?_, ?_⟩ <;> decide +kernel

/-- The hypothesis on the predicate is satisfiable. -/
example : ChoosesPart (1 : ℚ) 1 (fun p => decide (p.2 = 0 ∧ p.1 ≤ 1 / 4)) .bottom 0 (1 / 4) := by
  intro s t h1 h2
  cases s <;> simp [Side.at, h1.ne', h1.le]

/-- All hypotheses of the theorem on loads together, over the real numbers. -/
noncomputable example : ∃ nodes elements, crossMesh (1 : ℝ) 2 1 = some (nodes, elements) ∧
    let m := identifyBoundaries centre nodes (elementRows elements)
      (fun p => decide (p.2 = 0)) fun p => decide (p.1 = 0)
    ∃ r : ℕ → ℝ,
      ∑ p ∈ Finset.range m.nodes.length, r (1 * m.nodes.length + p) = -5 * (2 * 1) + 7 * (1 + 2) := by
  obtain ⟨nodes, elements, -, h, -⟩ := C52_mesh_partial (K := ℝ) (perimeter := 1) (width := 2)
    (height := 1) (by norm_num) (by norm_num) (by norm_num) (by norm_num) (by norm_num) (by norm_num)
  obtain ⟨h1, h2⟩ := chooses_examples (K := ℝ) (width := 2) (height := 1) (by norm_num) (by norm_num)
  obtain ⟨r, -, hr⟩ := C102_load_partial (by norm_num) (by norm_num) (by norm_num) (by norm_num)
    (by norm_num) (by norm_num) h h1 h2
    (sqrt := Real.sqrt) (fun _ hx => ⟨Real.sqrt_nonneg _, Real.mul_self_sqrt hx⟩) (fun _ => -5) fun _ => 7
  refine ⟨nodes, elements, h, r, ?_⟩
  rw [hr 1]
  simp [sidesLength, Side.all, Side.length]

end Conmech
