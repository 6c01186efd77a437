import Mathlib.Tactic.NormNum
import Mathlib.Data.List.Nodup
import Mathlib.Tactic.FinCases
import Verif.Lemmas.Tetrahedra
import Verif.Model.HardcodedMeshes
/-
C53 the cube mesh is a valid tetrahedralisation.
-/
namespace Conmech

open Spec

/-- A face from its code. -/
def decodeFace (k : ℕ) : ℕ × ℕ × ℕ := (k / 4096, k / 64 % 64, k % 64)

theorem decodeFace_inj {k l : ℕ} (h : decodeFace k = decodeFace l) : k = l := by
  simp only [decodeFace, Prod.mk.injEq] at h
  omega

/-- The faces of the table whose first vertex is `i`. -/
def faceBucket (table : List (ℕ × ℕ)) (i : ℕ) : List (ℕ × ℕ) :=
  table.filter fun g => Nat.beq (g.1 / 4096) i

/-- The faces of a list with code `k`. -/
def sameFace (b : List (ℕ × ℕ)) (k : ℕ) : List (ℕ × ℕ) := b.filter fun g => Nat.beq g.1 k

theorem sameFace_bucket (table : List (ℕ × ℕ)) (k : ℕ) :
    sameFace (faceBucket table (k / 4096)) k = table.filter fun g => g.1 == k := by
  unfold sameFace faceBucket
  rw [List.filter_filter]
  apply List.filter_congr
  intro g _
  rw [Bool.eq_iff_iff, Bool.and_eq_true, Nat.beq_eq, Nat.beq_eq, beq_iff_eq]
  exact ⟨fun h => h.1, fun h => ⟨h, by rw [h]⟩⟩

/-- A check of each face of the table with the faces that have the same first vertex. -/
def bucketCheck (table : List (ℕ × ℕ)) (P : ℕ × ℕ → List (ℕ × ℕ) → Bool) : Bool :=
  table.all (fun f => Nat.blt (f.1 / 4096) 64) &&
  (List.range 64).all fun i =>
    (faceBucket table i).all fun f => P f (sameFace (faceBucket table i) f.1)

theorem of_bucketCheck {table : List (ℕ × ℕ)} {P : ℕ × ℕ → List (ℕ × ℕ) → Bool}
    (h : bucketCheck table P = true) :
    ∀ f ∈ table, P f (table.filter fun g => g.1 == f.1) = true := by
  simp only [bucketCheck, Bool.and_eq_true, List.all_eq_true] at h
  intro f hf
  have h64 : f.1 / 4096 < 64 := by
    have := h.1 f hf
    have h63 : f.1 / 4096 ≤ 63 := by simpa [Nat.blt, Nat.ble_eq] using this
    omega
  have hb : f ∈ faceBucket table (f.1 / 4096) :=
    List.mem_filter.2 ⟨hf, by simp⟩
  have := h.2 _ (List.mem_range.2 h64) f hb
  rwa [sameFace_bucket] at this

/-- Decidable conditions that imply `Spec.Conforming`, for a given table of faces. -/
def conformingCheck (nodes : List (ℚ × ℚ × ℚ)) (elements : List (ℕ × ℕ × ℕ × ℕ))
    (table : List (ℕ × ℕ)) : Bool :=
  elements.all (fun e => e.1 < nodes.length ∧ e.2.1 < nodes.length ∧ e.2.2.1 < nodes.length ∧
    e.2.2.2 < nodes.length) &&
  (List.range nodes.length).all (fun i => elements.any fun e =>
    Nat.beq e.1 i || Nat.beq e.2.1 i || Nat.beq e.2.2.1 i || Nat.beq e.2.2.2 i) &&
  elements.all (fun e => 0 < (corners nodes e).det) &&
  bucketCheck table fun f same =>
    (Nat.beq same.length 1 || Nat.beq same.length 2) &&
    Nat.beq (same.filter fun g => Nat.beq g.2 f.2).length 1 &&
    same.all (fun g => Nat.beq f.2 g.2 || decide
      (side nodes (decodeFace f.1) f.2 * side nodes (decodeFace f.1) g.2 < 0))

theorem conforming_of_check {nodes : List (ℚ × ℚ × ℚ)} {elements : List (ℕ × ℕ × ℕ × ℕ)}
    {table : List (ℕ × ℕ)} (ht : allFaces elements = table.map fun f => (decodeFace f.1, f.2))
    (h : conformingCheck nodes elements table = true) : Conforming nodes elements := by
  simp only [conformingCheck, Bool.and_eq_true] at h
  obtain ⟨⟨⟨h1, h2⟩, h3⟩, h4⟩ := h
  replace h4 := of_bucketCheck h4
  simp only [List.all_eq_true, List.any_eq_true, Bool.and_eq_true,
    decide_eq_true_eq, List.mem_range, Bool.or_eq_true, Nat.beq_eq, or_assoc] at h1 h2 h3 h4
  have hfilter : ∀ k : ℕ, ((allFaces elements).filter fun g => g.1 = decodeFace k).length =
      (table.filter fun g => g.1 == k).length := by
    intro k
    rw [ht, List.filter_map, List.length_map]
    congr 1
    apply List.filter_congr
    intro g _
    simp only [Function.comp]
    by_cases hg : g.1 = k
    · simp [hg]
    · have : decodeFace g.1 ≠ decodeFace k := fun h => hg (decodeFace_inj h)
      simp [hg, this]
  refine ⟨h1, h2, h3, ?_, ?_, ?_⟩
  · intro f hf
    rw [ht] at hf
    obtain ⟨p, hp, rfl⟩ := List.mem_map.mp hf
    rw [hfilter]
    exact (h4 p hp).1.1
  · intro f hf g hg hfg hne
    rw [ht] at hf hg
    obtain ⟨p, hp, rfl⟩ := List.mem_map.mp hf
    obtain ⟨q, hq, rfl⟩ := List.mem_map.mp hg
    have hpq : q.1 = p.1 := decodeFace_inj hfg.symm
    have := (h4 p hp).2 q (List.mem_filter.mpr ⟨hq, by simp [hpq]⟩)
    rcases this with h | h
    · exact absurd h hne
    · simpa [hpq] using h
  · rw [ht]
    have : table.Nodup := by
      rw [List.nodup_iff_count_le_one]
      intro f
      by_cases hf : f ∈ table
      · have h5 := (h4 f hf).1.2
        rw [List.filter_filter] at h5
        rw [List.count_eq_length_filter, ← h5]
        refine le_of_eq (congrArg List.length (List.filter_congr fun g _ => ?_))
        rw [Bool.eq_iff_iff, Bool.and_eq_true, Nat.beq_eq, beq_iff_eq, beq_iff_eq, Prod.ext_iff]
        exact and_comm
      · rw [List.count_eq_zero_of_not_mem hf]
        exact Nat.zero_le _
    refine this.map ?_
    rintro ⟨a, b⟩ ⟨c, d⟩ h
    simp only [Prod.mk.injEq] at h
    simp only [Prod.mk.injEq]
    exact ⟨decodeFace_inj (by simpa using h.1), h.2⟩

theorem boundary_of_check {elements : List (ℕ × ℕ × ℕ × ℕ)}
    {table : List (ℕ × ℕ)} (ht : allFaces elements = table.map fun f => (decodeFace f.1, f.2))
    {P : ℕ × ℕ × ℕ → Prop} [DecidablePred P]
    (h : (bucketCheck table fun f same => !Nat.beq same.length 1 ||
      decide (P (decodeFace f.1))) = true) :
    ∀ f ∈ allFaces elements, OuterFace elements f.1 → P f.1 := by
  intro f hf hb
  rw [ht] at hf
  obtain ⟨p, hp, rfl⟩ := List.mem_map.mp hf
  have := of_bucketCheck h p hp
  simp only [Bool.or_eq_true, Bool.not_eq_true', decide_eq_true_eq] at this
  rcases this with h' | h'
  · exfalso
    refine Nat.ne_of_beq_eq_false h' ?_
    unfold OuterFace at hb
    rw [ht, List.filter_map, List.length_map] at hb
    rw [← hb]
    congr 1
    apply List.filter_congr
    intro g _
    simp only [Function.comp]
    by_cases hg : g.1 = p.1
    · simp [hg]
    · have : decodeFace g.1 ≠ decodeFace p.1 := fun h => hg (decodeFace_inj h)
      simp [hg, this]
  · exact h'

section C53

/-- The codes of the faces of the cube mesh, a certificate. -/
def cubeFaces : List (ℕ × ℕ) := [
  (4297, 0), (201, 1), (73, 3), (67, 9), (54229, 12), (50133, 13), (50005, 15), (49999, 21),
  (45907, 10), (41811, 11), (41683, 13), (41677, 19), (20941, 4), (16845, 5), (16717, 7),
  (16711, 13), (12557, 1), (4301, 4), (4365, 3), (4292, 13), (62489, 13), (54233, 16),
  (54297, 15), (54224, 25), (54167, 11), (45911, 14), (45975, 13), (45902, 23), (29201, 5),
  (20945, 8), (21009, 7), (20936, 17), (12877, 1), (4685, 3), (4301, 9), (4297, 13), (62809, 13),
  (54617, 15), (54233, 21), (54229, 25), (54487, 11), (46295, 13), (45911, 19), (45907, 23),
  (29521, 5), (21329, 7), (20945, 13), (20941, 17), (37517, 1), (4749, 9), (4685, 10), (4682, 13),
  (87449, 13), (54681, 21), (54617, 22), (54614, 25), (79127, 11), (46359, 19), (46295, 20),
  (46292, 23), (54161, 5), (21393, 13), (21329, 14), (21326, 17), (37645, 3), (13069, 9),
  (12876, 13), (12877, 12), (87577, 15), (63001, 21), (62808, 25), (62809, 24), (79255, 13),
  (54679, 19), (54486, 23), (54487, 22), (54289, 7), (29713, 13), (29520, 17), (29521, 16),
  (38101, 18), (38037, 19), (74965, 9), (38035, 21), (13135, 12), (13071, 13), (49999, 3),
  (13069, 15), (4813, 10), (4749, 11), (41677, 1), (4747, 13), (54745, 22), (54681, 23),
  (91609, 13), (54679, 25), (54614, 19), (54485, 22), (79190, 13), (54486, 21), (29648, 13),
  (29519, 16), (54224, 7), (29520, 15), (21326, 11), (21197, 14), (45902, 5), (21198, 13),
  (71258, 23), (71129, 26), (95834, 17), (71130, 25), (37717, 19), (37715, 21), (38101, 13),
  (54485, 9), (12751, 13), (12749, 15), (13135, 7), (29519, 3), (4429, 11), (4427, 13), (4813, 5),
  (21197, 1), (54361, 23), (54359, 25), (54745, 17), (71129, 13), (37517, 19), (41811, 9),
  (37523, 13), (37715, 10), (12551, 13), (16845, 3), (12557, 7), (12749, 4), (4229, 11),
  (8523, 1), (4235, 5), (4427, 2), (54161, 23), (58455, 13), (54167, 17), (54359, 14),
  (37645, 21), (50005, 9), (37717, 12), (37653, 13), (12679, 15), (25039, 3), (12751, 6),
  (12687, 7), (4357, 13), (16717, 1), (4429, 4), (4365, 5), (54289, 25), (66649, 13), (54361, 16),
  (54297, 17)]

/-- C53: the tetrahedra of the cube are positively oriented, a face belongs to one or two of them, and
neighbours are on different sides of their common face. -/
theorem C53_conforming : Conforming cubeNodes cubeElements :=
  conforming_of_check (table := cubeFaces) (by decide +kernel) (by decide +kernel)

/-- C53: the volumes add up to one. -/
theorem C53_volume :
    (cubeElements.map fun e => (corners cubeNodes e).det / 6).sum = 1 := by
  decide +kernel

/-- C53: the faces that belong to one tetrahedron lie on the faces of the cube. -/
theorem C53_boundary : ∀ f ∈ allFaces cubeElements, OuterFace cubeElements f.1 →
    ∃ c ∈ [fun p : ℚ × ℚ × ℚ => p.1, fun p => p.2.1, fun p => p.2.2], ∃ v ∈ [(0 : ℚ), 1],
      c (cubeNodes.getD f.1.1 0) = v ∧ c (cubeNodes.getD f.1.2.1 0) = v ∧
        c (cubeNodes.getD f.1.2.2 0) = v := by
  unfold OuterFace
  decide +kernel

/-- The tetrahedra of the cube mesh. -/
def cubeTets : List (Tet ℚ) := cubeElements.map (corners cubeNodes)

theorem cubeTets_separated : cubeTets.Pairwise FaceSeparated := by decide +kernel

variable {K : Type} [Field K] [LinearOrder K] [IsStrictOrderedRing K]

/-- C53: over every ordered field the interiors of different tetrahedra of the cube are disjoint. -/
theorem C53_disjoint : DisjointInteriors (cubeTets.map (castTet K)) := by
  have hpos : ∀ t ∈ cubeTets, 0 < t.det := by
    intro t ht
    obtain ⟨e, he, rfl⟩ := List.mem_map.mp ht
    exact C53_conforming.positive e he
  unfold DisjointInteriors
  rw [List.pairwise_map]
  refine cubeTets_separated.imp_of_mem ?_
  intro s t hs ht h x hx
  exact disjoint_of_faceSeparated (hpos s hs) (hpos t ht) h x hx

/-- Containment in an element of the cube mesh. -/
theorem cube_covered_by {n : ℕ} (x : K × K × K) (h : n < 40)
    (hin : (castTet K (corners cubeNodes (cubeElements.getD n 0))).Contains x) :
    ∃ t ∈ cubeTets, (castTet K t).Contains x := by
  refine ⟨_, ?_, hin⟩
  have hlen : cubeElements.length = 40 := rfl
  have : cubeElements.getD n 0 ∈ cubeElements := by
    rw [List.getD_eq_getElem?_getD, List.getElem?_eq_getElem (by omega)]
    exact List.getElem_mem _
  exact List.mem_map_of_mem this

/-- Unfold the linear inequalities of containment and solve them. -/
local macro "cube_contains" : tactic => `(tactic|
  (simp only [castTet, castPoint, corners, cubeNodes, cubeElements, Tet.Contains, Tet.coords, orient3,
    List.getD_cons_zero, List.getD_cons_succ, List.mem_cons, List.not_mem_nil, or_false,
    forall_eq_or_imp, forall_eq]
   push_cast
   refine ⟨?_, ?_, ?_, ?_⟩ <;> linarith))

theorem cube_covers_000 (x y z : K) (hx : 0 ≤ x) (hx' : x ≤ 1 / 2) (hy : 0 ≤ y) (hy' : y ≤ 1 / 2)
    (hz : 0 ≤ z) (hz' : z ≤ 1 / 2) : ∃ t ∈ cubeTets, (castTet K t).Contains (x, y, z) := by
  rcases lt_or_ge (x - y - z + (1/2) : K) 0 with h1 | h1
  · exact cube_covered_by _ (n := 16) (by omega) (by cube_contains)
  rcases lt_or_ge (-x + y - z + (1/2) : K) 0 with h2 | h2
  · exact cube_covered_by _ (n := 12) (by omega) (by cube_contains)
  rcases lt_or_ge (-x - y + z + (1/2) : K) 0 with h3 | h3
  · exact cube_covered_by _ (n := 4) (by omega) (by cube_contains)
  rcases lt_or_ge (x + y + z + (-1/2) : K) 0 with h4 | h4
  · exact cube_covered_by _ (n := 0) (by omega) (by cube_contains)
  exact cube_covered_by _ (n := 8) (by omega) (by cube_contains)

theorem cube_covers_001 (x y z : K) (hx : 0 ≤ x) (hx' : x ≤ 1 / 2) (hy : 0 ≤ y) (hy' : y ≤ 1 / 2)
    (hz : 1 / 2 ≤ z) (hz' : z ≤ 1) : ∃ t ∈ cubeTets, (castTet K t).Contains (x, y, z) := by
  rcases lt_or_ge (x - y + z + (-1/2) : K) 0 with h5 | h5
  · exact cube_covered_by _ (n := 36) (by omega) (by cube_contains)
  rcases lt_or_ge (-x + y + z + (-1/2) : K) 0 with h6 | h6
  · exact cube_covered_by _ (n := 32) (by omega) (by cube_contains)
  rcases lt_or_ge (x + y - z + (1/2) : K) 0 with h7 | h7
  · exact cube_covered_by _ (n := 20) (by omega) (by cube_contains)
  rcases lt_or_ge (-x - y - z + (3/2) : K) 0 with h8 | h8
  · exact cube_covered_by _ (n := 24) (by omega) (by cube_contains)
  exact cube_covered_by _ (n := 28) (by omega) (by cube_contains)

theorem cube_covers_010 (x y z : K) (hx : 0 ≤ x) (hx' : x ≤ 1 / 2) (hy : 1 / 2 ≤ y) (hy' : y ≤ 1)
    (hz : 0 ≤ z) (hz' : z ≤ 1 / 2) : ∃ t ∈ cubeTets, (castTet K t).Contains (x, y, z) := by
  rcases lt_or_ge (x - y + z + (1/2) : K) 0 with h9 | h9
  · exact cube_covered_by _ (n := 37) (by omega) (by cube_contains)
  rcases lt_or_ge (-x + y + z + (-1/2) : K) 0 with h10 | h10
  · exact cube_covered_by _ (n := 33) (by omega) (by cube_contains)
  rcases lt_or_ge (x + y - z + (-1/2) : K) 0 with h11 | h11
  · exact cube_covered_by _ (n := 21) (by omega) (by cube_contains)
  rcases lt_or_ge (-x - y - z + (3/2) : K) 0 with h12 | h12
  · exact cube_covered_by _ (n := 25) (by omega) (by cube_contains)
  exact cube_covered_by _ (n := 29) (by omega) (by cube_contains)

theorem cube_covers_011 (x y z : K) (hx : 0 ≤ x) (hx' : x ≤ 1 / 2) (hy : 1 / 2 ≤ y) (hy' : y ≤ 1)
    (hz : 1 / 2 ≤ z) (hz' : z ≤ 1) : ∃ t ∈ cubeTets, (castTet K t).Contains (x, y, z) := by
  rcases lt_or_ge (x - y - z + (3/2) : K) 0 with h13 | h13
  · exact cube_covered_by _ (n := 17) (by omega) (by cube_contains)
  rcases lt_or_ge (-x + y - z + (1/2) : K) 0 with h14 | h14
  · exact cube_covered_by _ (n := 13) (by omega) (by cube_contains)
  rcases lt_or_ge (-x - y + z + (1/2) : K) 0 with h15 | h15
  · exact cube_covered_by _ (n := 5) (by omega) (by cube_contains)
  rcases lt_or_ge (x + y + z + (-3/2) : K) 0 with h16 | h16
  · exact cube_covered_by _ (n := 1) (by omega) (by cube_contains)
  exact cube_covered_by _ (n := 9) (by omega) (by cube_contains)

theorem cube_covers_100 (x y z : K) (hx : 1 / 2 ≤ x) (hx' : x ≤ 1) (hy : 0 ≤ y) (hy' : y ≤ 1 / 2)
    (hz : 0 ≤ z) (hz' : z ≤ 1 / 2) : ∃ t ∈ cubeTets, (castTet K t).Contains (x, y, z) := by
  rcases lt_or_ge (x - y + z + (-1/2) : K) 0 with h17 | h17
  · exact cube_covered_by _ (n := 38) (by omega) (by cube_contains)
  rcases lt_or_ge (-x + y + z + (1/2) : K) 0 with h18 | h18
  · exact cube_covered_by _ (n := 34) (by omega) (by cube_contains)
  rcases lt_or_ge (x + y - z + (-1/2) : K) 0 with h19 | h19
  · exact cube_covered_by _ (n := 22) (by omega) (by cube_contains)
  rcases lt_or_ge (-x - y - z + (3/2) : K) 0 with h20 | h20
  · exact cube_covered_by _ (n := 26) (by omega) (by cube_contains)
  exact cube_covered_by _ (n := 30) (by omega) (by cube_contains)

theorem cube_covers_101 (x y z : K) (hx : 1 / 2 ≤ x) (hx' : x ≤ 1) (hy : 0 ≤ y) (hy' : y ≤ 1 / 2)
    (hz : 1 / 2 ≤ z) (hz' : z ≤ 1) : ∃ t ∈ cubeTets, (castTet K t).Contains (x, y, z) := by
  rcases lt_or_ge (x - y - z + (1/2) : K) 0 with h21 | h21
  · exact cube_covered_by _ (n := 18) (by omega) (by cube_contains)
  rcases lt_or_ge (-x + y - z + (3/2) : K) 0 with h22 | h22
  · exact cube_covered_by _ (n := 14) (by omega) (by cube_contains)
  rcases lt_or_ge (-x - y + z + (1/2) : K) 0 with h23 | h23
  · exact cube_covered_by _ (n := 6) (by omega) (by cube_contains)
  rcases lt_or_ge (x + y + z + (-3/2) : K) 0 with h24 | h24
  · exact cube_covered_by _ (n := 2) (by omega) (by cube_contains)
  exact cube_covered_by _ (n := 10) (by omega) (by cube_contains)

theorem cube_covers_110 (x y z : K) (hx : 1 / 2 ≤ x) (hx' : x ≤ 1) (hy : 1 / 2 ≤ y) (hy' : y ≤ 1)
    (hz : 0 ≤ z) (hz' : z ≤ 1 / 2) : ∃ t ∈ cubeTets, (castTet K t).Contains (x, y, z) := by
  rcases lt_or_ge (x - y - z + (1/2) : K) 0 with h25 | h25
  · exact cube_covered_by _ (n := 19) (by omega) (by cube_contains)
  rcases lt_or_ge (-x + y - z + (1/2) : K) 0 with h26 | h26
  · exact cube_covered_by _ (n := 15) (by omega) (by cube_contains)
  rcases lt_or_ge (-x - y + z + (3/2) : K) 0 with h27 | h27
  · exact cube_covered_by _ (n := 7) (by omega) (by cube_contains)
  rcases lt_or_ge (x + y + z + (-3/2) : K) 0 with h28 | h28
  · exact cube_covered_by _ (n := 3) (by omega) (by cube_contains)
  exact cube_covered_by _ (n := 11) (by omega) (by cube_contains)

theorem cube_covers_111 (x y z : K) (hx : 1 / 2 ≤ x) (hx' : x ≤ 1) (hy : 1 / 2 ≤ y) (hy' : y ≤ 1)
    (hz : 1 / 2 ≤ z) (hz' : z ≤ 1) : ∃ t ∈ cubeTets, (castTet K t).Contains (x, y, z) := by
  rcases lt_or_ge (x - y + z + (-1/2) : K) 0 with h29 | h29
  · exact cube_covered_by _ (n := 39) (by omega) (by cube_contains)
  rcases lt_or_ge (-x + y + z + (-1/2) : K) 0 with h30 | h30
  · exact cube_covered_by _ (n := 35) (by omega) (by cube_contains)
  rcases lt_or_ge (x + y - z + (-1/2) : K) 0 with h31 | h31
  · exact cube_covered_by _ (n := 23) (by omega) (by cube_contains)
  rcases lt_or_ge (-x - y - z + (5/2) : K) 0 with h32 | h32
  · exact cube_covered_by _ (n := 27) (by omega) (by cube_contains)
  exact cube_covered_by _ (n := 31) (by omega) (by cube_contains)

/-- C53: over every ordered field every point of the cube lies in a tetrahedron. -/
theorem C53_covers (x y z : K) (hx : 0 ≤ x) (hx' : x ≤ 1) (hy : 0 ≤ y) (hy' : y ≤ 1) (hz : 0 ≤ z)
    (hz' : z ≤ 1) : ∃ t ∈ cubeTets, (castTet K t).Contains (x, y, z) := by
  rcases le_total x (1 / 2) with hx2 | hx2 <;> rcases le_total y (1 / 2) with hy2 | hy2 <;>
    rcases le_total z (1 / 2) with hz2 | hz2
  · exact cube_covers_000 x y z hx hx2 hy hy2 hz hz2
  · exact cube_covers_001 x y z hx hx2 hy hy2 hz2 hz'
  · exact cube_covers_010 x y z hx hx2 hy2 hy' hz hz2
  · exact cube_covers_011 x y z hx hx2 hy2 hy' hz2 hz'
  · exact cube_covers_100 x y z hx2 hx' hy hy2 hz hz2
  · exact cube_covers_101 x y z hx2 hx' hy hy2 hz2 hz'
  · exact cube_covers_110 x y z hx2 hx' hy2 hy' hz hz2
  · exact cube_covers_111 x y z hx2 hx' hy2 hy' hz2 hz'

end C53

end Conmech
