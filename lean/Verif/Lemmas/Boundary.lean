import Verif.Lemmas.Reorder
import Mathlib.Data.List.Sort
import Mathlib.Data.List.Dedup
import Mathlib.Data.Multiset.Sort

namespace Conmech
open Spec

theorem sortRow_perm (row : List ℕ) : (sortRow row).Perm row := List.perm_insertionSort _ _

theorem sortRow_sorted (row : List ℕ) : (sortRow row).Pairwise (· ≤ ·) :=
  List.pairwise_insertionSort _ row

theorem eq_of_sorted_perm {a b : List ℕ} (ha : a.Pairwise (· ≤ ·)) (hb : b.Pairwise (· ≤ ·))
    (h : a.Perm b) : a = b :=
  h.eq_of_pairwise (fun _ _ _ _ => le_antisymm) ha hb

theorem sortRow_of_sorted {a : List ℕ} (ha : a.Pairwise (· ≤ ·)) : sortRow a = a :=
  eq_of_sorted_perm (sortRow_sorted a) ha (sortRow_perm a)

/-! ### faces -/

theorem faces_eq_map_coe (elements : List (List ℕ)) :
    faces elements = ((elements.map fun (e : List ℕ) => (e : Multiset ℕ) : List (Multiset ℕ)) :
      Multiset (Multiset ℕ)).bind
      fun m => m.map fun v => m.erase v := by
  unfold faces
  rw [← Multiset.map_coe, Multiset.bind_map]

/-- `faces` only depends on the rows as multisets. -/
theorem faces_congr {e1 e2 : List (List ℕ)}
    (h : List.Forall₂ (fun a b : List ℕ => a.Perm b) e1 e2) : faces e1 = faces e2 := by
  rw [faces_eq_map_coe, faces_eq_map_coe]
  congr 2
  induction h with
  | nil => rfl
  | cons hab _ ih => simp only [List.map_cons]; rw [ih, Multiset.coe_eq_coe.2 hab]

theorem faces_map (π : ℕ → ℕ) (hπ : Function.Injective π) (elements : List (List ℕ)) :
    faces (elements.map fun row => row.map π) = (faces elements).map (Multiset.map π) := by
  unfold faces
  rw [Multiset.map_bind, ← Multiset.map_coe, Multiset.bind_map]
  congr 1
  funext e
  rw [← Multiset.map_coe, Multiset.map_map, Multiset.map_map]
  apply Multiset.map_congr rfl
  intro v _
  simp only [Function.comp]
  rw [Multiset.map_erase π hπ]

theorem boundaryFace_map (π : ℕ → ℕ) (hπ : Function.Injective π) (elements : List (List ℕ))
    (f : Multiset ℕ) :
    BoundaryFace (elements.map fun row => row.map π) (f.map π) ↔ BoundaryFace elements f := by
  unfold BoundaryFace
  rw [faces_map π hπ, Multiset.count_map_eq_count' _ _ (Multiset.map_injective hπ)]

theorem boundaryNode_map (π : ℕ → ℕ) (hπ : Function.Injective π) (elements : List (List ℕ))
    (v : ℕ) :
    BoundaryNode (elements.map fun row => row.map π) (π v) ↔ BoundaryNode elements v := by
  constructor
  · rintro ⟨f, hf, hv⟩
    have hmem : f ∈ faces (elements.map fun row => row.map π) := by
      rw [← Multiset.count_pos]; unfold BoundaryFace at hf; omega
    rw [faces_map π hπ, Multiset.mem_map] at hmem
    obtain ⟨g, _, rfl⟩ := hmem
    refine ⟨g, (boundaryFace_map π hπ elements g).1 hf, ?_⟩
    exact (Multiset.mem_map_of_injective hπ).1 hv
  · rintro ⟨f, hf, hv⟩
    exact ⟨f.map π, (boundaryFace_map π hπ elements f).2 hf, Multiset.mem_map_of_mem π hv⟩

theorem boundaryNode_congr {e1 e2 : List (List ℕ)}
    (h : List.Forall₂ (fun a b : List ℕ => a.Perm b) e1 e2) (v : ℕ) :
    BoundaryNode e1 v ↔ BoundaryNode e2 v := by
  unfold BoundaryNode BoundaryFace; rw [faces_congr h]

theorem boundaryNode_lt {n : ℕ} {elements : List (List ℕ)} (hv : Valid n elements) {v : ℕ}
    (h : BoundaryNode elements v) : v < n := by
  obtain ⟨f, hf, hvf⟩ := h
  have hmem : f ∈ faces elements := by
    rw [← Multiset.count_pos]; unfold BoundaryFace at hf; omega
  unfold faces at hmem
  rw [Multiset.mem_bind] at hmem
  obtain ⟨e, he, hfe⟩ := hmem
  obtain ⟨w, _, rfl⟩ := Multiset.mem_map.1 hfe
  exact hv e (by simpa using he) v (by simpa using Multiset.mem_of_mem_erase hvf)

/-! ### the algorithm computes them -/

theorem surface_eq_eraseIdx (e : List ℕ) (j : ℕ) : e.take j ++ e.drop (j + 1) = e.eraseIdx j := by
  rw [List.eraseIdx_eq_take_drop_succ]

theorem coe_eraseIdx (e : List ℕ) (j : ℕ) (hj : j < e.length) :
    ((e.eraseIdx j : List ℕ) : Multiset ℕ) = (e : Multiset ℕ).erase e[j] := by
  have h : (e : Multiset ℕ) = e[j] ::ₘ ((e.eraseIdx j : List ℕ) : Multiset ℕ) := by
    rw [Multiset.cons_coe, Multiset.coe_eq_coe]
    exact (List.getElem_cons_eraseIdx_perm hj).symm
  rw [h, Multiset.erase_cons_head]

theorem faces_of_row (e : List ℕ) :
    ((List.range e.length).map fun j => ((e.take j ++ e.drop (j + 1) : List ℕ) : Multiset ℕ)) =
      e.map fun v => (e : Multiset ℕ).erase v := by
  apply List.ext_getElem
  · simp
  · intro j h1 h2
    have hj : j < e.length := by simpa using h2
    simp only [List.getElem_map, List.getElem_range]
    rw [surface_eq_eraseIdx, coe_eraseIdx e j hj]

theorem identifySurfaces_faces (k : ℕ) (elements : List (List ℕ))
    (hk : ∀ e ∈ elements, e.length = k) :
    (((identifySurfaces elements).1.map fun (s : List ℕ) => (s : Multiset ℕ) :
      List (Multiset ℕ)) :
      Multiset (Multiset ℕ)) = faces elements := by
  have hk' : elements = [] ∨ (elements.headD []).length = k := by
    cases elements with
    | nil => simp
    | cons a l => right; exact hk a List.mem_cons_self
  rcases hk' with rfl | hk'
  · simp [identifySurfaces, faces]
  unfold identifySurfaces
  simp only [hk']
  rw [List.map_flatMap]
  simp only [List.map_map]
  rw [← Multiset.coe_bind]
  simp only [← Multiset.map_coe]
  rw [Multiset.bind_map_comm]
  unfold faces
  apply Multiset.bind_congr
  intro e he
  have : e.length = k := hk e (by simpa using he)
  rw [Multiset.map_coe, Multiset.map_coe, ← faces_of_row e, this]
  rfl

theorem identifySurfaces_length (k : ℕ) (elements : List (List ℕ))
    (hk : ∀ e ∈ elements, e.length = k) :
    (identifySurfaces elements).1.length = (identifySurfaces elements).2.length := by
  simp [identifySurfaces, List.length_flatMap]

theorem identifySurfaces_pair (k : ℕ) (elements : List (List ℕ))
    (hk : ∀ e ∈ elements, e.length = k) (i : ℕ) (hi : i < (identifySurfaces elements).1.length) :
    ∃ e ∈ elements, (e : Multiset ℕ) = (identifySurfaces elements).2.getD i 0 ::ₘ
      (((identifySurfaces elements).1.getD i [] : List ℕ) : Multiset ℕ) := by
  have hk' : elements = [] ∨ (elements.headD []).length = k := by
    cases elements with
    | nil => simp
    | cons a l => right; exact hk a List.mem_cons_self
  rcases hk' with rfl | hk'
  · simp [identifySurfaces] at hi
  -- both lists are images of the same list of pairs
  set P : List (ℕ × List ℕ) := (List.range k).flatMap fun j => elements.map fun e => (j, e) with hP
  have h1 : (identifySurfaces elements).1 = P.map fun p => p.2.take p.1 ++ p.2.drop (p.1 + 1) := by
    simp only [identifySurfaces, hk', hP, List.map_flatMap, List.map_map]; rfl
  have h2 : (identifySurfaces elements).2 = P.map fun p => p.2.getD p.1 0 := by
    simp only [identifySurfaces, hk', hP, List.map_flatMap, List.map_map]; rfl
  rw [h1] at hi ⊢
  rw [h2]
  have hi' : i < P.length := by simpa using hi
  have hmem : P[i] ∈ P := List.getElem_mem hi'
  obtain ⟨j, hj, e, he, hje⟩ : ∃ j < k, ∃ e ∈ elements, P[i] = (j, e) := by
    generalize P[i] = x at hmem
    rw [hP, List.mem_flatMap] at hmem
    obtain ⟨j, hj, hm⟩ := hmem
    obtain ⟨e, he, h⟩ := List.mem_map.1 hm
    exact ⟨j, List.mem_range.1 hj, e, he, h.symm⟩
  refine ⟨e, he, ?_⟩
  have hjl : j < e.length := by rw [hk e he]; exact hj
  rw [List.getD_eq_getElem _ _ (by simpa using hi'), List.getD_eq_getElem _ _ (by simpa using hi')]
  simp only [List.getElem_map, hje]
  rw [surface_eq_eraseIdx, List.getD_eq_getElem _ _ hjl, Multiset.cons_coe, Multiset.coe_eq_coe]
  exact (List.getElem_cons_eraseIdx_perm hjl).symm

theorem mem_uniqueRows (rows : List (List ℕ)) (r : List ℕ) : r ∈ uniqueRows rows ↔ r ∈ rows := by
  unfold uniqueRows
  rw [(List.perm_insertionSort _ _).mem_iff, List.mem_dedup]

theorem nodup_uniqueRows (rows : List (List ℕ)) : (uniqueRows rows).Nodup :=
  (List.perm_insertionSort _ _).nodup_iff.2 (List.nodup_dedup _)

theorem sorted_uniqueRows (rows : List (List ℕ)) :
    (uniqueRows rows).Pairwise (fun a b => List.le a b) := by
  haveI : Std.Total (fun a b : List ℕ => List.le a b) := ⟨fun a b => List.le_total a b⟩
  haveI : IsTrans (List ℕ) (fun a b : List ℕ => List.le a b) := ⟨fun a b c => List.le_trans⟩
  exact List.pairwise_insertionSort _ _

theorem mem_uniqueNats (xs : List ℕ) (x : ℕ) : x ∈ uniqueNats xs ↔ x ∈ xs := by
  unfold uniqueNats
  rw [(List.perm_insertionSort _ _).mem_iff, List.mem_dedup]

theorem nodup_uniqueNats (xs : List ℕ) : (uniqueNats xs).Nodup :=
  (List.perm_insertionSort _ _).nodup_iff.2 (List.nodup_dedup _)

theorem sorted_uniqueNats (xs : List ℕ) : (uniqueNats xs).Pairwise (· < ·) := by
  have h2 := nodup_uniqueNats xs
  have h3 : (uniqueNats xs).Pairwise (· ≤ ·) := List.pairwise_insertionSort _ _
  exact (h3.and h2).imp (fun h => lt_of_le_of_ne h.1 h.2)

/-- The returned boundary surfaces are the (sorted) rows which occur once, in lexicographic order. -/
theorem extractUniqueElements_fst (rows : List (List ℕ)) (opp : List ℕ) :
    (extractUniqueElements rows opp).1 = (uniqueRows rows).filter fun r => rows.count r == 1 := by
  unfold extractUniqueElements
  simp only [List.map_map]
  conv_rhs => rw [← List.map_id ((uniqueRows rows).filter fun r => rows.count r == 1)]
  apply List.map_congr_left
  intro r hr
  have hmem : r ∈ rows := (mem_uniqueRows _ _).1 (List.mem_filter.1 hr).1
  simp only [Function.comp, id]
  rw [List.getD_eq_getElem _ _ (List.idxOf_lt_length_of_mem hmem), List.getElem_idxOf]

theorem sorted_surfaces (elements : List (List ℕ))
    (hs : ∀ e ∈ elements, e.Pairwise (· ≤ ·)) :
    ∀ f ∈ (identifySurfaces elements).1, f.Pairwise (· ≤ ·) := by
  intro f hf
  unfold identifySurfaces at hf
  rw [List.mem_flatMap] at hf
  obtain ⟨j, _, hf⟩ := hf
  obtain ⟨e, he, rfl⟩ := List.mem_map.1 hf
  rw [surface_eq_eraseIdx]
  exact (hs e he).sublist (List.eraseIdx_sublist _ _)

theorem forall₂_sortRow (elements : List (List ℕ)) :
    List.Forall₂ (fun a b : List ℕ => a.Perm b) (elements.map sortRow) elements := by
  induction elements with
  | nil => exact List.Forall₂.nil
  | cons a l ih => exact List.Forall₂.cons (sortRow_perm a) ih

theorem count_surfaces (k : ℕ) (elements : List (List ℕ)) (hk : ∀ e ∈ elements, e.length = k)
    (hs : ∀ e ∈ elements, e.Pairwise (· ≤ ·)) (f : List ℕ) (hf : f.Pairwise (· ≤ ·)) :
    (identifySurfaces elements).1.count f = (faces elements).count (f : Multiset ℕ) := by
  rw [← identifySurfaces_faces k elements hk, Multiset.coe_count, List.count_eq_countP,
    List.count_eq_countP, List.countP_map]
  apply List.countP_congr
  intro g hg
  simp only [Function.comp, beq_iff_eq]
  constructor
  · rintro rfl; rfl
  · intro h
    exact eq_of_sorted_perm (sorted_surfaces elements hs g hg) hf (Multiset.coe_eq_coe.1 h)

theorem sorted_map_sortRow (elements : List (List ℕ)) :
    ∀ e ∈ elements.map sortRow, e.Pairwise (· ≤ ·) := by
  intro e he
  obtain ⟨a, _, rfl⟩ := List.mem_map.1 he
  exact sortRow_sorted a

theorem length_map_sortRow {k : ℕ} {elements : List (List ℕ)} (hk : ∀ e ∈ elements, e.length = k) :
    ∀ e ∈ elements.map sortRow, e.length = k := by
  intro e he
  obtain ⟨a, ha, rfl⟩ := List.mem_map.1 he
  rw [(sortRow_perm a).length_eq]; exact hk a ha

theorem mem_boundarySurfaces (k : ℕ) (elements : List (List ℕ))
    (hk : ∀ e ∈ elements, e.length = k) (f : List ℕ) :
    f ∈ (getBoundarySurfaces elements).1 ↔
      f.Pairwise (· ≤ ·) ∧ BoundaryFace elements (f : Multiset ℕ) := by
  unfold getBoundarySurfaces
  simp only [extractUniqueElements_fst, List.mem_filter, mem_uniqueRows, beq_iff_eq]
  have hks := length_map_sortRow hk
  have hss := sorted_map_sortRow elements
  constructor
  · rintro ⟨hm, hc⟩
    have hf := sorted_surfaces _ hss f hm
    refine ⟨hf, ?_⟩
    rw [count_surfaces k _ hks hss f hf, faces_congr (forall₂_sortRow elements)] at hc
    exact hc
  · rintro ⟨hf, hc⟩
    have : (identifySurfaces (elements.map sortRow)).1.count f = 1 := by
      rw [count_surfaces k _ hks hss f hf, faces_congr (forall₂_sortRow elements)]
      exact hc
    exact ⟨List.count_pos_iff.1 (by omega), this⟩

theorem mem_boundaryIndices (k : ℕ) (elements : List (List ℕ))
    (hk : ∀ e ∈ elements, e.length = k) (v : ℕ) :
    v ∈ (getBoundarySurfaces elements).2.2.1 ↔ BoundaryNode elements v := by
  have : (getBoundarySurfaces elements).2.2.1 =
      uniqueNats (getBoundarySurfaces elements).1.flatten := rfl
  rw [this, mem_uniqueNats, List.mem_flatten]
  constructor
  · rintro ⟨f, hf, hv⟩
    exact ⟨f, ((mem_boundarySurfaces k elements hk f).1 hf).2, by simpa using hv⟩
  · rintro ⟨f, hf, hv⟩
    refine ⟨f.sort (· ≤ ·), (mem_boundarySurfaces k elements hk _).2 ⟨?_, ?_⟩, ?_⟩
    · exact Multiset.pairwise_sort f (· ≤ ·)
    · rw [Multiset.sort_eq]; exact hf
    · rw [Multiset.mem_sort]; exact hv

end Conmech
