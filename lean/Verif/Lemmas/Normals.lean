import Verif.Model.Normals
import Verif.Props.Boundary
import Mathlib.Data.List.GetD

namespace Conmech
open Spec

theorem uniqueRows_of_sorted (l : List (List ℕ)) (h : l.Pairwise (fun a b => a < b)) :
    uniqueRows l = l := by
  have hn : l.Nodup := h.imp (fun {a b} hab he => by subst he; exact List.lt_irrefl a hab)
  haveI : IsTrans (List ℕ) (fun a b : List ℕ => List.le a b) := ⟨fun a b c => List.le_trans⟩
  unfold uniqueRows
  rw [List.Nodup.dedup hn]
  apply List.Pairwise.insertionSort_eq
  exact h.imp (fun hab => List.le_of_lt hab)

theorem uniqueColumns_eq (k : ℕ) (rows : List (List ℕ)) (hk : ∀ r ∈ rows, r.length = k)
    (hs : ∀ r ∈ rows, r.Pairwise (· < ·)) : uniqueColumns rows = rows := by
  cases rows with
  | nil => rfl
  | cons r rs =>
    have hlen : ((r :: rs).headD []).length = k := by simpa using hk r (by simp)
    have hcols : uniqueRows ((List.range k).map fun j => (r :: rs).map fun r => r.getD j 0) =
        (List.range k).map fun j => (r :: rs).map fun r => r.getD j 0 := by
      apply uniqueRows_of_sorted
      rw [List.pairwise_map]
      have : (List.range k).Pairwise (fun a b => a < b ∧ b < k) := by
        rw [List.pairwise_iff_getElem]
        intro i j hi hj hij
        simp at hi hj
        simp [hij, hj]
      apply this.imp
      rintro a b ⟨hab, hbk⟩
      simp only [List.map_cons]
      rw [List.cons_lt_cons_iff]
      left
      have hr := hk r (by simp)
      rw [List.getD_eq_getElem _ _ (by omega), List.getD_eq_getElem _ _ (by omega)]
      exact List.pairwise_iff_getElem.1 (hs r (by simp)) a b _ _ hab
    unfold uniqueColumns
    simp only [hlen, hcols]
    apply List.ext_getElem
    · simp
    · intro i h1 h2
      apply List.ext_getElem
      · simp only [List.getElem_map, List.length_map, List.length_range]
        exact (hk _ (List.getElem_mem h2)).symm
      · intro j h3 h4
        simp only [List.getElem_map, List.getElem_range]
        rw [List.getD_eq_getElem _ _ (by simpa using h2)]
        simp only [List.getElem_map]
        rw [List.getD_eq_getElem _ _ h4]

section
variable {α : Type} [Inhabited α] (mean : List α → α) (k : ℕ) (nodes : List α)
  (elements : List (List ℕ)) (isContact isDirichlet : α → Bool)

/-- Everything the normals need to know about a constructed mesh. -/
theorem surface_pairs (hv : Valid nodes.length elements) (hk : ∀ e ∈ elements, e.length = k)
    (m : MeshBoundaries α)
    (hm : identifyBoundaries mean nodes elements isContact isDirichlet = m) :
    m.boundarySurfaces.length = m.internalIndices.length ∧
    ∀ i (h1 : i < m.boundarySurfaces.length) (h2 : i < m.internalIndices.length),
      m.boundarySurfaces[i].Pairwise (· ≤ ·) ∧ m.boundarySurfaces[i].length = k - 1 ∧
      ∃ e ∈ m.elements, (e : Multiset ℕ) = m.internalIndices[i] ::ₘ m.boundarySurfaces[i] ∧
        (∀ v ∈ e, v < m.nodes.length) ∧
        ∃ t ∈ geometry nodes elements,
          ((e.map fun v => m.nodes[v]?) : Multiset (Option α)) = (t : Multiset (Option α)) := by
  obtain ⟨⟨π, h⟩, _⟩ := reorderBoundaryNodes_stage k nodes elements hv hk isContact isDirichlet
  have hk' := h.rowlen hk
  have e0 : m.boundarySurfaces = (getBoundarySurfaces
      (reorderBoundaryNodes nodes elements isContact isDirichlet).elements).1 := by
    simp only [← hm, identifyBoundaries]
  have e1 : m.internalIndices = (getBoundarySurfaces
      (reorderBoundaryNodes nodes elements isContact isDirichlet).elements).2.1 := by
    simp only [← hm, identifyBoundaries]
  have e2 : m.elements = (reorderBoundaryNodes nodes elements isContact isDirichlet).elements.map
      sortRow := by
    simp only [← hm, identifyBoundaries, getBoundarySurfaces]
  have e3 : m.nodes = (reorderBoundaryNodes nodes elements isContact isDirichlet).nodes := by
    simp only [← hm, identifyBoundaries]
  obtain ⟨hl, hp⟩ := C07_interior_vertex k
    (reorderBoundaryNodes nodes elements isContact isDirichlet).elements hk'
  have hsurf := mem_boundarySurfaces k
    (reorderBoundaryNodes nodes elements isContact isDirichlet).elements hk'
  have hS := h.sort
  rw [← e2, ← e3] at hS
  have hgeo := hS.geometry hv
  have hval := hS.valid hv
  have hnl := hS.nodes_length
  rw [← e0] at hsurf
  rw [← e0, ← e1] at hl
  refine ⟨hl, ?_⟩
  intro i h1 h2
  have hmem := (hsurf _).1 (List.getElem_mem h1)
  have hp' : ∃ e ∈ (reorderBoundaryNodes nodes elements isContact isDirichlet).elements,
      (e : Multiset ℕ) = m.internalIndices[i] ::ₘ (m.boundarySurfaces[i] : Multiset ℕ) := by
    have := hp i (by rw [← e0]; exact h1) (by rw [← e1]; exact h2)
    simpa only [← e0, ← e1] using this
  obtain ⟨e, he, heq⟩ := hp'
  have hsm : sortRow e ∈ m.elements := by rw [e2]; exact List.mem_map_of_mem he
  have hse : ((sortRow e : List ℕ) : Multiset ℕ) = e := Multiset.coe_eq_coe.2 (sortRow_perm e)
  refine ⟨hmem.1, ?_, sortRow e, hsm, ?_, ?_, ?_⟩
  · have := congrArg Multiset.card heq
    simp only [Multiset.coe_card, Multiset.card_cons] at this
    rw [hk' e he] at this
    omega
  · rw [hse, heq]
  · rw [hnl]; exact hval _ hsm
  · have hmg : (sortRow e).map (fun v => m.nodes[v]?) ∈ geometry m.nodes m.elements := by
      unfold geometry; exact List.mem_map_of_mem hsm
    have : ∀ {A B : List (List (Option α))}, List.Forall₂ (fun a b => a.Perm b) A B →
        ∀ a ∈ A, ∃ b ∈ B, a.Perm b := by
      intro A B hAB
      induction hAB with
      | nil => simp
      | cons hab _ ih =>
        intro a ha
        rcases List.mem_cons.1 ha with rfl | ha
        · exact ⟨_, by simp, hab⟩
        · obtain ⟨b, hb, hp⟩ := ih a ha
          exact ⟨b, by simp [hb], hp⟩
    obtain ⟨t, ht, hperm⟩ := this hgeo _ hmg
    exact ⟨t, ht, Multiset.coe_eq_coe.2 hperm⟩

end
end Conmech
