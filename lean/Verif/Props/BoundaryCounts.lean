import Verif.Props.CrossBoundary
/-!
C06, without the restriction that no node satisfies both predicates: by how much the ranges are off.
-/
namespace Conmech
open Spec

section
variable {α : Type} [Inhabited α] (mean : List α → α) (k : ℕ) (nodes : List α)
  (elements : List (List ℕ)) (isContact isDirichlet : α → Bool)

/-- The number of nodes of the given mesh that lie on the boundary and satisfy both predicates. -/
def bothCount : ℕ := (List.range nodes.length).countP fun v =>
  decide (BoundaryNode elements v) && holdsAt nodes isContact v && holdsAt nodes isDirichlet v

omit [Inhabited α] in
private theorem contact_split :
    (List.range nodes.length).countP (fun v => onBoundary elements v && holdsAt nodes isContact v) =
      (List.range nodes.length).countP (fun v => onBoundary elements v && holdsAt nodes isContact v &&
        !holdsAt nodes isDirichlet v) + bothCount nodes elements isContact isDirichlet := by
  change _ = _ + (List.range nodes.length).countP fun v =>
    onBoundary elements v && holdsAt nodes isContact v && holdsAt nodes isDirichlet v
  induction (List.range nodes.length) with
  | nil => rfl
  | cons x l ih =>
    simp only [List.countP_cons, ih]
    cases onBoundary elements x <;> cases holdsAt nodes isContact x <;>
      cases holdsAt nodes isDirichlet x <;> simp <;> omega

omit [Inhabited α] in
private theorem boundary_split :
    (List.range nodes.length).countP (onBoundary elements) =
      (List.range nodes.length).countP (fun v => onBoundary elements v && holdsAt nodes isContact v &&
        !holdsAt nodes isDirichlet v) +
      (List.range nodes.length).countP (fun v => onBoundary elements v && !holdsAt nodes isContact v &&
        !holdsAt nodes isDirichlet v) +
      (List.range nodes.length).countP (fun v => onBoundary elements v && holdsAt nodes isDirichlet v) := by
  induction (List.range nodes.length) with
  | nil => rfl
  | cons x l ih =>
    simp only [List.countP_cons, ih]
    cases onBoundary elements x <;> cases holdsAt nodes isContact x <;>
      cases holdsAt nodes isDirichlet x <;> simp <;> omega

private theorem count_interval (n a b : ℕ) (hb : b ≤ n) :
    (List.range n).countP (fun w => decide (a ≤ w ∧ w < b)) = b - a := by
  induction n generalizing b with
  | zero => simp; omega
  | succ n ih =>
    rw [List.range_succ, List.countP_append]
    rcases Nat.lt_or_ge n b with h | h
    · have hbn : b = n + 1 := by omega
      subst hbn
      have e : (List.range n).countP (fun w => decide (a ≤ w ∧ w < n + 1)) =
          (List.range n).countP (fun w => decide (a ≤ w ∧ w < n)) := by
        apply List.countP_congr
        intro w hw
        have := List.mem_range.1 hw
        simp only [decide_eq_true_eq]
        omega
      rw [e, ih n le_rfl]
      by_cases ha : a ≤ n
      · simp [ha]; omega
      · simp [ha]; omega
    · rw [ih b h]
      simp; omega

/-- C06. Where the groups really are: the contact nodes that are not Dirichlet nodes come first, then the
Neumann nodes, and the ranges computed from the counts are shifted by the number of nodes that satisfy
both predicates. -/
theorem C06_shifted (hv : Valid nodes.length elements) (hk : ∀ e ∈ elements, e.length = k) :
    let m := identifyBoundaries mean nodes elements isContact isDirichlet
    let both := bothCount nodes elements isContact isDirichlet
    ∃ contact neumann : ℕ, contact + neumann ≤ m.nodes.length ∧
      contact + both ≤ m.nodes.length ∧
      m.contactRange = (0, ((contact + both : ℕ) : ℤ)) ∧
      m.neumannRange = (((contact + both : ℕ) : ℤ), ((contact + neumann : ℕ) : ℤ)) ∧
      m.neumannCount = (neumann : ℤ) - both ∧
      ∀ w < m.nodes.length,
        ((BoundaryNode m.elements w ∧ holdsAt m.nodes isContact w = true ∧
          holdsAt m.nodes isDirichlet w = false) ↔ w < contact) ∧
        ((BoundaryNode m.elements w ∧ holdsAt m.nodes isContact w = false ∧
          holdsAt m.nodes isDirichlet w = false) ↔ contact ≤ w ∧ w < contact + neumann) := by
  intro m both
  obtain ⟨π, h⟩ := identify_stage mean k nodes elements isContact isDirichlet hv hk
  obtain ⟨a1, a2, a3, a4, a5, a6, a7⟩ :=
    counts_aux mean k nodes elements isContact isDirichlet hv hk
  have hs := contact_split nodes elements isContact isDirichlet
  have hb := boundary_split nodes elements isContact isDirichlet
  have hlen := group_sizes nodes elements isContact isDirichlet
  have hle : (List.range nodes.length).countP
      (fun v => onBoundary elements v && holdsAt nodes isContact v) ≤ nodes.length := by
    simpa using List.countP_le_length (l := List.range nodes.length)
      (p := fun v => onBoundary elements v && holdsAt nodes isContact v)
  simp only at hlen
  refine ⟨(List.range nodes.length).countP (fun v => onBoundary elements v && holdsAt nodes isContact v &&
        !holdsAt nodes isDirichlet v),
      (List.range nodes.length).countP (fun v => onBoundary elements v && !holdsAt nodes isContact v &&
        !holdsAt nodes isDirichlet v), by rw [a1]; omega, by rw [a1]; omega, ?_, ?_, ?_, ?_⟩
  · rw [a5, a2, hs]
  · rw [a6, a4, a2, hb, hs]
    refine Prod.ext ?_ ?_ <;> simp <;> omega
  · rw [a4, hb, hs]; push_cast; omega
  · intro w hw
    have hw' : w < nodes.length := by rw [← a1]; exact hw
    have hrank := rank_at h w hw'
    simp only at hrank
    have hg0 : (BoundaryNode m.elements w ∧ holdsAt m.nodes isContact w = true ∧
        holdsAt m.nodes isDirichlet w = false) ↔
        groupRank m.nodes m.elements isContact isDirichlet w = 0 := by
      have : BoundaryNode m.elements w ↔ onBoundary m.elements w = true := by simp [onBoundary]
      rw [this]; unfold groupRank
      cases onBoundary m.elements w <;> cases holdsAt m.nodes isContact w <;>
        cases holdsAt m.nodes isDirichlet w <;> simp
    have hg1 : (BoundaryNode m.elements w ∧ holdsAt m.nodes isContact w = false ∧
        holdsAt m.nodes isDirichlet w = false) ↔
        groupRank m.nodes m.elements isContact isDirichlet w = 1 := by
      have : BoundaryNode m.elements w ↔ onBoundary m.elements w = true := by simp [onBoundary]
      rw [this]; unfold groupRank
      cases onBoundary m.elements w <;> cases holdsAt m.nodes isContact w <;>
        cases holdsAt m.nodes isDirichlet w <;> simp
    rw [hg0, hg1, hrank]
    constructor
    · split_ifs <;> constructor <;> intro h0 <;> first | omega | exact h0.elim | simp at h0
    · split_ifs <;> constructor <;> intro h0 <;> first | omega | exact h0.elim | simp at h0

/-- C06. The contact range contains all contact nodes that are not Dirichlet nodes, and as many other
nodes as there are nodes satisfying both predicates. The Neumann range contains Neumann nodes only, and
misses as many of them (all, if there are fewer). -/
theorem C06_surplus (hv : Valid nodes.length elements) (hk : ∀ e ∈ elements, e.length = k) :
    let m := identifyBoundaries mean nodes elements isContact isDirichlet
    let both := bothCount nodes elements isContact isDirichlet
    let contact := fun w : ℕ => BoundaryNode m.elements w ∧ holdsAt m.nodes isContact w = true ∧
      holdsAt m.nodes isDirichlet w = false
    let neumann := fun w : ℕ => BoundaryNode m.elements w ∧ holdsAt m.nodes isContact w = false ∧
      holdsAt m.nodes isDirichlet w = false
    (∀ w < m.nodes.length, contact w → m.contactRange.1 ≤ (w : ℤ) ∧ (w : ℤ) < m.contactRange.2) ∧
    (List.range m.nodes.length).countP (fun w : ℕ =>
      decide ((m.contactRange.1 ≤ (w : ℤ) ∧ (w : ℤ) < m.contactRange.2) ∧ ¬ contact w)) = both ∧
    (∀ w < m.nodes.length, m.neumannRange.1 ≤ (w : ℤ) ∧ (w : ℤ) < m.neumannRange.2 → neumann w) ∧
    (List.range m.nodes.length).countP (fun w : ℕ =>
      decide (neumann w ∧ ¬ (m.neumannRange.1 ≤ (w : ℤ) ∧ (w : ℤ) < m.neumannRange.2))) =
      min both ((List.range m.nodes.length).countP fun w : ℕ => decide (neumann w)) := by
  intro m both contact neumann
  obtain ⟨c, n, h1, h2, h3, h4, _, h6⟩ := C06_shifted mean k nodes elements isContact isDirichlet hv hk
  change c + n ≤ m.nodes.length at h1
  change c + both ≤ m.nodes.length at h2
  change m.contactRange = (0, ((c + both : ℕ) : ℤ)) at h3
  change m.neumannRange = (((c + both : ℕ) : ℤ), ((c + n : ℕ) : ℤ)) at h4
  change ∀ w < m.nodes.length, (contact w ↔ w < c) ∧ (neumann w ↔ c ≤ w ∧ w < c + n) at h6
  rw [h3, h4]
  refine ⟨?_, ?_, ?_, ?_⟩
  · intro w hw hc
    have := (h6 w hw).1.1 hc
    constructor <;> simp; omega
  · refine Eq.trans ?_ ((count_interval m.nodes.length c (c + both) h2).trans (by omega))
    apply List.countP_congr
    intro w hw
    have := (h6 w (List.mem_range.1 hw)).1
    simp only [decide_eq_true_eq, this]
    omega
  · intro w hw hn
    rw [(h6 w hw).2]
    simp only [Nat.cast_le, Nat.cast_lt] at hn
    omega
  · have e1 : (List.range m.nodes.length).countP (fun w : ℕ => decide (neumann w)) = n := by
      refine Eq.trans ?_ ((count_interval m.nodes.length c (c + n) h1).trans (by omega))
      apply List.countP_congr
      intro w hw
      have := (h6 w (List.mem_range.1 hw)).2
      simp only [decide_eq_true_eq, this]
    rw [e1]
    refine Eq.trans ?_ ((count_interval m.nodes.length c (c + min both n) (by omega)).trans (by omega))
    apply List.countP_congr
    intro w hw
    have := (h6 w (List.mem_range.1 hw)).2
    simp only [decide_eq_true_eq, this]
    omega

/-- C06. The contact range is right exactly when no boundary node satisfies both predicates. -/
theorem C06_contact_range_iff (hv : Valid nodes.length elements) (hk : ∀ e ∈ elements, e.length = k) :
    let m := identifyBoundaries mean nodes elements isContact isDirichlet
    (∀ w < m.nodes.length, (m.contactRange.1 ≤ (w : ℤ) ∧ (w : ℤ) < m.contactRange.2) ↔
      (BoundaryNode m.elements w ∧ holdsAt m.nodes isContact w = true ∧
        holdsAt m.nodes isDirichlet w = false)) ↔
    ∀ v, BoundaryNode elements v →
      ¬ (holdsAt nodes isContact v = true ∧ holdsAt nodes isDirichlet v = true) := by
  intro m
  obtain ⟨s1, s2, _⟩ := C06_surplus mean k nodes elements isContact isDirichlet hv hk
  constructor
  · intro h v hb hcd
    have hz : bothCount nodes elements isContact isDirichlet = 0 := by
      rw [← s2, List.countP_eq_zero]
      intro w hw
      simp only [decide_eq_true_eq]
      rintro ⟨a, b⟩
      exact b ((h w (List.mem_range.1 hw)).1 a)
    unfold bothCount at hz
    rw [List.countP_eq_zero] at hz
    have hlt : v < nodes.length := by
      by_contra hge
      have : holdsAt nodes isContact v = false := by
        unfold holdsAt; rw [List.getElem?_eq_none (by omega)]
      rw [this] at hcd; exact absurd hcd.1 (by simp)
    refine hz v (List.mem_range.2 hlt) ?_
    simp [hb, hcd.1, hcd.2]
  · intro h w hw
    have hz : bothCount nodes elements isContact isDirichlet = 0 := by
      unfold bothCount
      rw [List.countP_eq_zero]
      intro v _ hv'
      simp only [Bool.and_eq_true, decide_eq_true_eq] at hv'
      exact h v hv'.1.1 ⟨hv'.1.2, hv'.2⟩
    rw [hz, List.countP_eq_zero] at s2
    refine ⟨fun hin => ?_, s1 w hw⟩
    by_contra hc
    exact s2 w (List.mem_range.2 hw) (by simp only [decide_eq_true_eq]; exact ⟨hin, hc⟩)

end

-- the square with contact below and a support on the left: one node, the corner, is both, so the contact
-- range contains one node that is no contact node and the Neumann range misses one
example : Valid squareNodes.length squareElements ∧ (∀ e ∈ squareElements, e.length = 3) ∧
    bothCount squareNodes squareElements (fun p => p.2 == 0) (fun p => p.1 == 0) = 1 := by
  unfold Valid; decide +kernel

/-- C06, negation of the full statement on generated rectangles, whatever their size and their cells: when
the contact and the Dirichlet predicate both hold in a corner (contact below and a support on the left, as
in the shipped examples), some node in the contact range is no contact node, or is a Dirichlet node. -/
theorem C06_rectangle_wrong {K : Type} [Field K] [LinearOrder K] [IsStrictOrderedRing K] [FloorSemiring K]
    [Inhabited (K × K)] {perimeter width height : K} (hp : 0 < perimeter)
    (hw : 0 < width) (hh : 0 < height) (htol : 1 / 10000 ≤ perimeter / 2)
    (hw' : 1 / 10000 ≤ width) (hh' : 1 / 10000 ≤ height) {nodes : List (K × K)}
    {elements : List (ℕ × ℕ × ℕ)} (hm : crossMesh perimeter width height = some (nodes, elements))
    (mean : List (K × K) → K × K) {isContact isDirichlet : K × K → Bool}
    (hc : isContact (0, 0) = true) (hd : isDirichlet (0, 0) = true) :
    let m := identifyBoundaries mean nodes (elementRows elements) isContact isDirichlet
    ∃ w < m.nodes.length, (m.contactRange.1 ≤ (w : ℤ) ∧ (w : ℤ) < m.contactRange.2) ∧
      ¬ (BoundaryNode m.elements w ∧ holdsAt m.nodes isContact w = true ∧
        holdsAt m.nodes isDirichlet w = false) := by
  intro m
  have hval := valid_crossMesh hp hw hh htol hw' hh' hm
  have hv : Valid nodes.length (elementRows elements) := fun row h v hv => (hval row h).2 v hv
  have hk : ∀ e ∈ elementRows elements, e.length = 3 := fun row h => (hval row h).1
  obtain ⟨v, hv0⟩ : ∃ v : ℕ, nodes[v]? = some (0, 0) := by
    obtain ⟨sx, sy, ex, ey, hsx, hsy, hex, hey, rfl, rfl, rfl, -, -⟩ :=
      crossMesh_data hp hw hh htol hw' hh' hm
    apply List.getElem?_of_mem
    refine List.mem_map.2 ⟨(0, 0), (mem_halfWrites hsx hsy _).2 ?_, by simp [halfPoint]⟩
    simp
  have hb : BoundaryNode (elementRows elements) v :=
    (C87_nodes_partial hp hw hh htol hw' hh' hm v _ hv0).1.2 (Or.inl rfl)
  have hiff := C06_contact_range_iff mean 3 nodes (elementRows elements) isContact isDirichlet hv hk
  have hs := (C06_surplus mean 3 nodes (elementRows elements) isContact isDirichlet hv hk).1
  by_contra hcon
  push Not at hcon
  refine hiff.1 ?_ v hb ⟨by simp [holdsAt, hv0, hc], by simp [holdsAt, hv0, hd]⟩
  exact fun w hw => ⟨fun hin => hcon w hw hin, hs w hw⟩

/-- A rectangle of two cells, with contact below and a support on the left. -/
example : ((crossMesh (1 : ℚ) 2 1).map fun m =>
      bothCount m.1 (elementRows m.2) (fun p => decide (p.2 = 0)) (fun p => decide (p.1 = 0))) = some 1 := by
  decide +kernel

end Conmech
