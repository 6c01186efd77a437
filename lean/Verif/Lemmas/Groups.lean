import Verif.Lemmas.Layout

namespace Conmech
open Spec

theorem Stage.flags {α} {nodes nodes' : List α}
    {elements elements' : List (List ℕ)} {L : List ℕ} {π : ℕ → ℕ}
    (h : Stage nodes elements nodes' elements' L π) (w v : ℕ) (hw : w < nodes.length)
    (hL : L[w]? = some v) :
    onBoundary elements' w = onBoundary elements v ∧
      ∀ p : α → Bool, holdsAt nodes' p w = holdsAt nodes p v := by
  obtain ⟨v', hv', hπ, hL'⟩ := h.surj hw
  have : v' = v := by rw [hL] at hL'; exact (Option.some.inj hL').symm
  subst this
  constructor
  · unfold onBoundary; rw [decide_eq_decide, ← hπ]; exact h.boundary v'
  · intro p; unfold holdsAt; rw [h.node_at hL hv']

/-- Sorting the rows once more keeps the stage. -/
theorem Stage.sort {α} {nodes nodes' : List α}
    {elements elements' : List (List ℕ)} {L : List ℕ} {π : ℕ → ℕ}
    (h : Stage nodes elements nodes' elements' L π) :
    Stage nodes elements nodes' (elements'.map sortRow) L π := by
  refine ⟨h.perm, h.get, h.inj, h.nodes_eq, ?_⟩
  have : ∀ {a b : List (List ℕ)},
      List.Forall₂ (fun e' e : List ℕ => e'.Perm (e.map π)) a b →
      List.Forall₂ (fun e' e : List ℕ => e'.Perm (e.map π)) (a.map sortRow) b := by
    intro a b hab
    induction hab with
    | nil => exact List.Forall₂.nil
    | cons h _ ih => exact List.Forall₂.cons ((sortRow_perm _).trans h) ih
  exact this h.elems

theorem Stage.geometry {α} {nodes nodes' : List α}
    {elements elements' : List (List ℕ)} {L : List ℕ} {π : ℕ → ℕ}
    (h : Stage nodes elements nodes' elements' L π) (hv : Valid nodes.length elements) :
    List.Forall₂ (fun a b : List (Option α) => a.Perm b) (geometry nodes' elements')
      (geometry nodes elements) := by
  have key : ∀ {a b : List (List ℕ)}, (Valid nodes.length b) →
      List.Forall₂ (fun e' e : List ℕ => e'.Perm (e.map π)) a b →
      List.Forall₂ (fun a b : List (Option α) => a.Perm b) (Spec.geometry nodes' a)
      (Spec.geometry nodes b) := by
    intro a b hb hab
    induction hab with
    | nil => exact List.Forall₂.nil
    | @cons x y l l' hxy _ ih =>
      refine List.Forall₂.cons ?_ (ih fun row hrow => hb row (List.mem_cons_of_mem _ hrow))
      have h1 := hxy.map (nodes'[·]?)
      refine h1.trans ?_
      rw [List.map_map]
      apply List.Perm.of_eq
      apply List.map_congr_left
      intro v hvy
      have hvn := hb y List.mem_cons_self v hvy
      exact h.node_at (h.get v hvn) hvn
  exact key hv h.elems

theorem groupRank_stage {α} {nodes nodes' : List α}
    {elements elements' : List (List ℕ)} {L : List ℕ} {π : ℕ → ℕ}
    (h : Stage nodes elements nodes' elements' L π) (c d : α → Bool) :
    (List.range nodes.length).map (groupRank nodes' elements' c d) =
      L.map (groupRank nodes elements c d) := by
  apply List.ext_getElem
  · simp [h.length]
  · intro w h1 h2
    have hw : w < nodes.length := by simpa using h1
    have hwL : w < L.length := by rw [h.length]; exact hw
    simp only [List.getElem_map, List.getElem_range]
    obtain ⟨f1, f2⟩ := h.flags w L[w] hw (List.getElem?_eq_getElem hwL)
    unfold groupRank
    rw [f1, f2, f2]

/-- The ranks along the layout. -/
theorem layout_ranks {α} (nodes : List α) (elements : List (List ℕ)) (c d : α → Bool) :
    let b := onBoundary elements
    let R := List.range nodes.length
    (layout nodes.length b (holdsAt nodes c) (holdsAt nodes d)).map
        (groupRank nodes elements c d) =
      List.replicate (R.countP fun v => b v && holdsAt nodes c v && !holdsAt nodes d v) 0 ++
      List.replicate (R.countP fun v => b v && !holdsAt nodes c v && !holdsAt nodes d v) 1 ++
      List.replicate (R.countP fun v => !b v) 2 ++
      List.replicate (R.countP fun v => b v && holdsAt nodes d v) 3 := by
  intro b R
  have key : ∀ (l : List ℕ) (r : ℕ), (∀ v ∈ l, groupRank nodes elements c d v = r) →
      l.map (groupRank nodes elements c d) = List.replicate l.length r := by
    intro l r h
    rw [List.map_congr_left h, List.map_const']
  unfold layout
  simp only [List.map_append]
  rw [key _ 0, key _ 1, key _ 2, key _ 3, key _ 3]
  · simp only [List.countP_eq_length_filter, List.length_reverse]
    congr 1
    rw [List.replicate_append_replicate]
    congr 1
    simp only [← List.countP_eq_length_filter]
    rw [List.countP_eq_countP_filter_add (List.range nodes.length)
      (fun v => b v && holdsAt nodes d v) (fun v => !holdsAt nodes c v)]
    rw [List.countP_filter, List.countP_filter]
    congr 1 <;> apply List.countP_congr <;> intro v _ <;>
      cases b v <;> cases holdsAt nodes c v <;> cases holdsAt nodes d v <;> simp_all [b]
  all_goals
    intro v hv
    simp only [List.mem_reverse, List.mem_filter, Bool.and_eq_true, Bool.not_eq_true'] at hv
    unfold groupRank
    simp [b] at hv
    simp [hv]

theorem blocks_getElem? (A B C D w r : ℕ)
    (h : (List.replicate A 0 ++ List.replicate B 1 ++ List.replicate C 2 ++
      List.replicate D 3)[w]? = some r) :
    r = if w < A then 0 else if w < A + B then 1 else if w < A + B + C then 2 else 3 := by
  have key : ∀ (n x i y : ℕ), (List.replicate n x)[i]? = some y → y = x := by
    intro n x i y h
    exact (List.mem_replicate.1 (List.mem_of_getElem? h)).2
  by_cases h3 : w < A + B + C
  · rw [List.getElem?_append_left (by simp; omega)] at h
    by_cases h2 : w < A + B
    · rw [List.getElem?_append_left (by simp; omega)] at h
      by_cases h1 : w < A
      · rw [List.getElem?_append_left (by simp; omega)] at h
        rw [if_pos h1]; exact key _ _ _ _ h
      · rw [List.getElem?_append_right (by simp; omega)] at h
        rw [if_neg h1, if_pos h2]; exact key _ _ _ _ h
    · rw [List.getElem?_append_right (by simp; omega)] at h
      rw [if_neg (by omega), if_neg h2, if_pos h3]; exact key _ _ _ _ h
  · rw [List.getElem?_append_right (by simp; omega)] at h
    rw [if_neg (by omega), if_neg (by omega), if_neg h3]; exact key _ _ _ _ h

/-- Group of the node at a position of the constructed mesh, from the group sizes. -/
theorem rank_at {α} {nodes nodes' : List α} {elements elements' : List (List ℕ)} {π : ℕ → ℕ}
    {c d : α → Bool}
    (h : Stage nodes elements nodes' elements' (layout nodes.length (onBoundary elements)
      (holdsAt nodes c) (holdsAt nodes d)) π) (w : ℕ) (hw : w < nodes.length) :
    let b := onBoundary elements
    let R := List.range nodes.length
    let A := R.countP fun v => b v && holdsAt nodes c v && !holdsAt nodes d v
    let B := R.countP fun v => b v && !holdsAt nodes c v && !holdsAt nodes d v
    let C := R.countP fun v => !b v
    groupRank nodes' elements' c d w =
      if w < A then 0 else if w < A + B then 1 else if w < A + B + C then 2 else 3 := by
  have e := groupRank_stage h c d
  rw [layout_ranks] at e
  have hgw := congrArg (·[w]?) e
  simp only [List.getElem?_map, List.getElem?_range hw, Option.map_some] at hgw
  exact blocks_getElem? _ _ _ _ w _ hgw.symm

theorem group_sizes {α} (nodes : List α) (elements : List (List ℕ)) (c d : α → Bool) :
    let b := onBoundary elements
    let R := List.range nodes.length
    (R.countP fun v => b v && holdsAt nodes c v && !holdsAt nodes d v) +
      (R.countP fun v => b v && !holdsAt nodes c v && !holdsAt nodes d v) +
      (R.countP fun v => !b v) + (R.countP fun v => b v && holdsAt nodes d v) = nodes.length := by
  intro b R
  have : ∀ l : List ℕ, (l.countP fun v => b v && holdsAt nodes c v && !holdsAt nodes d v) +
      (l.countP fun v => b v && !holdsAt nodes c v && !holdsAt nodes d v) +
      (l.countP fun v => !b v) + (l.countP fun v => b v && holdsAt nodes d v) = l.length := by
    intro l
    induction l with
    | nil => rfl
    | cons x l ih =>
      simp only [List.countP_cons, List.length_cons]
      cases b x <;> cases holdsAt nodes c x <;> cases holdsAt nodes d x <;> simp <;> omega
  simpa [R] using this R

end Conmech
