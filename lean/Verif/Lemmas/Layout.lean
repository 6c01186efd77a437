import Verif.Lemmas.Boundary

namespace Conmech
open Spec

theorem pick_eq_filter {α} (q : ℕ → Bool) (Q : α → Bool) (l : List α) (k : ℕ)
    (h : ∀ w (hw : w < l.length), q (k + w) = Q l[w]) : pick q l k = l.filter Q := by
  induction l generalizing k with
  | nil => rfl
  | cons x l ih =>
    rw [pick_cons, ih (k + 1), List.filter_cons]
    · have := h 0 (by simp)
      simp only [Nat.add_zero, List.getElem_cons_zero] at this
      rw [this]; split <;> simp
    · intro w hw
      have := h (w + 1) (by simpa using hw)
      rw [List.getElem_cons_succ] at this
      rw [← this]; congr 1; omega

theorem pick_map {β γ} (q : ℕ → Bool) (f : β → γ) (l : List β) (k : ℕ) :
    (pick q l k).map f = pick q (l.map f) k := by
  induction l generalizing k with
  | nil => rfl
  | cons x l ih => rw [List.map_cons, pick_cons, pick_cons, List.map_append, ih]; split <;> rfl

theorem arrange_map {β γ} (q : ℕ → Bool) (f : β → γ) (l : List β) :
    (arrange q l).map f = arrange q (l.map f) := by
  unfold arrange
  rw [List.map_append, List.map_reverse, pick_map, pick_map]

theorem forall₂_mem_left {β γ} {R : β → γ → Prop} {l : List β} {l' : List γ}
    (h : List.Forall₂ R l l') {x : β} (hx : x ∈ l) : ∃ y ∈ l', R x y := by
  induction h with
  | nil => simp at hx
  | cons hab _ ih =>
    rcases List.mem_cons.1 hx with rfl | hx
    · exact ⟨_, List.mem_cons_self, hab⟩
    · obtain ⟨y, hy, hr⟩ := ih hx; exact ⟨y, List.mem_cons_of_mem _ hy, hr⟩

/-- A stage of the reordering: `L` lists, by current position, the original node numbers; `π` is the
inverse renumbering. -/
structure Stage {α} (nodes : List α) (elements : List (List ℕ)) (nodes' : List α)
    (elements' : List (List ℕ)) (L : List ℕ) (π : ℕ → ℕ) : Prop where
  perm : L.Perm (List.range nodes.length)
  get : ∀ v < nodes.length, L[π v]? = some v
  inj : Function.Injective π
  nodes_eq : nodes'.map some = L.map (nodes[·]?)
  elems : List.Forall₂ (fun e' e : List ℕ => e'.Perm (e.map π)) elements' elements

theorem Stage.init {α} (nodes : List α) (elements : List (List ℕ)) :
    Stage nodes elements nodes elements (List.range nodes.length) id where
  perm := List.Perm.refl _
  get := by intro v hv; simp [hv]
  inj := fun _ _ h => h
  nodes_eq := by
    apply List.ext_getElem?
    intro i
    by_cases h : i < nodes.length
    · simp [h]
    · simp [Nat.not_lt.1 h]
  elems := by
    induction elements with
    | nil => exact List.Forall₂.nil
    | cons a l ih => exact List.Forall₂.cons (by simp) ih

namespace Stage
variable {α} {nodes nodes' : List α} {elements elements' : List (List ℕ)} {L : List ℕ} {π : ℕ → ℕ}

theorem length (h : Stage nodes elements nodes' elements' L π) : L.length = nodes.length := by
  simpa using h.perm.length_eq

theorem nodes_length (h : Stage nodes elements nodes' elements' L π) :
    nodes'.length = nodes.length := by
  have := congrArg List.length h.nodes_eq
  simpa [h.length] using this

theorem lt (h : Stage nodes elements nodes' elements' L π) {v : ℕ} (hv : v < nodes.length) :
    π v < nodes.length := by
  have := h.get v hv
  rw [List.getElem?_eq_some_iff] at this
  obtain ⟨h', _⟩ := this
  rw [h.length] at h'; exact h'

theorem valid (h : Stage nodes elements nodes' elements' L π) (hv : Valid nodes.length elements) :
    Valid nodes.length elements' := by
  intro e' he' w hw
  obtain ⟨e, he, hp⟩ := forall₂_mem_left h.elems he'
  rw [hp.mem_iff] at hw
  obtain ⟨v, hv', rfl⟩ := List.mem_map.1 hw
  exact h.lt (hv e he v hv')

theorem rowlen {k : ℕ} (h : Stage nodes elements nodes' elements' L π)
    (hk : ∀ e ∈ elements, e.length = k) : ∀ e ∈ elements', e.length = k := by
  intro e' he'
  obtain ⟨e, he, hp⟩ := forall₂_mem_left h.elems he'
  rw [hp.length_eq, List.length_map]; exact hk e he

theorem boundary (h : Stage nodes elements nodes' elements' L π) (v : ℕ) :
    BoundaryNode elements' (π v) ↔ BoundaryNode elements v := by
  rw [← boundaryNode_map π h.inj elements v]
  apply boundaryNode_congr
  have : ∀ {a b : List (List ℕ)}, List.Forall₂ (fun e' e : List ℕ => e'.Perm (e.map π)) a b →
      List.Forall₂ (fun a b : List ℕ => a.Perm b) a (b.map fun row => row.map π) := by
    intro a b hab
    induction hab with
    | nil => exact List.Forall₂.nil
    | cons h _ ih => exact List.Forall₂.cons h ih
  exact this h.elems

/-- every current position comes from an original node -/
theorem surj (h : Stage nodes elements nodes' elements' L π) {w : ℕ} (hw : w < nodes.length) :
    ∃ v < nodes.length, π v = w ∧ L[w]? = some v := by
  have hw' : w < L.length := by rw [h.length]; exact hw
  have hv : L[w] < nodes.length := by
    have : L[w] ∈ L := List.getElem_mem hw'
    rw [h.perm.mem_iff] at this; exact List.mem_range.1 this
  refine ⟨L[w], hv, ?_, List.getElem?_eq_getElem hw'⟩
  have h1 := h.get _ hv
  have hlt : π L[w] < L.length := by rw [h.length]; exact h.lt hv
  rw [List.getElem?_eq_getElem hlt] at h1
  have hnd : L.Nodup := h.perm.nodup_iff.2 List.nodup_range
  exact (List.getElem_inj hnd).1 (Option.some.inj h1)

theorem node_at (h : Stage nodes elements nodes' elements' L π) {w v : ℕ} (hL : L[w]? = some v)
    (hv : v < nodes.length) : nodes'[w]? = nodes[v]? := by
  have := congrArg (·[w]?) h.nodes_eq
  simp only [List.getElem?_map, hL, Option.map_some] at this
  rw [List.getElem?_eq_getElem hv] at this ⊢
  cases hn : nodes'[w]? with
  | none => rw [hn] at this; simp at this
  | some x => rw [hn] at this; simpa using this

end Stage

theorem contains_selected {α} (k : ℕ) (nodes : List α) (elements : List (List ℕ))
    (hk : ∀ e ∈ elements, e.length = k) (p : α → Bool) (w : ℕ) :
    (applyPredicateToBoundaryNodes elements nodes p).1.contains w =
      (onBoundary elements w && holdsAt nodes p w) := by
  rw [Bool.eq_iff_iff]
  unfold applyPredicateToBoundaryNodes
  simp only [List.contains_iff_mem, List.mem_filter, mem_boundaryIndices k elements hk,
    Bool.and_eq_true, onBoundary, decide_eq_true_eq]
  rfl

/-- One `reorder` call, seen as a new stage. -/
theorem reorder_stage {α} [Inhabited α] (k : ℕ) {nodes nodes' : List α}
    {elements elements' : List (List ℕ)} {L : List ℕ} {π : ℕ → ℕ}
    (h : Stage nodes elements nodes' elements' L π) (hv : Valid nodes.length elements)
    (hk : ∀ e ∈ elements, e.length = k) (p : α → Bool) (toTop : Bool) :
    let r := reorder nodes' elements' p toTop
    let Q : ℕ → Bool := fun v => (onBoundary elements v && holdsAt nodes p v) == toTop
    (∃ π', Stage nodes elements r.1 r.2.1
      (L.filter Q ++ (L.filter fun v => !Q v).reverse) π') ∧
    r.2.2 = (List.range nodes.length).countP fun v => onBoundary elements v && holdsAt nodes p v := by
  intro r Q
  have hk' := h.rowlen hk
  have hval' := h.valid hv
  set sel := (applyPredicateToBoundaryNodes elements' nodes' p).1 with hsel
  set srt := (applyPredicateToBoundaryNodes elements' nodes' p).2 with hsrt
  have hsrt' : srt = elements'.map sortRow := rfl
  have hvs : Valid nodes'.length srt := by
    rw [hsrt', h.nodes_length]
    intro row hrow v hvr
    obtain ⟨a, ha, rfl⟩ := List.mem_map.1 hrow
    exact hval' a ha v ((sortRow_perm a).mem_iff.1 hvr)
  have hr : r = (arrange (goesFront sel toTop) nodes',
      srt.map (fun row => row.map fun v => newIdx nodes'.length (goesFront sel toTop) v),
      sel.length) := by
    simp only [r, reorder]
    rw [reorderNumba_eq _ _ _ _ hvs]
    rw [← hsel]
    simp [List.map_map, Function.comp_def]
  -- flags by position and by original number
  have hflag : ∀ w v, w < nodes.length → L[w]? = some v →
      (onBoundary elements' w && holdsAt nodes' p w) = (onBoundary elements v && holdsAt nodes p v) := by
    intro w v hw hL
    obtain ⟨v', hv', hπ, hL'⟩ := h.surj hw
    have : v' = v := by rw [hL] at hL'; exact (Option.some.inj hL').symm
    subst this
    congr 1
    · unfold onBoundary; rw [decide_eq_decide, ← hπ]; exact h.boundary v'
    · unfold holdsAt; rw [h.node_at hL hv']
  have hq : ∀ w (hw : w < L.length), goesFront sel toTop w = Q L[w] := by
    intro w hw
    unfold goesFront
    rw [hsel, contains_selected k nodes' elements' hk' p w]
    simp only [Q]
    rw [hflag w L[w] (by rw [← h.length]; exact hw) (List.getElem?_eq_getElem hw)]
  have harr : arrange (goesFront sel toTop) L = L.filter Q ++ (L.filter fun v => !Q v).reverse := by
    unfold arrange
    rw [pick_eq_filter _ Q L 0 (by intro w hw; rw [Nat.zero_add]; exact hq w hw),
      pick_eq_filter _ (fun v => !Q v) L 0 (by intro w hw; rw [Nat.zero_add, hq w hw])]
  constructor
  · refine ⟨fun v => newIdx nodes'.length (goesFront sel toTop) (π v), ?_⟩
    rw [← harr, hr]
    refine ⟨?_, ?_, ?_, ?_, ?_⟩
    · rw [harr]
      refine List.Perm.trans ?_ h.perm
      exact (List.Perm.append_left _ (List.reverse_perm _)).trans (List.filter_append_perm Q L)
    · intro v hv'
      have := arrange_newIdx (goesFront sel toTop) L (π v) (by rw [h.length]; exact h.lt hv')
      rw [h.length, ← h.nodes_length] at this
      rw [this, h.get v hv']
    · exact (newIdx_injective _ _).comp h.inj
    · show (arrange (goesFront sel toTop) nodes').map some = _
      rw [arrange_map, h.nodes_eq, arrange_map]
    · show List.Forall₂ _ (srt.map _) elements
      rw [hsrt']
      have : ∀ {a b : List (List ℕ)} (f : ℕ → ℕ),
          List.Forall₂ (fun e' e : List ℕ => e'.Perm (e.map π)) a b →
          List.Forall₂ (fun e' e : List ℕ => e'.Perm (e.map fun v => f (π v)))
            ((a.map sortRow).map fun row => row.map f) b := by
        intro a b f hab
        induction hab with
        | nil => exact List.Forall₂.nil
        | cons h _ ih =>
          refine List.Forall₂.cons ?_ ih
          have := ((sortRow_perm _).trans h).map f
          rwa [List.map_map] at this
      exact this _ h.elems
  · rw [hr]
    show sel.length = _
    have hnd : sel.Nodup := by
      rw [hsel]; unfold applyPredicateToBoundaryNodes
      exact (nodup_uniqueNats _).filter _
    have hp : sel.Perm ((List.range nodes.length).filter
        fun w => onBoundary elements' w && holdsAt nodes' p w) := by
      rw [List.perm_ext_iff_of_nodup hnd (List.nodup_range.filter _)]
      intro w
      rw [List.mem_filter, ← contains_selected k nodes' elements' hk' p w, List.contains_iff_mem,
        ← hsel]
      constructor
      · intro hm
        refine ⟨List.mem_range.2 ?_, hm⟩
        have := contains_selected k nodes' elements' hk' p w
        rw [← hsel, List.contains_iff_mem.2 hm] at this
        have hb : onBoundary elements' w = true := (Bool.and_eq_true_iff.1 this.symm).1
        unfold onBoundary at hb
        rw [decide_eq_true_eq] at hb
        exact boundaryNode_lt hval' hb
      · exact fun hm => hm.2
    rw [hp.length_eq, ← List.countP_eq_length_filter]
    have hL : (List.range nodes.length).countP (fun w => onBoundary elements' w && holdsAt nodes' p w) =
        L.countP fun v => onBoundary elements v && holdsAt nodes p v := by
      rw [← h.length, ← pick_length]
      rw [List.countP_eq_length_filter]
      congr 1
      apply pick_eq_filter
      intro w hw
      rw [Nat.zero_add]
      exact hflag w L[w] (by rw [← h.length]; exact hw) (List.getElem?_eq_getElem hw)
    rw [hL]
    exact h.perm.countP_eq _

theorem layout_steps (R : List ℕ) (b c d : ℕ → Bool) :
    let Q2 : ℕ → Bool := fun v => (b v && (!c v && !d v)) == false
    let Q3 : ℕ → Bool := fun v => (b v && c v) == true
    let Q4 : ℕ → Bool := fun v => (b v && d v) == false
    let Q1 : ℕ → Bool := fun v => b v == true
    let L1 := R.filter Q1 ++ (R.filter fun v => !Q1 v).reverse
    let L2 := L1.filter Q2 ++ (L1.filter fun v => !Q2 v).reverse
    let L3 := L2.filter Q3 ++ (L2.filter fun v => !Q3 v).reverse
    let L4 := L3.filter Q4 ++ (L3.filter fun v => !Q4 v).reverse
    L4 = ((R.filter fun v => b v && c v && !d v) ++
      (R.filter fun v => b v && !c v && !d v) ++ (R.filter fun v => !b v) ++
      ((R.filter fun v => b v && !c v && d v) ++ (R.filter fun v => b v && c v && d v).reverse)) := by
  intro Q2 Q3 Q4 Q1 L1 L2 L3 L4
  have E : ∀ f : ℕ → Bool, (∀ v, f v = false) → R.filter f = [] := by
    intro f h; simp [List.filter_eq_nil_iff, h]
  have C : ∀ f g : ℕ → Bool, (∀ v, f v = g v) → R.filter f = R.filter g := by
    intro f g h; rw [funext h]
  simp only [L4, L3, L2, L1, List.filter_append, List.filter_reverse, List.filter_filter, List.reverse_append,
      List.reverse_reverse, List.append_assoc]
  rw [
    C (fun a => Q4 a && (Q3 a && (Q2 a && Q1 a))) (fun v => b v && c v && !d v)
      (by intro v; simp only [Q1, Q2, Q3, Q4]; cases b v <;> cases c v <;> cases d v <;> rfl),
    E (fun a => Q4 a && (Q3 a && (Q2 a && !Q1 a)))
      (by intro v; simp only [Q1, Q2, Q3, Q4]; cases b v <;> cases c v <;> cases d v <;> rfl),
    E (fun a => Q4 a && (Q3 a && (!Q2 a && !Q1 a)))
      (by intro v; simp only [Q1, Q2, Q3, Q4]; cases b v <;> cases c v <;> cases d v <;> rfl),
    E (fun a => Q4 a && (Q3 a && (!Q2 a && Q1 a)))
      (by intro v; simp only [Q1, Q2, Q3, Q4]; cases b v <;> cases c v <;> cases d v <;> rfl),
    C (fun a => Q4 a && (!Q3 a && (!Q2 a && Q1 a))) (fun v => b v && !c v && !d v)
      (by intro v; simp only [Q1, Q2, Q3, Q4]; cases b v <;> cases c v <;> cases d v <;> rfl),
    E (fun a => Q4 a && (!Q3 a && (!Q2 a && !Q1 a)))
      (by intro v; simp only [Q1, Q2, Q3, Q4]; cases b v <;> cases c v <;> cases d v <;> rfl),
    C (fun a => Q4 a && (!Q3 a && (Q2 a && !Q1 a))) (fun v => !b v)
      (by intro v; simp only [Q1, Q2, Q3, Q4]; cases b v <;> cases c v <;> cases d v <;> rfl),
    E (fun a => Q4 a && (!Q3 a && (Q2 a && Q1 a)))
      (by intro v; simp only [Q1, Q2, Q3, Q4]; cases b v <;> cases c v <;> cases d v <;> rfl),
    C (fun a => !Q4 a && (!Q3 a && (Q2 a && Q1 a))) (fun v => b v && !c v && d v)
      (by intro v; simp only [Q1, Q2, Q3, Q4]; cases b v <;> cases c v <;> cases d v <;> rfl),
    E (fun a => !Q4 a && (!Q3 a && (Q2 a && !Q1 a)))
      (by intro v; simp only [Q1, Q2, Q3, Q4]; cases b v <;> cases c v <;> cases d v <;> rfl),
    E (fun a => !Q4 a && (!Q3 a && (!Q2 a && !Q1 a)))
      (by intro v; simp only [Q1, Q2, Q3, Q4]; cases b v <;> cases c v <;> cases d v <;> rfl),
    E (fun a => !Q4 a && (!Q3 a && (!Q2 a && Q1 a)))
      (by intro v; simp only [Q1, Q2, Q3, Q4]; cases b v <;> cases c v <;> cases d v <;> rfl),
    E (fun a => !Q4 a && (Q3 a && (!Q2 a && Q1 a)))
      (by intro v; simp only [Q1, Q2, Q3, Q4]; cases b v <;> cases c v <;> cases d v <;> rfl),
    E (fun a => !Q4 a && (Q3 a && (!Q2 a && !Q1 a)))
      (by intro v; simp only [Q1, Q2, Q3, Q4]; cases b v <;> cases c v <;> cases d v <;> rfl),
    E (fun a => !Q4 a && (Q3 a && (Q2 a && !Q1 a)))
      (by intro v; simp only [Q1, Q2, Q3, Q4]; cases b v <;> cases c v <;> cases d v <;> rfl),
    C (fun a => !Q4 a && (Q3 a && (Q2 a && Q1 a))) (fun v => b v && c v && d v)
      (by intro v; simp only [Q1, Q2, Q3, Q4]; cases b v <;> cases c v <;> cases d v <;> rfl)]
  simp only [List.reverse_nil, List.nil_append, List.append_nil]

attribute [local irreducible] reorder in
/-- The whole of `reorder_boundary_nodes`. -/
theorem reorderBoundaryNodes_stage {α} [Inhabited α] (k : ℕ) (nodes : List α)
    (elements : List (List ℕ)) (hv : Valid nodes.length elements)
    (hk : ∀ e ∈ elements, e.length = k) (isContact isDirichlet : α → Bool) :
    let r := reorderBoundaryNodes nodes elements isContact isDirichlet
    let b := onBoundary elements
    let c := holdsAt nodes isContact
    let d := holdsAt nodes isDirichlet
    (∃ π, Stage nodes elements r.nodes r.elements (layout nodes.length b c d) π) ∧
      r.boundaryNodesCount = (List.range nodes.length).countP b ∧
      r.contactNodesCount = (List.range nodes.length).countP (fun v => b v && c v) ∧
      r.dirichletNodesCount = (List.range nodes.length).countP (fun v => b v && d v) := by
  intro r b c d
  obtain ⟨⟨π1, h1⟩, n1⟩ := reorder_stage k (Stage.init nodes elements) hv hk (fun _ => true) true
  obtain ⟨⟨π2, h2⟩, n2⟩ := reorder_stage k h1 hv hk (fun x => !isContact x && !isDirichlet x) false
  obtain ⟨⟨π3, h3⟩, n3⟩ := reorder_stage k h2 hv hk isContact true
  obtain ⟨⟨π4, h4⟩, n4⟩ := reorder_stage k h3 hv hk isDirichlet false
  have hlt : ∀ v, onBoundary elements v = true → v < nodes.length := by
    intro v h
    unfold onBoundary at h; rw [decide_eq_true_eq] at h
    exact boundaryNode_lt hv h
  have hb : ∀ v, (onBoundary elements v && holdsAt nodes (fun _ => true) v) = b v := by
    intro v
    cases h : onBoundary elements v
    · simp [b, h]
    · simp [holdsAt, hlt v h, b, h]
  have hcd : ∀ v, (onBoundary elements v && holdsAt nodes (fun x => !isContact x && !isDirichlet x) v) =
      (b v && (!c v && !d v)) := by
    intro v
    cases h : onBoundary elements v
    · simp [b, h]
    · simp [holdsAt, hlt v h, c, d, b, h]
  have hsteps := layout_steps (List.range nodes.length) b c d
  simp only at hsteps
  refine ⟨⟨π4, ?_⟩, ?_, n3, n4⟩
  · simp only [hb, hcd] at h4
    unfold layout
    rw [← hsteps]
    exact h4
  · refine n1.trans ?_
    apply List.countP_congr
    intro v _
    rw [hb v]

end Conmech
