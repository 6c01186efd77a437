import Verif.Model.BoundariesFactory
import Verif.Spec.Mesh
import Verif.Spec.Boundary
import Mathlib.Data.List.GetD
import Mathlib.Tactic.Ring

namespace Conmech
open Spec

/-- nodes with `q` (by position) in order -/
def pick {α} (q : ℕ → Bool) (l : List α) (k : ℕ := 0) : List α :=
  ((l.zipIdx k).filter fun p => q p.2).map (·.1)

theorem pick_append {α} (q : ℕ → Bool) (l l' : List α) (k : ℕ) :
    pick q (l ++ l') k = pick q l k ++ pick q l' (k + l.length) := by
  simp [pick, List.zipIdx_append, List.filter_append, Nat.add_comm]

theorem pick_cons {α} (q : ℕ → Bool) (x : α) (l : List α) (k : ℕ) :
    pick q (x :: l) k = (if q k then [x] else []) ++ pick q l (k + 1) := by
  simp [pick, List.zipIdx_cons, List.filter_cons]
  split <;> simp

@[simp] theorem pick_nil {α} (q : ℕ → Bool) (k : ℕ) : pick q ([] : List α) k = [] := rfl

theorem pick_length {α} (q : ℕ → Bool) (l : List α) :
    (pick q l).length = (List.range l.length).countP q := by
  induction l using List.reverseRecOn with
  | nil => rfl
  | append_singleton l x ih =>
    rw [pick_append, List.length_append, ih, pick_cons]
    simp only [List.length_append, List.length_singleton, List.range_succ, List.countP_append,
      List.countP_singleton, Nat.zero_add, pick_nil, List.append_nil]
    split <;> simp_all

theorem pick_compl_length {α} (q : ℕ → Bool) (l : List α) :
    (pick q l).length + (pick (fun v => !q v) l).length = l.length := by
  induction l using List.reverseRecOn with
  | nil => rfl
  | append_singleton l x ih =>
    rw [pick_append, pick_append, pick_cons, pick_cons]
    simp only [List.length_append, pick_nil, List.append_nil, Nat.zero_add, List.length_singleton]
    cases q l.length <;> simp <;> omega

/-- New position of node `v`; the identity outside the node range. -/
def newIdx (n : ℕ) (q : ℕ → Bool) (v : ℕ) : ℕ :=
  if v < n then
    if q v then (List.range v).countP q else n - 1 - (List.range v).countP (fun w => !q w)
  else v

/-- the list of new nodes -/
def arrange {α} (q : ℕ → Bool) (l : List α) : List α :=
  pick q l ++ (pick (fun v => !q v) l).reverse

theorem arrange_length {α} (q : ℕ → Bool) (l : List α) : (arrange q l).length = l.length := by
  simp [arrange, pick_compl_length]

theorem arrange_newIdx {α} (q : ℕ → Bool) (l : List α) (v : ℕ) (hv : v < l.length) :
    (arrange q l)[newIdx l.length q v]? = l[v]? := by
  have hsplit : l = l.take v ++ l[v] :: l.drop (v + 1) := by
    rw [List.getElem_cons_drop, List.take_append_drop]
  have hlen : (l.take v).length = v := by simp; omega
  have htot := pick_compl_length q l
  have hc1 : (pick q (l.take v)).length = (List.range v).countP q := by rw [pick_length, hlen]
  have hc2 : (pick (fun v => !q v) (l.take v)).length = (List.range v).countP (fun w => !q w) := by
    rw [pick_length, hlen]
  have hq : pick q l = pick q (l.take v) ++
      ((if q v then [l[v]] else []) ++ pick q (l.drop (v + 1)) (v + 1)) := by
    conv_lhs => rw [hsplit]
    rw [pick_append, pick_cons, hlen, Nat.zero_add]
  have hnq : pick (fun v => !q v) l = pick (fun v => !q v) (l.take v) ++
      ((if !q v then [l[v]] else []) ++ pick (fun v => !q v) (l.drop (v + 1)) (v + 1)) := by
    conv_lhs => rw [hsplit]
    rw [pick_append, pick_cons, hlen, Nat.zero_add]
  unfold newIdx arrange
  rw [if_pos hv, List.getElem?_eq_getElem hv]
  cases h : q v
  · simp only [Bool.false_eq_true, if_false, h, Bool.not_false, if_true] at hq hnq ⊢
    rw [hnq] at htot ⊢
    simp only [List.length_append, List.length_singleton] at htot
    rw [hc2] at htot
    rw [List.getElem?_append_right (by omega)]
    simp only [List.reverse_append, List.append_assoc]
    rw [List.getElem?_append_right (by simp; omega), List.getElem?_append_left (by simp; omega)]
    simp only [List.length_reverse, List.reverse_singleton]
    have : l.length - 1 - (List.range v).countP (fun w => !q w) - (pick q l).length -
        (pick (fun v => !q v) (l.drop (v + 1)) (v + 1)).length = 0 := by omega
    rw [this]; rfl
  · simp only [h, if_true] at hq ⊢
    rw [hq]
    rw [List.append_assoc, List.getElem?_append_right (by omega), hc1, Nat.sub_self]
    simp

theorem newIdx_lt (n : ℕ) (q : ℕ → Bool) (v : ℕ) (hv : v < n) : newIdx n q v < n := by
  have h := arrange_newIdx q (List.range n) v (by simpa using hv)
  by_contra hc
  rw [List.length_range, List.getElem?_eq_none (by rw [arrange_length]; simp; omega)] at h
  simp [hv] at h

theorem newIdx_injective (n : ℕ) (q : ℕ → Bool) : Function.Injective (newIdx n q) := by
  intro v w h
  by_cases hv : v < n <;> by_cases hw : w < n
  · have h1 := arrange_newIdx q (List.range n) v (by simpa using hv)
    have h2 := arrange_newIdx q (List.range n) w (by simpa using hw)
    rw [List.length_range] at h1 h2
    rw [h, h2] at h1
    simpa [hv, hw] using h1.symm
  · have := newIdx_lt n q v hv
    rw [h, newIdx, if_neg hw] at this; omega
  · have := newIdx_lt n q w hw
    rw [← h, newIdx, if_neg hv] at this; omega
  · simpa [newIdx, hv, hw] using h

theorem newIdx_surjective (n : ℕ) (q : ℕ → Bool) : Function.Surjective (newIdx n q) := by
  intro w
  by_cases hw : w < n
  · have hinj := newIdx_injective n q
    have hmap : (List.range n).map (newIdx n q) ⊆ List.range n := by
      intro x hx
      obtain ⟨v, hv, rfl⟩ := List.mem_map.1 hx
      exact List.mem_range.2 (newIdx_lt n q v (List.mem_range.1 hv))
    have hnd : ((List.range n).map (newIdx n q)).Nodup := List.nodup_range.map hinj
    have hperm := (List.subperm_of_subset hnd hmap).perm_of_length_le (by simp)
    have : w ∈ (List.range n).map (newIdx n q) := hperm.mem_iff.2 (List.mem_range.2 hw)
    obtain ⟨v, _, hv⟩ := List.mem_map.1 this
    exact ⟨v, hv⟩
  · exact ⟨w, by simp [newIdx, hw]⟩

/-- Which nodes go to the front. -/
def goesFront (selected : List ℕ) (toTop : Bool) (v : ℕ) : Bool := selected.contains v == toTop

theorem set_middle {α} (a : List α) (x d : α) (m : ℕ) (b : List α) :
    (a ++ List.replicate (m + 1) d ++ b).set a.length x =
      a ++ [x] ++ List.replicate m d ++ b := by
  rw [List.append_assoc, List.set_append_right _ _ (by omega), Nat.sub_self, List.replicate_succ]
  simp

theorem set_middle_last {α} (a : List α) (x d : α) (m : ℕ) (b : List α) :
    (a ++ List.replicate (m + 1) d ++ b).set (a.length + m) x =
      a ++ List.replicate m d ++ (x :: b) := by
  rw [List.append_assoc, List.set_append_right _ _ (by omega), Nat.add_sub_cancel_left,
    List.replicate_succ', List.append_assoc, List.set_append_right _ _ (by simp)]
  simp

/-- encoded value after `k` steps -/
def enc (n : ℕ) (q : ℕ → Bool) (k v : ℕ) : ℤ := if v < k then (newIdx n q v : ℤ) else -(v : ℤ) - 1

/-- State after the first `k` nodes. -/
def stateAt {α} [Inhabited α] (l : List α) (elements : List (List ℕ)) (q : ℕ → Bool)
    (toTop : Bool) (k : ℕ) : ReorderState α :=
  let a := (pick q (l.take k))
  let b := (pick (fun v => !q v) (l.take k))
  let f : ℤ := a.length
  let g : ℤ := (l.length : ℤ) - 1 - b.length
  { nodes := a ++ List.replicate (l.length - k) default ++ b.reverse
    elements := elements.map fun row => row.map (enc l.length q k)
    selectedIndex := if toTop then f else g
    otherIndex := if toTop then g else f }

theorem enc_succ (n : ℕ) (q : ℕ → Bool) (k v : ℕ) :
    enc n q (k + 1) v = if enc n q k v = -(k : ℤ) - 1 then (newIdx n q k : ℤ) else enc n q k v := by
  unfold enc
  by_cases h1 : v < k
  · rw [if_pos h1, if_pos (by omega), if_neg (by omega)]
  · rw [if_neg h1]
    by_cases h2 : v = k
    · subst h2; simp
    · rw [if_neg (by omega), if_neg (by omega)]

theorem reorderStep_stateAt {α} [Inhabited α] (l : List α) (elements : List (List ℕ))
    (selected : List ℕ) (toTop : Bool) (k : ℕ) (hk : k < l.length) :
    reorderStep selected (if toTop then 1 else -1)
      (stateAt l elements (goesFront selected toTop) toTop k) (l[k], k) =
      stateAt l elements (goesFront selected toTop) toTop (k + 1) := by
  set q := goesFront selected toTop with hqdef
  have hlen : (l.take k).length = k := by simp; omega
  have htake : l.take (k + 1) = l.take k ++ [l[k]] := by
    rw [List.take_succ_eq_append_getElem hk]
  have hpa : pick q (l.take (k + 1)) = pick q (l.take k) ++ (if q k then [l[k]] else []) := by
    rw [htake, pick_append, pick_cons, hlen]; simp
  have hpb : pick (fun v => !q v) (l.take (k + 1)) =
      pick (fun v => !q v) (l.take k) ++ (if !q k then [l[k]] else []) := by
    rw [htake, pick_append, pick_cons, hlen]; simp
  have hab := pick_compl_length q (l.take k)
  rw [hlen] at hab
  have hca : (pick q (l.take k)).length = (List.range k).countP q := by rw [pick_length, hlen]
  have hcb : (pick (fun v => !q v) (l.take k)).length = (List.range k).countP (fun w => !q w) := by
    rw [pick_length, hlen]
  -- the new index
  have hnew : (if selected.contains k then
      (stateAt l elements q toTop k).selectedIndex else
      (stateAt l elements q toTop k).otherIndex) = (newIdx l.length q k : ℤ) := by
    unfold newIdx stateAt
    rw [if_pos hk]
    have hqk : q k = (selected.contains k == toTop) := rfl
    cases hs : selected.contains k <;> cases ht : toTop <;> rw [hs, ht] at hqk <;>
      simp only [hqk, Bool.false_eq_true, if_false, if_true, ← hca, ← hcb,
        BEq.rfl, Bool.false_beq, Bool.true_beq, Bool.not_true] <;> omega
  have hnodes : setPy (stateAt l elements q toTop k).nodes (newIdx l.length q k : ℤ) l[k] =
      (stateAt l elements q toTop (k + 1)).nodes := by
    unfold setPy
    rw [if_pos (by omega), Int.toNat_natCast]
    unfold stateAt newIdx
    rw [if_pos hk]
    simp only [hpa, hpb]
    obtain ⟨m, hm⟩ : ∃ m, l.length - k = m + 1 := ⟨l.length - k - 1, by omega⟩
    have hm' : l.length - (k + 1) = m := by omega
    rw [hm, hm']
    cases hqk : q k
    · simp only [Bool.false_eq_true, if_false, Bool.not_false, if_true, List.append_nil,
        List.reverse_append, List.reverse_singleton]
      have : l.length - 1 - (List.range k).countP (fun w => !q w) =
          (pick q (l.take k)).length + m := by omega
      rw [this, set_middle_last]; rfl
    · simp only [if_true, Bool.not_true, Bool.false_eq_true, if_false, List.append_nil]
      rw [← hca, set_middle]
  have helems : ((stateAt l elements q toTop k).elements.map fun row => row.map fun v =>
      if v = -(k : ℤ) - 1 then (newIdx l.length q k : ℤ) else v) =
      (stateAt l elements q toTop (k + 1)).elements := by
    unfold stateAt
    simp only [List.map_map]
    apply List.map_congr_left
    intro row _
    simp only [Function.comp, List.map_map]
    apply List.map_congr_left
    intro v _
    simp only [Function.comp]
    exact (enc_succ _ _ _ _).symm
  unfold reorderStep
  simp only [hnew]
  rw [hnodes, helems]
  have hsel : (if selected.contains k then
      (stateAt l elements q toTop k).selectedIndex + (if toTop then 1 else -1) else
      (stateAt l elements q toTop k).selectedIndex) =
      (stateAt l elements q toTop (k + 1)).selectedIndex := by
    unfold stateAt
    simp only [hpa, hpb]
    have hqk : q k = (selected.contains k == toTop) := rfl
    cases hs : selected.contains k <;> cases ht : toTop <;> rw [hs, ht] at hqk <;>
      simp [hqk] <;> ring
  have hoth : (if selected.contains k then
      (stateAt l elements q toTop k).otherIndex else
      (stateAt l elements q toTop k).otherIndex - (if toTop then 1 else -1)) =
      (stateAt l elements q toTop (k + 1)).otherIndex := by
    unfold stateAt
    simp only [hpa, hpb]
    have hqk : q k = (selected.contains k == toTop) := rfl
    cases hs : selected.contains k <;> cases ht : toTop <;> rw [hs, ht] at hqk <;>
      simp [hqk] <;> ring
  rw [hsel, hoth]

theorem foldl_stateAt {α} [Inhabited α] (l : List α) (elements : List (List ℕ))
    (selected : List ℕ) (toTop : Bool) (k : ℕ) (hk : k ≤ l.length) :
    (l.zipIdx.take k).foldl (reorderStep selected (if toTop then 1 else -1))
      (stateAt l elements (goesFront selected toTop) toTop 0) =
      stateAt l elements (goesFront selected toTop) toTop k := by
  induction k with
  | zero => rfl
  | succ k ih =>
    rw [List.take_succ_eq_append_getElem (by simp; omega), List.foldl_append, ih (by omega)]
    simp only [List.foldl_cons, List.foldl_nil, List.getElem_zipIdx, Nat.zero_add]
    exact reorderStep_stateAt l elements selected toTop k (by omega)

/-- Closed form of `reorder_numba`. -/
theorem reorderNumba_eq {α} [Inhabited α] (l : List α) (elements : List (List ℕ))
    (selected : List ℕ) (toTop : Bool) (hv : Valid l.length elements) :
    reorderNumba l elements selected toTop =
      (arrange (goesFront selected toTop) l,
        elements.map (fun row => row.map fun v =>
          (newIdx l.length (goesFront selected toTop) v : ℤ)), selected.length) := by
  have h := foldl_stateAt l elements selected toTop l.length le_rfl
  rw [List.take_of_length_le (by simp)] at h
  have h0 : stateAt l elements (goesFront selected toTop) toTop 0 =
      { nodes := List.replicate l.length default
        elements := elements.map fun row => row.map fun (v : ℕ) => -(v : ℤ) - 1
        selectedIndex := if toTop then 0 else (l.length : ℤ) - 1
        otherIndex := if toTop then (l.length : ℤ) - 1 else 0 } := by
    simp [stateAt, pick]
    intro row _ v _; simp [enc]
  rw [h0] at h
  unfold reorderNumba
  simp only [h]
  refine Prod.ext ?_ (Prod.ext ?_ rfl)
  · simp [stateAt, arrange]
  · simp only [stateAt]
    apply List.map_congr_left
    intro row hrow
    apply List.map_congr_left
    intro v hvr
    simp [enc, hv row hrow v hvr]

end Conmech
