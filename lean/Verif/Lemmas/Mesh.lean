import Verif.Model.Mesh
import Verif.Spec.Mesh
import Mathlib.Data.List.GetD
import Mathlib.Algebra.BigOperators.Group.List.Basic

namespace Conmech
open Spec

theorem any_contains_iff (elements : List (List Nat)) (index : Nat) :
    (elements.any fun row => row.contains index) = true ↔ Used elements index := by
  simp [Used]

/-- decrement of a single number -/
def dec (index v : Nat) : Nat := if v > index then v - 1 else v

theorem decrementAbove_eq (index : Nat) (elements : List (List Nat)) :
    decrementAbove index elements = elements.map fun row => row.map (dec index) := rfl

theorem dropAt_getElem? {α} (nodes : List α) (index v : Nat) (h : index < nodes.length)
    (hne : v ≠ index) :
    (nodes.take index ++ nodes.drop (index + 1))[dec index v]? = nodes[v]? := by
  unfold dec
  have hl : (nodes.take index).length = index := by simp; omega
  by_cases hv : v > index
  · rw [if_pos hv, List.getElem?_append_right (by omega), hl, List.getElem?_drop]
    congr 1; omega
  · rw [if_neg hv, List.getElem?_append_left (by omega), List.getElem?_take_of_lt (by omega)]

theorem valid_decrement {n index : Nat} {elements : List (List Nat)} (hv : Valid n elements)
    (hu : ¬ Used elements index) (hi : index < n) :
    Valid (n - 1) (decrementAbove index elements) := by
  rw [decrementAbove_eq]
  intro row hrow v hvr
  obtain ⟨r, hr, rfl⟩ := List.mem_map.1 hrow
  obtain ⟨w, hw, rfl⟩ := List.mem_map.1 hvr
  have h1 := hv r hr w hw
  have h2 : w ≠ index := fun h => hu ⟨r, hr, h ▸ hw⟩
  unfold dec; split <;> omega

theorem used_decrement {index : Nat} {elements : List (List Nat)} (hu : ¬ Used elements index)
    (v : Nat) : Used (decrementAbove index elements) v ↔
      Used elements (if v < index then v else v + 1) := by
  rw [decrementAbove_eq]
  constructor
  · rintro ⟨row, hrow, hvr⟩
    obtain ⟨r, hr, rfl⟩ := List.mem_map.1 hrow
    obtain ⟨w, hw, rfl⟩ := List.mem_map.1 hvr
    have h2 : w ≠ index := fun h => hu ⟨r, hr, h ▸ hw⟩
    refine ⟨r, hr, ?_⟩
    have : (if dec index w < index then dec index w else dec index w + 1) = w := by
      unfold dec; split <;> split <;> omega
    rw [this]; exact hw
  · rintro ⟨r, hr, hw⟩
    refine ⟨r.map (dec index), List.mem_map.2 ⟨r, hr, rfl⟩, List.mem_map.2 ⟨_, hw, ?_⟩⟩
    unfold dec; split <;> split <;> omega

theorem removeLoop_spec {α} (nodes : List α) (elements : List (List Nat)) (index : Nat)
    (hv : Valid nodes.length elements) (hi : index ≤ nodes.length)
    (hused : ∀ v < index, Used elements v) :
    let r := removeLoop nodes elements nodes.length index
    geometry r.1 r.2 = geometry nodes elements ∧ Valid r.1.length r.2 ∧
      (∀ v < r.1.length, Used r.2 v) ∧
      r.1.map some = ((List.range nodes.length).filter fun v => decide (Used elements v)).map
        (nodes[·]?) := by
  induction hk : nodes.length - index generalizing nodes elements index with
  | zero =>
    have : index = nodes.length := by omega
    subst this
    rw [removeLoop, if_neg (by omega)]
    refine ⟨rfl, hv, hused, ?_⟩
    rw [List.filter_eq_self.2]
    · apply List.ext_getElem?
      intro i
      by_cases h : i < nodes.length
      · simp [h]
      · simp [Nat.not_lt.1 h]
    · intro v hvm; simpa using hused v (List.mem_range.1 hvm)
  | succ k ih =>
    rw [removeLoop, if_pos (by omega)]
    by_cases hc : Used elements index
    · rw [if_pos ((any_contains_iff _ _).2 hc)]
      apply ih nodes elements (index + 1) hv (by omega) _ (by omega)
      intro v hvi
      by_cases h : v = index
      · exact h ▸ hc
      · exact hused v (by omega)
    · rw [if_neg (by rw [any_contains_iff]; exact hc)]
      have hlt : index < nodes.length := by omega
      have hlen : (nodes.take index ++ nodes.drop (index + 1)).length = nodes.length - 1 := by
        simp; omega
      rw [← hlen]
      obtain ⟨h1, h2, h3, h4⟩ := ih (nodes.take index ++ nodes.drop (index + 1))
        (decrementAbove index elements) index (by rw [hlen]; exact valid_decrement hv hc hlt)
        (by omega)
        (fun v hvi => by
          rw [used_decrement hc, if_pos hvi]; exact hused v hvi) (by omega)
      refine ⟨?_, h2, h3, ?_⟩
      · rw [h1]
        unfold geometry
        rw [decrementAbove_eq, List.map_map]
        apply List.map_congr_left
        intro r hr
        simp only [Function.comp, List.map_map]
        apply List.map_congr_left
        intro v hvr
        exact dropAt_getElem? nodes index v hlt (fun h => hc ⟨r, hr, h ▸ hvr⟩)
      · rw [h4, hlen]
        -- split both ranges at `index`
        have e1 : List.range nodes.length =
            List.range index ++ [index] ++ (List.range (nodes.length - 1 - index)).map
              (fun v => index + 1 + v) := by
          have : nodes.length = index + 1 + (nodes.length - 1 - index) := by omega
          rw [this, List.range_add, List.range_succ]; simp
        have e2 : List.range (nodes.length - 1) =
            List.range index ++ (List.range (nodes.length - 1 - index)).map
              (fun v => index + v) := by
          have : nodes.length - 1 = index + (nodes.length - 1 - index) := by omega
          rw [this, List.range_add]; simp
        rw [e1, e2]
        simp only [List.filter_append, List.map_append]
        have f0 : ([index].filter fun v => decide (Used elements v)) = [] := by simp [hc]
        rw [f0, List.map_nil, List.append_nil]
        congr 1
        · have ef : ((List.range index).filter
              fun v => decide (Used (decrementAbove index elements) v)) =
              (List.range index).filter fun v => decide (Used elements v) := by
            apply List.filter_congr
            intro v hvr
            rw [decide_eq_decide, used_decrement hc, if_pos (List.mem_range.1 hvr)]
          rw [ef]
          apply List.map_congr_left
          intro v hvr
          have hvi : v < index := List.mem_range.1 (List.mem_filter.1 hvr).1
          have := dropAt_getElem? nodes index v hlt (by omega)
          rw [← this]; unfold dec; rw [if_neg (by omega)]
        · rw [List.filter_map, List.filter_map, List.map_map, List.map_map]
          have ef : ((List.range (nodes.length - 1 - index)).filter
              ((fun v => decide (Used (decrementAbove index elements) v)) ∘
                fun v => index + v)) =
              (List.range (nodes.length - 1 - index)).filter
                ((fun v => decide (Used elements v)) ∘ fun v => index + 1 + v) := by
            apply List.filter_congr
            intro v hvr
            simp only [Function.comp]
            rw [decide_eq_decide, used_decrement hc, if_neg (by omega)]
            have : index + v + 1 = index + 1 + v := by omega
            rw [this]
          rw [ef]
          apply List.map_congr_left
          intro v hvr
          simp only [Function.comp]
          rw [← dropAt_getElem? nodes index (index + 1 + v) hlt (by omega)]
          congr 1; unfold dec; rw [if_pos (by omega)]; omega

/-! ### edges -/

theorem bump_pos (M : Nat → Nat → Nat) (a b i j : Nat) :
    0 < bump M a b i j ↔ 0 < M i j ∨ (i = a ∧ j = b) := by
  unfold bump; split <;> rename_i h
  · simp [h]
  · simp [h]

theorem foldl_pos {β} (l : List β) (f : (Nat → Nat → Nat) → β → Nat → Nat → Nat)
    (P : β → Nat → Nat → Prop)
    (hf : ∀ b ∈ l, ∀ M i j, 0 < f M b i j ↔ 0 < M i j ∨ P b i j) (M : Nat → Nat → Nat) (i j : Nat) :
    0 < l.foldl f M i j ↔ 0 < M i j ∨ ∃ b ∈ l, P b i j := by
  induction l generalizing M with
  | nil => simp
  | cons x l ih =>
    rw [List.foldl_cons, ih (fun b hb => hf b (List.mem_cons_of_mem _ hb)),
      hf x List.mem_cons_self, or_assoc]
    simp only [List.mem_cons, exists_eq_or_imp]

theorem edgesOfElement_pos (k : Nat) (e : List Nat) (M : Nat → Nat → Nat) (i j : Nat) :
    0 < edgesOfElement k e M i j ↔ 0 < M i j ∨
      ∃ p < k, ∃ q < k, p ≠ q ∧ i = e.getD p 0 ∧ j = e.getD q 0 := by
  unfold edgesOfElement
  rw [foldl_pos (P := fun p i j => ∃ q < k, p ≠ q ∧ i = e.getD p 0 ∧ j = e.getD q 0)]
  · simp
  · intro p _ M i j
    rw [foldl_pos (P := fun q i j => p ≠ q ∧ i = e.getD p 0 ∧ j = e.getD q 0)]
    · simp
    · intro q _ M i j
      by_cases h : p = q
      · simp [h]
      · rw [if_pos h, bump_pos]; simp [h]

theorem edgesMatrix_pos (elements : List (List Nat)) (k : Nat)
    (hk : ∀ e ∈ elements, e.length = k) (hd : ∀ e ∈ elements, e.Nodup) (i j : Nat) :
    0 < edgesMatrix elements i j ↔ Adjacent elements i j := by
  have hk' : elements = [] ∨ (elements.headD []).length = k := by
    cases elements with
    | nil => simp
    | cons a l => right; exact hk a List.mem_cons_self
  rcases hk' with rfl | hk'
  · simp [edgesMatrix, Adjacent]
  unfold edgesMatrix
  rw [hk', foldl_pos elements (P := fun (e : List Nat) i j => ∃ p < k, ∃ q < k, p ≠ q ∧
    i = e.getD p 0 ∧ j = e.getD q 0) (hf := fun e _ M i j => edgesOfElement_pos k e M i j)]
  simp only [Nat.lt_irrefl, false_or]
  constructor
  · rintro ⟨e, he, p, hp, q, hq, hpq, rfl, rfl⟩
    have hl := hk e he
    rw [List.getD_eq_getElem _ _ (by omega), List.getD_eq_getElem _ _ (by omega)]
    refine ⟨fun h => hpq ?_, e, he, List.getElem_mem _, List.getElem_mem _⟩
    exact (List.getElem_inj (hd e he)).1 h
  · rintro ⟨hij, e, he, hi, hj⟩
    obtain ⟨p, hp, rfl⟩ := List.getElem_of_mem hi
    obtain ⟨q, hq, rfl⟩ := List.getElem_of_mem hj
    have hl := hk e he
    refine ⟨e, he, p, by omega, q, by omega, fun h => hij (by subst h; rfl), ?_, ?_⟩
    · rw [List.getD_eq_getElem _ _ hp]
    · rw [List.getD_eq_getElem _ _ hq]

theorem foldl_add {β} (l : List β) (f : (Nat → Nat → Nat) → β → Nat → Nat → Nat)
    (c : β → Nat → Nat → Nat)
    (hf : ∀ b ∈ l, ∀ M i j, f M b i j = M i j + c b i j) (M : Nat → Nat → Nat) (i j : Nat) :
    l.foldl f M i j = M i j + (l.map fun b => c b i j).sum := by
  induction l generalizing M with
  | nil => simp
  | cons x l ih =>
    rw [List.foldl_cons, ih (fun b hb => hf b (List.mem_cons_of_mem _ hb)),
      hf x List.mem_cons_self, List.map_cons, List.sum_cons]
    omega

theorem sum_range_getD (e : List Nat) (c : Nat → Nat) :
    ((List.range e.length).map fun p => c (e.getD p 0)).sum = (e.map c).sum := by
  congr 1
  apply List.ext_getElem
  · simp
  · intro n h1 h2
    simp only [List.length_map, List.length_range] at h1
    simp [h1]

theorem sum_ite_eq (e : List Nat) (hd : e.Nodup) (a : Nat) (x : Nat) :
    (e.map fun b => if a = b then x else 0).sum = if a ∈ e then x else 0 := by
  induction e with
  | nil => simp
  | cons y e ih =>
    rw [List.map_cons, List.sum_cons, ih (List.nodup_cons.1 hd).2]
    have := (List.nodup_cons.1 hd).1
    by_cases h : a = y
    · subst h; simp [this]
    · simp [h]

theorem edgesOfElement_eq (e : List Nat) (hd : e.Nodup) (M : Nat → Nat → Nat) (i j : Nat) :
    edgesOfElement e.length e M i j =
      M i j + if i ≠ j ∧ i ∈ e ∧ j ∈ e then 1 else 0 := by
  unfold edgesOfElement
  rw [foldl_add (c := fun p i j => if i = e.getD p 0 then
    (if j ∈ e then (if i = j then 0 else 1) else 0) else 0)]
  · rw [sum_range_getD e (fun a => if i = a then
      (if j ∈ e then (if i = j then 0 else 1) else 0) else 0), sum_ite_eq e hd]
    by_cases hij : i = j <;> by_cases hi : i ∈ e <;> by_cases hj : j ∈ e <;> simp_all
  · intro p hp M i j
    have hp : p < e.length := List.mem_range.1 hp
    rw [foldl_add (c := fun q i j => if p ≠ q then
      (if i = e.getD p 0 ∧ j = e.getD q 0 then 1 else 0) else 0)]
    · congr 1
      have : ((List.range e.length).map fun q => if p ≠ q then
          (if i = e.getD p 0 ∧ j = e.getD q 0 then 1 else 0) else 0) =
          (List.range e.length).map fun q => (fun b => if j = b then
            (if i = e.getD p 0 then (if i = j then 0 else 1) else 0) else 0) (e.getD q 0) := by
        apply List.map_congr_left
        intro q hq
        have hq : q < e.length := List.mem_range.1 hq
        have hpq : p = q ↔ e.getD p 0 = e.getD q 0 := by
          rw [List.getD_eq_getElem _ _ hp, List.getD_eq_getElem _ _ hq]
          exact (List.getElem_inj hd).symm
        generalize e.getD p 0 = x at hpq ⊢
        generalize e.getD q 0 = y at hpq ⊢
        by_cases h1 : i = x <;> by_cases h2 : j = y
        · subst h1 h2
          by_cases h3 : p = q
          · simp [h3, hpq.1 h3]
          · have h4 : i ≠ j := fun h => h3 (hpq.2 h)
            simp [h3, h4]
        · simp [h2]
        · simp [h1]
        · simp [h1]
      rw [this, sum_range_getD e (fun b => if j = b then
            (if i = e.getD p 0 then (if i = j then 0 else 1) else 0) else 0), sum_ite_eq e hd]
      generalize e.getD p 0 = x
      by_cases h1 : i = x <;> by_cases h2 : j ∈ e <;> simp [h1, h2]
    · intro q _ M i j
      by_cases h : p = q
      · simp [h]
      · rw [if_pos h, if_pos h]; unfold bump; split <;> simp

theorem edgesMatrix_eq (elements : List (List Nat)) (k : Nat)
    (hk : ∀ e ∈ elements, e.length = k) (hd : ∀ e ∈ elements, e.Nodup) (i j : Nat) :
    edgesMatrix elements i j =
      elements.countP fun e => decide (i ≠ j ∧ i ∈ e ∧ j ∈ e) := by
  have hk' : elements = [] ∨ (elements.headD []).length = k := by
    cases elements with
    | nil => simp
    | cons a l => right; exact hk a List.mem_cons_self
  rcases hk' with rfl | hk'
  · simp [edgesMatrix]
  unfold edgesMatrix
  rw [hk', foldl_add elements (c := fun (e : List Nat) i j => if i ≠ j ∧ i ∈ e ∧ j ∈ e then 1 else 0)]
  · rw [Nat.zero_add]
    clear hk hd hk'
    induction elements with
    | nil => rfl
    | cons a l ih =>
      rw [List.map_cons, List.sum_cons, List.countP_cons, ih, Nat.add_comm]
      simp
  · intro e he M i j
    rw [← hk e he]; exact edgesOfElement_eq e (hd e he) M i j

theorem ndindex_pairwise (m n : Nat) :
    ((List.range m).flatMap fun i => (List.range n).map fun j => (i, j)).Pairwise
      (fun p q => p.1 < q.1 ∨ (p.1 = q.1 ∧ p.2 < q.2)) := by
  rw [List.pairwise_flatMap]
  constructor
  · intro i _
    rw [List.pairwise_map]
    exact List.pairwise_lt_range.imp (fun h => Or.inr ⟨rfl, h⟩)
  · refine List.pairwise_lt_range.imp ?_
    intro a b hab x hx y hy
    obtain ⟨_, _, rfl⟩ := List.mem_map.1 hx
    obtain ⟨_, _, rfl⟩ := List.mem_map.1 hy
    exact Or.inl hab

end Conmech
