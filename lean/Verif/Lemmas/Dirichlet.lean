import Verif.Spec.Dirichlet
import Verif.Props.BoundaryIndices
import Mathlib.Algebra.BigOperators.Intervals
import Mathlib.Algebra.BigOperators.Ring.Finset
import Mathlib.Tactic.Ring
import Mathlib.Tactic.Abel

namespace Conmech
open Spec

section
variable {K : Type _} [Field K]

/-- The pairs (degree of freedom, value) of one yielded pair of slices. -/
def pairsOf (c : ℕ → K) (ij : (ℕ × ℕ) × (ℕ × ℕ)) : List (ℕ × K) :=
  (pairing ij).map fun p => (p.1, c p.2)

/-- All pairs in the order they are processed. -/
def allPairs (N dim : ℕ) (bs : List (CondBoundary K)) : List (ℕ × K) :=
  bs.flatMap fun b => (getAllBoundaryIndices b.indices N dim).flatMap (pairsOf b.condition)

/-- Value given first to a degree of freedom. -/
def firstVal (ps : List (ℕ × K)) (x : ℕ) : Option K := ps.lookup x

/-- Value given last to a degree of freedom. -/
def lastVal (ps : List (ℕ × K)) (x : ℕ) : Option K := ps.reverse.lookup x

omit [Field K] in
theorem firstVal_append (ps qs : List (ℕ × K)) (x : ℕ) :
    firstVal (ps ++ qs) x = (firstVal ps x).or (firstVal qs x) := List.lookup_append

omit [Field K] in
theorem lastVal_append (ps qs : List (ℕ × K)) (x : ℕ) :
    lastVal (ps ++ qs) x = (lastVal qs x).or (lastVal ps x) := by
  unfold lastVal; rw [List.reverse_append, List.lookup_append]

omit [Field K] in
theorem lookup_isSome_iff (ps : List (ℕ × K)) (x : ℕ) :
    (ps.lookup x).isSome ↔ x ∈ ps.map (·.1) := by
  induction ps with
  | nil => simp
  | cons p ps ih =>
    obtain ⟨a, b⟩ := p
    rw [List.lookup_cons]
    by_cases h : x = a
    · simp [h]
    · simp [h, ih, beq_eq_false_iff_ne.2 h]

omit [Field K] in
theorem lastVal_isSome (ps : List (ℕ × K)) (x : ℕ) :
    (lastVal ps x).isSome = (firstVal ps x).isSome := by
  rw [Bool.eq_iff_iff]
  unfold lastVal firstVal
  rw [lookup_isSome_iff, lookup_isSome_iff]; simp

omit [Field K] in
theorem lastVal_eq_none (ps : List (ℕ × K)) (x : ℕ) : lastVal ps x = none ↔ firstVal ps x = none := by
  have := lastVal_isSome ps x
  cases h1 : lastVal ps x <;> cases h2 : firstVal ps x <;> simp_all

omit [Field K] in
theorem mem_of_lookup {ps : List (ℕ × K)} {x : ℕ} {v : K} (h : ps.lookup x = some v) :
    (x, v) ∈ ps := by
  induction ps with
  | nil => simp at h
  | cons p ps ih =>
    obtain ⟨a, b⟩ := p
    rw [List.lookup_cons] at h
    by_cases hx : x = a
    · simp [hx] at h; simp [hx, h]
    · simp [beq_eq_false_iff_ne.2 hx] at h; simp [ih h]

omit [Field K] in
theorem lastVal_mem {ps : List (ℕ × K)} {x : ℕ} {v : K} (h : lastVal ps x = some v) :
    (x, v) ∈ ps := by simpa using mem_of_lookup h

omit [Field K] in
theorem lookup_range (a len : ℕ) (f : ℕ → K) (x : ℕ) :
    ((List.range len).map fun t => (a + t, f t)).lookup x =
      if a ≤ x ∧ x < a + len then some (f (x - a)) else none := by
  induction len with
  | zero => simp
  | succ len ih =>
    rw [List.range_succ, List.map_append, List.lookup_append, ih]
    simp only [List.map_cons, List.map_nil, List.lookup_cons, List.lookup_nil]
    by_cases h1 : a ≤ x ∧ x < a + len
    · rw [if_pos h1, if_pos (by omega)]; rfl
    · rw [if_neg h1]
      by_cases h2 : x = a + len
      · subst h2; simp
      · rw [if_neg (by omega)]
        simp [beq_eq_false_iff_ne.2 h2]

omit [Field K] in
theorem lookup_range_reverse (a len : ℕ) (f : ℕ → K) (x : ℕ) :
    ((List.range len).map fun t => (a + t, f t)).reverse.lookup x =
      if a ≤ x ∧ x < a + len then some (f (x - a)) else none := by
  induction len with
  | zero => simp
  | succ len ih =>
    rw [List.range_succ, List.map_append, List.reverse_append, List.lookup_append, ih]
    simp only [List.map_cons, List.map_nil, List.reverse_singleton, List.lookup_cons,
      List.lookup_nil]
    by_cases h2 : x = a + len
    · subst h2; simp
    · by_cases h1 : a ≤ x ∧ x < a + len
      · rw [if_pos h1, if_pos (by omega)]; simp [beq_eq_false_iff_ne.2 h2]
      · rw [if_neg h1, if_neg (by omega)]; simp [beq_eq_false_iff_ne.2 h2]

omit [Field K] in
theorem pairsOf_eq (c : ℕ → K) (ij : (ℕ × ℕ) × (ℕ × ℕ)) (h : ij.1.2 - ij.1.1 = ij.2.2 - ij.2.1) :
    pairsOf c ij = (List.range (ij.1.2 - ij.1.1)).map fun t => (ij.1.1 + t, c (ij.2.1 + t)) := by
  unfold pairsOf pairing
  rw [← h]
  apply List.ext_getElem
  · simp
  · intro k h1 h2; simp

omit [Field K] in
theorem firstVal_pairsOf (c : ℕ → K) (ij : (ℕ × ℕ) × (ℕ × ℕ))
    (h : ij.1.2 - ij.1.1 = ij.2.2 - ij.2.1) (x : ℕ) :
    firstVal (pairsOf c ij) x =
      if inSlice ij.1 x then some (c (ij.2.1 + (x - ij.1.1))) else none := by
  unfold firstVal
  rw [pairsOf_eq c ij h, lookup_range ij.1.1 _ (fun t => c (ij.2.1 + t))]
  simp only [inSlice, Bool.and_eq_true, decide_eq_true_eq]
  by_cases h1 : ij.1.1 ≤ x ∧ x < ij.1.2
  · rw [if_pos h1, if_pos (by omega)]
  · rw [if_neg h1, if_neg (by omega)]

omit [Field K] in
theorem lastVal_pairsOf (c : ℕ → K) (ij : (ℕ × ℕ) × (ℕ × ℕ))
    (h : ij.1.2 - ij.1.1 = ij.2.2 - ij.2.1) (x : ℕ) :
    lastVal (pairsOf c ij) x =
      if inSlice ij.1 x then some (c (ij.2.1 + (x - ij.1.1))) else none := by
  unfold lastVal
  rw [pairsOf_eq c ij h, lookup_range_reverse ij.1.1 _ (fun t => c (ij.2.1 + t))]
  simp only [inSlice, Bool.and_eq_true, decide_eq_true_eq]
  by_cases h1 : ij.1.1 ≤ x ∧ x < ij.1.2
  · rw [if_pos h1, if_pos (by omega)]
  · rw [if_neg h1, if_neg (by omega)]

/-- Closed form of the matrix after processing the pairs `ps`. -/
def elimL (ps : List (ℕ × K)) (A : ℕ → ℕ → K) (r s : ℕ) : K :=
  if (firstVal ps r).isSome || (firstVal ps s).isSome then (if r = s then 1 else 0) else A r s

/-- Closed form of the right-hand side: equations use the first value given to a degree of freedom,
the degree of freedom itself is given the last one. -/
def elimR (n : ℕ) (ps : List (ℕ × K)) (A : ℕ → ℕ → K) (b : ℕ → K) (r : ℕ) : K :=
  match lastVal ps r with
  | some v => v
  | none => b r - ∑ s ∈ Finset.range n, A r s * (firstVal ps s).getD 0

theorem sum_slice (n a b : ℕ) (hb : a < b → b ≤ n) (g : ℕ → K) :
    ∑ t ∈ Finset.range (b - a), g (a + t) =
      ∑ s ∈ Finset.range n, if a ≤ s ∧ s < b then g s else 0 := by
  rw [← Finset.sum_Ico_eq_sum_range, ← Finset.sum_filter]
  apply Finset.sum_congr _ (fun _ _ => rfl)
  ext s
  simp only [Finset.mem_Ico, Finset.mem_filter, Finset.mem_range]
  omega

theorem applyBlock_elim (n : ℕ) (ps : List (ℕ × K)) (A : ℕ → ℕ → K) (b : ℕ → K) (c : ℕ → K)
    (ij : (ℕ × ℕ) × (ℕ × ℕ)) (h : ij.1.2 - ij.1.1 = ij.2.2 - ij.2.1) (hn : ij.1.1 < ij.1.2 → ij.1.2 ≤ n) :
    applyBlock c { lhs := elimL ps A, rhs := elimR n ps A b } ij =
      { lhs := elimL (ps ++ pairsOf c ij) A, rhs := elimR n (ps ++ pairsOf c ij) A b } := by
  have hf := firstVal_pairsOf c ij h
  have hl := lastVal_pairsOf c ij h
  simp only [applyBlock, System.mk.injEq]
  refine ⟨?_, ?_⟩
  · funext r s
    have hsub : inSlice ij.1 r = true → inSlice ij.1 s = true →
        ((r - ij.1.1 = s - ij.1.1) ↔ r = s) := by
      simp only [inSlice, Bool.and_eq_true, decide_eq_true_eq]; omega
    simp only [elimL, firstVal_append, hf]
    cases hr : inSlice ij.1 r <;> cases hs : inSlice ij.1 s
    · simp
    · have : r ≠ s := by rintro rfl; simp [hr] at hs
      simp [this]
    · have : r ≠ s := by rintro rfl; simp [hr] at hs
      simp [this]
    · simp [hsub hr hs]
  · funext r
    simp only [elimR, lastVal_append, hl]
    cases hr : inSlice ij.1 r with
    | true => simp
    | false =>
      simp only [Bool.false_eq_true, if_false, Option.none_or]
      have hne : ∀ t < ij.1.2 - ij.1.1, r ≠ ij.1.1 + t := by
        intro t ht he
        simp only [inSlice, Bool.and_eq_false_iff, decide_eq_false_iff_not] at hr
        omega
      cases hlr : lastVal ps r with
      | some v =>
        have : (firstVal ps r).isSome := by rw [← lastVal_isSome, hlr]; rfl
        simp only
        rw [Finset.sum_eq_zero, sub_zero]
        intro t ht
        simp [elimL, this, hne t (Finset.mem_range.1 ht)]
      | none =>
        have hfr : firstVal ps r = none := (lastVal_eq_none ps r).1 hlr
        simp only
        rw [sub_sub]
        congr 1
        have e : ∀ t ∈ Finset.range (ij.1.2 - ij.1.1),
            elimL ps A r (ij.1.1 + t) * c (ij.2.1 + t) =
            (fun s => if (firstVal ps s).isSome then 0 else A r s * c (ij.2.1 + (s - ij.1.1)))
              (ij.1.1 + t) := by
          intro t ht
          simp only [elimL, hfr, Option.isSome_none, Bool.false_or, Nat.add_sub_cancel_left]
          split_ifs with h1 h2
          · exact absurd h2 (hne t (Finset.mem_range.1 ht))
          · simp
          · rfl
        rw [Finset.sum_congr rfl e, sum_slice n ij.1.1 ij.1.2 hn (fun s =>
          if (firstVal ps s).isSome then 0 else A r s * c (ij.2.1 + (s - ij.1.1))),
          ← Finset.sum_add_distrib]
        apply Finset.sum_congr rfl
        intro s _
        rw [firstVal_append, hf]
        simp only [inSlice, Bool.and_eq_true, decide_eq_true_eq]
        cases hfs : firstVal ps s with
        | some v => simp
        | none => by_cases h3 : ij.1.1 ≤ s ∧ s < ij.1.2 <;> simp [h3]

theorem elimL_nil (A : ℕ → ℕ → K) : elimL [] A = A := by
  funext r s; simp [elimL, firstVal]

theorem elimR_nil (n : ℕ) (A : ℕ → ℕ → K) (b : ℕ → K) : elimR n [] A b = b := by
  funext r; simp [elimR, firstVal, lastVal]

theorem applyBlocks_elim (n : ℕ) (A : ℕ → ℕ → K) (b : ℕ → K) (c : ℕ → K)
    (l : List ((ℕ × ℕ) × (ℕ × ℕ))) (hl : ∀ ij ∈ l, ij.1.2 - ij.1.1 = ij.2.2 - ij.2.1)
    (hn : ∀ ij ∈ l, ij.1.1 < ij.1.2 → ij.1.2 ≤ n) (ps : List (ℕ × K)) :
    l.foldl (applyBlock c) { lhs := elimL ps A, rhs := elimR n ps A b } =
      { lhs := elimL (ps ++ l.flatMap (pairsOf c)) A,
        rhs := elimR n (ps ++ l.flatMap (pairsOf c)) A b } := by
  induction l generalizing ps with
  | nil => simp
  | cons ij l ih =>
    rw [List.foldl_cons, applyBlock_elim n ps A b c ij (hl _ (by simp)) (hn _ (by simp)),
      ih (fun x hx => hl x (by simp [hx])) (fun x hx => hn x (by simp [hx])), List.flatMap_cons,
      List.append_assoc]

theorem applyDirichlet_elim (n N dim : ℕ) (S : System K) (bs : List (CondBoundary K))
    (hl : ∀ b ∈ bs, ∀ ij ∈ getAllBoundaryIndices b.indices N dim,
      ij.1.2 - ij.1.1 = ij.2.2 - ij.2.1 ∧ (ij.1.1 < ij.1.2 → ij.1.2 ≤ n)) :
    applyDirichlet N dim bs S =
      { lhs := elimL (allPairs N dim bs) S.lhs,
        rhs := elimR n (allPairs N dim bs) S.lhs S.rhs } := by
  have key : ∀ (bs : List (CondBoundary K)) (ps : List (ℕ × K)),
      (∀ b ∈ bs, ∀ ij ∈ getAllBoundaryIndices b.indices N dim,
        ij.1.2 - ij.1.1 = ij.2.2 - ij.2.1 ∧ (ij.1.1 < ij.1.2 → ij.1.2 ≤ n)) →
      applyDirichlet N dim bs { lhs := elimL ps S.lhs, rhs := elimR n ps S.lhs S.rhs } =
      { lhs := elimL (ps ++ allPairs N dim bs) S.lhs,
        rhs := elimR n (ps ++ allPairs N dim bs) S.lhs S.rhs } := by
    intro bs
    induction bs with
    | nil => intro ps _; simp [applyDirichlet, allPairs]
    | cons b bs ih =>
      intro ps hl
      have := applyBlocks_elim n S.lhs S.rhs b.condition (getAllBoundaryIndices b.indices N dim)
        (fun ij h => (hl b (by simp) ij h).1) (fun ij h => (hl b (by simp) ij h).2) ps
      unfold applyDirichlet at ih ⊢
      rw [List.foldl_cons, this, ih _ (fun b hb => hl b (by simp [hb]))]
      simp [allPairs, List.append_assoc]
  have := key bs [] hl
  rw [elimL_nil, elimR_nil] at this
  simpa using this

theorem solverSolve_lastVal (impl : (ℕ → K) → ℕ → K) (N dim : ℕ) (bs : List (CondBoundary K))
    (guess : ℕ → K)
    (hl : ∀ b ∈ bs, ∀ ij ∈ getAllBoundaryIndices b.indices N dim,
      ij.1.2 - ij.1.1 = ij.2.2 - ij.2.1) (r : ℕ) :
    solverSolve impl N dim bs guess r = (lastVal (allPairs N dim bs) r).getD (impl guess r) := by
  have step : ∀ (c : ℕ → K) (l : List ((ℕ × ℕ) × (ℕ × ℕ))),
      (∀ ij ∈ l, ij.1.2 - ij.1.1 = ij.2.2 - ij.2.1) → ∀ (ps : List (ℕ × K)) (x y : ℕ → K),
      (∀ r, y r = (lastVal ps r).getD (x r)) → ∀ r,
      l.foldl (overwriteBlock c) y r = (lastVal (ps ++ l.flatMap (pairsOf c)) r).getD (x r) := by
    intro c l
    induction l with
    | nil => intro _ ps x y hy r; simpa using hy r
    | cons ij l ih =>
      intro hl ps x y hy r
      rw [List.foldl_cons, List.flatMap_cons, ← List.append_assoc]
      apply ih (fun z hz => hl z (by simp [hz]))
      intro r
      rw [lastVal_append, lastVal_pairsOf c ij (hl ij (by simp))]
      unfold overwriteBlock
      rw [hy r]
      split_ifs <;> simp
  have key : ∀ (bs : List (CondBoundary K)),
      (∀ b ∈ bs, ∀ ij ∈ getAllBoundaryIndices b.indices N dim,
        ij.1.2 - ij.1.1 = ij.2.2 - ij.2.1) → ∀ (ps : List (ℕ × K)) (x y : ℕ → K),
      (∀ r, y r = (lastVal ps r).getD (x r)) → ∀ r,
      bs.foldl (fun x b => (getAllBoundaryIndices b.indices N dim).foldl
        (overwriteBlock b.condition) x) y r =
        (lastVal (ps ++ allPairs N dim bs) r).getD (x r) := by
    intro bs
    induction bs with
    | nil => intro _ ps x y hy r; simpa [allPairs] using hy r
    | cons b bs ih =>
      intro hl ps x y hy r
      rw [List.foldl_cons]
      have := ih (fun b hb => hl b (by simp [hb]))
        (ps ++ (getAllBoundaryIndices b.indices N dim).flatMap (pairsOf b.condition)) x _
        (step b.condition _ (hl b (by simp)) ps x y hy) r
      rw [this]
      simp [allPairs, List.append_assoc]
  have := key bs hl [] (impl guess) (impl guess) (by simp [lastVal]) r
  simpa [solverSolve] using this

omit [Field K] in
theorem mem_allPairs (N dim : ℕ) (bs : List (CondBoundary K))
    (hv : ∀ b ∈ bs, ∀ i, b.indices = .list i → i ≠ []) (x : ℕ) (v : K) :
    (x, v) ∈ allPairs N dim bs ↔ ∃ b ∈ bs, ∃ d < dim, ∃ j node : ℕ,
      (nodesOf b.indices)[j]? = some node ∧ x = d * N + node ∧ v = b.condition j := by
  have key : ∀ b ∈ bs, (getAllBoundaryIndices b.indices N dim).flatMap (pairsOf b.condition) =
      (boundaryDofs b.indices N dim).map fun p => (p.1, b.condition p.2) := by
    intro b hb
    rw [← C11_boundary_dofs b.indices (hv b hb), List.map_flatMap]
    rfl
  unfold allPairs
  simp only [List.mem_flatMap]
  constructor
  · rintro ⟨b, hb, h⟩
    rw [← List.mem_flatMap, key b hb] at h
    simp only [List.mem_map, Prod.exists, Prod.mk.injEq] at h
    obtain ⟨x', j, hm, rfl, rfl⟩ := h
    obtain ⟨d, hd, node, h1, h2⟩ := (C11_boundary_dofs_mem b.indices N dim x' j).1 hm
    exact ⟨b, hb, d, hd, j, node, h1, h2, rfl⟩
  · rintro ⟨b, hb, d, hd, j, node, h1, h2, rfl⟩
    refine ⟨b, hb, ?_⟩
    rw [← List.mem_flatMap, key b hb]
    simp only [List.mem_map, Prod.exists, Prod.mk.injEq]
    exact ⟨x, j, (C11_boundary_dofs_mem b.indices N dim x j).2 ⟨d, hd, node, h1, h2⟩, rfl, rfl⟩

omit [Field K] in
theorem slices_bound (N dim : ℕ) (bs : List (CondBoundary K)) (hv : ValidBoundaries N bs) :
    ∀ b ∈ bs, ∀ ij ∈ getAllBoundaryIndices b.indices N dim,
      ij.1.2 - ij.1.1 = ij.2.2 - ij.2.1 ∧ (ij.1.1 < ij.1.2 → ij.1.2 ≤ dim * N) := by
  intro b hb ij hij
  have hlen := C11_slices_same_length b.indices (hv b hb).2 N dim ij hij
  refine ⟨hlen, ?_⟩
  intro hlt
  have hm : (ij.1.2 - 1, ij.2.2 - 1) ∈ pairing ij := by
    unfold pairing
    rw [List.mem_iff_getElem]
    refine ⟨ij.1.2 - ij.1.1 - 1, by simp; omega, ?_⟩
    simp only [List.getElem_zip, List.getElem_range', Prod.mk.injEq]
    omega
  have hm2 : (ij.1.2 - 1, ij.2.2 - 1) ∈ boundaryDofs b.indices N dim := by
    rw [← C11_boundary_dofs b.indices (hv b hb).2]
    exact List.mem_flatMap.2 ⟨ij, hij, hm⟩
  obtain ⟨d, hd, v, h1, h2⟩ := (C11_boundary_dofs_mem b.indices N dim _ _).1 hm2
  have hvN := (hv b hb).1 v (List.mem_of_getElem? h1)
  have : (d + 1) * N ≤ dim * N := Nat.mul_le_mul_right _ hd
  have e : (d + 1) * N = d * N + N := by ring
  omega

end
end Conmech
