import Verif.Lemmas.BoundaryIndices
import Mathlib.Data.List.Nodup

/-!
Property C11: degrees of freedom of a boundary paired with the entries of its condition.
-/
namespace Conmech
open Spec

/-- C11. Concatenating the elementwise pairings of all yielded slices lists, for each coordinate, each
boundary node exactly once at `coordinate * N + node`, together with the index of the condition entry
of that node. No sortedness is needed. -/
theorem C11_boundary_dofs (idx : NodeIndices) (hne : ∀ i, idx = .list i → i ≠ []) (N dim : ℕ) :
    (getAllBoundaryIndices idx N dim).flatMap pairing = boundaryDofs idx N dim := by
  cases idx with
  | slice a b =>
    simp only [getAllBoundaryIndices, boundaryDofs, nodesOf, List.flatMap_map]
    congr 1
    funext d
    have e1 : b + d * N - (a + d * N) = b - a := by omega
    simp only [pairing, e1, Nat.zero_add, Nat.sub_zero]
    apply List.ext_getElem
    · simp
    · intro k h1 h2
      simp only [List.getElem_zip, List.getElem_range', List.getElem_map, List.getElem_zipIdx,
        Prod.mk.injEq]
      omega
  | list i =>
    have hi := hne i rfl
    have hc := cuts_discontinuities i hi
    have hlast : (discontinuities i).tail.getLastD 0 = i.length := by
      simp [discontinuities, List.getLastD_eq_getLast?]
    have he : discontinuities i = 0 :: (discontinuities i).tail := by simp [discontinuities]
    simp only [getAllBoundaryIndices, boundaryDofs, nodesOf, List.flatMap_assoc]
    congr 1
    funext d
    have := (yieldRuns_cuts _ (d * N) 0 _ hc).1
    rw [hlast, Nat.sub_zero, range'_map_zipIdx, ← he] at this
    exact this

/-- C11. Both slices of each yielded pair have the same length, so the assignment `x[i] = c[j]` is
well formed. -/
theorem C11_slices_same_length (idx : NodeIndices) (hne : ∀ i, idx = .list i → i ≠ [])
    (N dim : ℕ) :
    ∀ s ∈ getAllBoundaryIndices idx N dim, s.1.2 - s.1.1 = s.2.2 - s.2.1 := by
  intro s hs
  cases idx with
  | slice a b =>
    simp only [getAllBoundaryIndices, List.mem_map, List.mem_range] at hs
    obtain ⟨d, _, rfl⟩ := hs
    simp only; omega
  | list i =>
    simp only [getAllBoundaryIndices, List.mem_flatMap, List.mem_range] at hs
    obtain ⟨d, _, hs⟩ := hs
    have hc := cuts_discontinuities i (hne i rfl)
    have he : discontinuities i = 0 :: (discontinuities i).tail := by simp [discontinuities]
    unfold runs at hs
    simp only at hs
    rw [he, List.tail_cons] at hs
    exact yieldRuns_length _ _ _ _ hc s hs

/-- C11. On a valid boundary (distinct node numbers below `N`), no degree of freedom is listed
twice. -/
theorem C11_boundary_dofs_nodup (idx : NodeIndices) (N dim : ℕ) (hnd : (nodesOf idx).Nodup)
    (hlt : ∀ v ∈ nodesOf idx, v < N) :
    ((boundaryDofs idx N dim).map (·.1)).Nodup := by
  have e : (boundaryDofs idx N dim).map (·.1) =
      (List.range dim).flatMap fun d => (nodesOf idx).map fun v => d * N + v := by
    unfold boundaryDofs
    rw [List.map_flatMap]
    congr 1; funext d
    rw [List.map_map]
    conv_rhs => rw [← List.zipIdx_map_fst 0 (nodesOf idx), List.map_map]
    simp [Function.comp_def]
  rw [e]
  rw [List.nodup_flatMap]
  refine ⟨?_, ?_⟩
  · intro d _
    exact hnd.map (fun a b h => by simpa using h)
  · apply List.Pairwise.imp _ (List.pairwise_lt_range (n := dim))
    intro a b hab
    simp only [Function.onFun, List.disjoint_left, List.mem_map, not_exists, not_and]
    rintro x ⟨v, hv, rfl⟩ w hw h
    have := hlt v hv
    have := hlt w hw
    have : (a + 1) * N ≤ b * N := Nat.mul_le_mul_right _ hab
    have : (a + 1) * N = a * N + N := by ring
    omega

/-- C11. Membership form: a degree of freedom is listed with entry `j` iff it belongs to the `j`-th
boundary node in some coordinate. -/
theorem C11_boundary_dofs_mem (idx : NodeIndices) (N dim x j : ℕ) :
    (x, j) ∈ boundaryDofs idx N dim ↔
      ∃ d < dim, ∃ v, (nodesOf idx)[j]? = some v ∧ x = d * N + v := by
  simp only [boundaryDofs, List.mem_flatMap, List.mem_range, List.mem_map, Prod.exists,
    Prod.mk.injEq, List.mk_mem_zipIdx_iff_getElem?]
  constructor
  · rintro ⟨d, hd, a, b, h, rfl, rfl⟩; exact ⟨d, hd, a, h, rfl⟩
  · rintro ⟨d, hd, v, h, rfl⟩; exact ⟨d, hd, v, j, h, rfl, rfl⟩

example : getAllBoundaryIndices (.list [2, 3, 7, 8, 9]) 10 2 =
    [((2, 4), (0, 2)), ((7, 10), (2, 5)), ((12, 14), (0, 2)), ((17, 20), (2, 5))] := by
  decide +kernel
-- not sorted, as in the documentation of `Boundary`
example : (getAllBoundaryIndices (.list [2, 0, 1]) 10 1).flatMap pairing =
    [(2, 0), (0, 1), (1, 2)] := by decide +kernel
example : boundaryDofs (.slice 3 5) 5 2 = [(3, 0), (4, 1), (8, 0), (9, 1)] := by decide +kernel

end Conmech
