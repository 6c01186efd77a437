import Verif.Spec.BoundaryIndices
import Mathlib.Data.List.GetD
import Mathlib.Data.List.Basic
import Mathlib.Tactic.Ring

namespace Conmech
open Spec

/-- Consecutive cut points enclose consecutive numbers. -/
inductive Cuts (f : ℕ → ℕ) : ℕ → List ℕ → Prop
  | nil (p) : Cuts f p []
  | cons (p q qs) : p < q → (∀ j, p ≤ j → j + 1 < q → f (j + 1) = f j + 1) → Cuts f q qs →
      Cuts f p (q :: qs)

theorem run_value {f : ℕ → ℕ} {p q : ℕ} (h : ∀ j, p ≤ j → j + 1 < q → f (j + 1) = f j + 1) :
    ∀ t, p + t < q → f (p + t) = f p + t := by
  intro t
  induction t with
  | zero => simp
  | succ t ih =>
    intro ht
    have := h (p + t) (by omega) (by omega)
    rw [← Nat.add_assoc, this, ih (by omega)]; omega

theorem pairing_run (f : ℕ → ℕ) (off p q : ℕ) (hpq : p < q)
    (h : ∀ j, p ≤ j → j + 1 < q → f (j + 1) = f j + 1) :
    pairing ((f p + off, (f (q - 1) + 1) + off), (p, p + (f (q - 1) + 1) - f p)) =
      (List.range' p (q - p)).map (fun j => (f j + off, j)) := by
  have hq : f (q - 1) = f p + (q - 1 - p) := by
    have := run_value h (q - 1 - p) (by omega)
    rwa [show p + (q - 1 - p) = q - 1 by omega] at this
  have e1 : (f (q - 1) + 1) + off - (f p + off) = q - p := by omega
  have e2 : p + (f (q - 1) + 1) - f p - p = q - p := by omega
  simp only [pairing, e1, e2]
  apply List.ext_getElem
  · simp
  · intro i h1 h2
    simp only [List.length_map, List.length_range'] at h2
    simp only [List.getElem_zip, List.getElem_range', List.getElem_map]
    rw [one_mul, run_value h i (by omega)]
    simp; omega

theorem yieldRuns_cuts (f : ℕ → ℕ) (off : ℕ) (p : ℕ) (qs : List ℕ) (hc : Cuts f p qs) :
    (yieldRuns off p (((p :: qs).dropLast.map f).zip (qs.map fun q => f (q - 1) + 1))).flatMap
      pairing = (List.range' p (qs.getLastD p - p)).map (fun j => (f j + off, j)) ∧
    p ≤ qs.getLastD p := by
  induction hc with
  | nil p => simp [yieldRuns]
  | cons p q qs hpq hrun hc ih =>
    have hq : f (q - 1) = f p + (q - 1 - p) := by
      have := run_value hrun (q - 1 - p) (by omega)
      rwa [show p + (q - 1 - p) = q - 1 by omega] at this
    have e2 : p + (f (q - 1) + 1) - f p = q := by omega
    obtain ⟨ih1, ih2⟩ := ih
    have hl : (q :: qs).getLastD p = qs.getLastD q := by
      cases qs <;> simp [List.getLastD]
    have hd : (p :: q :: qs).dropLast = p :: (q :: qs).dropLast := rfl
    rw [hl, hd]
    refine ⟨?_, by omega⟩
    simp only [List.map_cons, List.zip_cons_cons, yieldRuns, List.flatMap_cons]
    rw [pairing_run f off p q hpq hrun, e2, ih1, ← List.map_append]
    congr 1
    rw [show qs.getLastD q - p = (q - p) + (qs.getLastD q - q) by omega, ← List.range'_append]
    congr 2; omega

theorem yieldRuns_length (f : ℕ → ℕ) (off : ℕ) (p : ℕ) (qs : List ℕ) (hc : Cuts f p qs) :
    ∀ s ∈ yieldRuns off p (((p :: qs).dropLast.map f).zip (qs.map fun q => f (q - 1) + 1)),
      s.1.2 - s.1.1 = s.2.2 - s.2.1 := by
  induction hc with
  | nil p => simp [yieldRuns]
  | cons p q qs hpq hrun hc ih =>
    intro s hs
    have hd : (p :: q :: qs).dropLast = p :: (q :: qs).dropLast := rfl
    rw [hd] at hs
    have hq : f (q - 1) = f p + (q - 1 - p) := by
      have := run_value hrun (q - 1 - p) (by omega)
      rwa [show p + (q - 1 - p) = q - 1 by omega] at this
    simp only [List.map_cons, List.zip_cons_cons, yieldRuns, List.mem_cons] at hs
    rcases hs with rfl | hs
    · simp only; omega
    · have e2 : p + (f (q - 1) + 1) - f p = q := by omega
      rw [e2] at hs
      exact ih s hs

theorem cuts_of_sorted (f : ℕ → ℕ) (p : ℕ) (qs : List ℕ) (hs : (p :: qs).Pairwise (· < ·))
    (hb : ∀ j, p ≤ j → j + 1 < qs.getLastD p → f (j + 1) ≠ f j + 1 → j + 1 ∈ p :: qs) :
    Cuts f p qs := by
  induction qs generalizing p with
  | nil => exact .nil p
  | cons q qs ih =>
    have hl : (q :: qs).getLastD p = qs.getLastD q := by cases qs <;> simp [List.getLastD]
    rw [List.pairwise_cons] at hs
    have hpq := hs.1 q (by simp)
    have hqs := List.pairwise_cons.1 hs.2
    have hlast : q ≤ qs.getLastD q := by
      cases qs with
      | nil => simp
      | cons a as =>
        have : (a :: as).getLastD q ∈ a :: as := by
          rw [List.getLastD_eq_getLast?]
          rw [List.getLast?_eq_getLast_of_ne_nil (by simp)]
          simp only [Option.getD_some]
          exact List.getLast_mem _
        exact (hqs.1 _ this).le
    refine .cons p q qs hpq ?_ (ih q hs.2 ?_)
    · intro j hj hjq
      by_contra hne
      have := hb j hj (by rw [hl]; omega) hne
      rcases List.mem_cons.1 this with h | h
      · omega
      · rcases List.mem_cons.1 h with h | h
        · omega
        · have := hqs.1 _ h; omega
    · intro j hj hjq hne
      have := hb j (by omega) (by rw [hl]; exact hjq) hne
      rcases List.mem_cons.1 this with h | h
      · omega
      · exact h

theorem discontinuities_sorted (i : List ℕ) (hi : i ≠ []) :
    (discontinuities i).Pairwise (· < ·) := by
  have hpos : 0 < i.length := List.length_pos_iff.2 hi
  unfold discontinuities
  simp only [List.cons_append, List.pairwise_cons, List.pairwise_append, List.nil_append,
    List.mem_append, List.mem_map, List.mem_filter, List.mem_range, List.mem_singleton,
    List.pairwise_map]
  refine ⟨?_, ?_, ?_, ?_⟩
  · rintro a (⟨b, hb, rfl⟩ | rfl) <;> omega
  · apply List.Pairwise.imp _ (List.pairwise_lt_range.filter _)
    intro a b h; omega
  · simp
  · rintro a ⟨b, hb, rfl⟩ c rfl; omega

theorem cuts_discontinuities (i : List ℕ) (hi : i ≠ []) :
    Cuts (fun j => i.getD j 0) 0 (discontinuities i).tail := by
  have hs := discontinuities_sorted i hi
  have he : discontinuities i = 0 :: (discontinuities i).tail := by simp [discontinuities]
  have hlast : (discontinuities i).tail.getLastD 0 = i.length := by
    simp [discontinuities, List.getLastD_eq_getLast?]
  apply cuts_of_sorted
  · rwa [← he]
  · intro j _ hj hne
    rw [hlast] at hj
    rw [← he]
    unfold discontinuities
    simp only [List.mem_append, List.mem_map, List.mem_filter, List.mem_range]
    left; right
    exact ⟨j, ⟨by omega, by simp only [bne_iff_ne]; omega⟩, rfl⟩

theorem range'_map_zipIdx (i : List ℕ) (N d : ℕ) :
    (List.range' 0 i.length).map (fun j => (i.getD j 0 + d * N, j)) =
      i.zipIdx.map fun p => (d * N + p.1, p.2) := by
  apply List.ext_getElem
  · simp
  · intro k h1 h2
    simp at h1
    simp [List.getD_eq_getElem _ _ h1, Nat.add_comm, h1]

end Conmech
