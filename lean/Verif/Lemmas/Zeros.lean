import Mathlib.Tactic.Ring
import Mathlib.Tactic.Linarith
import Mathlib.Tactic.Push
import Mathlib.Algebra.Order.Archimedean.Basic
import Verif.Model.Products
import Verif.Spec.Products
/-
Invariants of the loop of `estimate_zeros`.
-/
namespace Conmech

variable {K : Type} [Field K] [LinearOrder K] [IsStrictOrderedRing K]

open Spec

theorem scanPoint_succ (xmin step : K) (k : ℕ) :
    scanPoint xmin step (k + 1) = scanPoint xmin step k + step := by
  simp only [scanPoint]; push_cast; ring

theorem scanPoint_mono {xmin step : K} (h : 0 < step) {j k : ℕ} (hjk : j ≤ k) :
    scanPoint xmin step j ≤ scanPoint xmin step k := by
  simp only [scanPoint]
  have : (j : K) ≤ (k : K) := by exact_mod_cast hjk
  nlinarith

theorem npSign_pos {x : K} : 0 < signOf x ↔ 0 < x := by
  unfold signOf
  split_ifs with h1 h2
  · simp [h1]
  · simp only [h1, iff_false, not_lt]; norm_num
  · simp [h1]

theorem npSign_neg {x : K} : signOf x < 0 ↔ x < 0 := by
  unfold signOf
  split_ifs with h1 h2
  · have : ¬ x < 0 := by linarith
    simp only [this, iff_false, not_lt]; norm_num
  · simp [h2]
  · simp [h2]

/-- The test of the loop is a change of sign. -/
theorem test_iff {a b : K} :
    ((b < 0 ∧ 0 < signOf a) ∨ (0 < b ∧ signOf a < 0)) ↔ a * b < 0 := by
  rw [npSign_pos, npSign_neg, mul_neg_iff]
  tauto

variable {find : (K → K) → K → K → Option K} {f : K → K} {xmin xmax step : K}

/-- What remains to be reported from scan point `k` on. -/
def Remaining (find : (K → K) → K → K → Option K) (f : K → K) (xmin xmax step : K) (k : ℕ)
    (z : K) : Prop :=
  (∃ j, k ≤ j ∧ scanPoint xmin step j ≤ xmax ∧ f (scanPoint xmin step j) = 0 ∧
    z = scanPoint xmin step j) ∨
  ∃ j, k ≤ j + 1 ∧ scanPoint xmin step (j + 1) ≤ xmax ∧
    f (scanPoint xmin step j) * f (scanPoint xmin step (j + 1)) < 0 ∧
    find f (scanPoint xmin step j) (scanPoint xmin step (j + 1)) = some z

theorem not_remaining (hs : 0 < step) {k : ℕ} (hk : ¬ scanPoint xmin step k ≤ xmax) (z : K) :
    ¬ Remaining find f xmin xmax step k z := by
  rintro (⟨j, hj, h, -⟩ | ⟨j, hj, h, -⟩)
  · exact hk ((scanPoint_mono hs hj).trans h)
  · exact hk ((scanPoint_mono hs hj).trans h)

/-- One pass of the loop. -/
theorem zerosLoop_step (n k : ℕ) (zeros : List K) (hk : scanPoint xmin step k ≤ xmax) :
    zerosLoop find f xmax step (n + 1) (scanPoint xmin step k)
        (signOf (f (scanPoint xmin step (k - 1)))) zeros =
      if f (scanPoint xmin step k) = 0 then
        zerosLoop find f xmax step n (scanPoint xmin step (k + 1))
          (signOf (f (scanPoint xmin step k))) (zeros ++ [scanPoint xmin step k])
      else if 1 ≤ k ∧ f (scanPoint xmin step (k - 1)) * f (scanPoint xmin step k) < 0 then
        match find f (scanPoint xmin step (k - 1)) (scanPoint xmin step k) with
        | some r => zerosLoop find f xmax step n (scanPoint xmin step (k + 1))
            (signOf (f (scanPoint xmin step k))) (zeros ++ [r])
        | none => .error .rootFinder
      else zerosLoop find f xmax step n (scanPoint xmin step (k + 1))
          (signOf (f (scanPoint xmin step k))) zeros := by
  rw [zerosLoop]
  simp only [hk, if_true, test_iff, ← scanPoint_succ]
  by_cases h0 : f (scanPoint xmin step k) = 0
  · simp only [h0, if_true]
  · simp only [h0, if_false]
    rcases Nat.eq_zero_or_pos k with rfl | hpos
    · have : ¬ f (scanPoint xmin step 0) * f (scanPoint xmin step 0) < 0 := by
        have := mul_self_nonneg (f (scanPoint xmin step 0)); linarith
      simp [this]
    · have hx : scanPoint xmin step k - step = scanPoint xmin step (k - 1) := by
        obtain ⟨j, rfl⟩ : ∃ j, k = j + 1 := ⟨k - 1, by omega⟩
        rw [scanPoint_succ]; simp
      have h1 : 1 ≤ k := hpos
      simp only [h1, true_and, hx]
      split_ifs
      · cases find f (scanPoint xmin step (k - 1)) (scanPoint xmin step k) <;> rfl
      · rfl

/-- The entries of the result. -/
theorem zerosLoop_mem (hs : 0 < step) (n : ℕ) : ∀ (k : ℕ) (zeros result : List K),
    zerosLoop find f xmax step n (scanPoint xmin step k)
      (signOf (f (scanPoint xmin step (k - 1)))) zeros = .ok result →
    ∀ z, z ∈ result ↔ z ∈ zeros ∨ Remaining find f xmin xmax step k z := by
  induction n with
  | zero => intro k zeros result h; simp [zerosLoop] at h
  | succ n ih =>
    intro k zeros result h z
    by_cases hk : scanPoint xmin step k ≤ xmax
    · rw [zerosLoop_step n k zeros hk] at h
      have hsplit : Remaining find f xmin xmax step k z ↔
          (f (scanPoint xmin step k) = 0 ∧ z = scanPoint xmin step k) ∨
          (1 ≤ k ∧ f (scanPoint xmin step (k - 1)) * f (scanPoint xmin step k) < 0 ∧
            find f (scanPoint xmin step (k - 1)) (scanPoint xmin step k) = some z) ∨
          Remaining find f xmin xmax step (k + 1) z := by
        constructor
        · rintro (⟨j, hj, h1, h2, h3⟩ | ⟨j, hj, h1, h2, h3⟩)
          · rcases Nat.eq_or_lt_of_le hj with rfl | hlt
            · exact Or.inl ⟨h2, h3⟩
            · exact Or.inr (Or.inr (Or.inl ⟨j, hlt, h1, h2, h3⟩))
          · rcases Nat.eq_or_lt_of_le hj with rfl | hlt
            · exact Or.inr (Or.inl ⟨by omega, by simpa using h2, by simpa using h3⟩)
            · exact Or.inr (Or.inr (Or.inr ⟨j, hlt, h1, h2, h3⟩))
        · rintro (⟨h1, h2⟩ | ⟨h1, h2, h3⟩ | ⟨j, hj, h1, h2, h3⟩ | ⟨j, hj, h1, h2, h3⟩)
          · exact Or.inl ⟨k, le_refl k, hk, h1, h2⟩
          · obtain ⟨j, rfl⟩ : ∃ j, k = j + 1 := ⟨k - 1, by omega⟩
            exact Or.inr ⟨j, le_refl _, hk, by simpa using h2, by simpa using h3⟩
          · exact Or.inl ⟨j, by omega, h1, h2, h3⟩
          · exact Or.inr ⟨j, by omega, h1, h2, h3⟩
      rw [hsplit]
      split_ifs at h with h0 h1
      · rw [ih (k + 1) _ _ (by simpa using h) z]
        simp only [List.mem_append, List.mem_singleton, h0, true_and, mul_zero, lt_irrefl,
          false_and, and_false, false_or]
        tauto
      · cases hr : find f (scanPoint xmin step (k - 1)) (scanPoint xmin step k) with
        | none => rw [hr] at h; simp at h
        | some r =>
          rw [hr] at h
          rw [ih (k + 1) _ _ (by simpa using h) z]
          simp only [List.mem_append, List.mem_singleton, h0, h1, true_and, false_and, false_or,
            Option.some.injEq, or_assoc]
          constructor
          · rintro (h | rfl | h) <;> tauto
          · rintro (h | rfl | h) <;> tauto
      · rw [ih (k + 1) _ _ (by simpa using h) z]
        simp only [h0, false_and, false_or]
        constructor
        · tauto
        · rintro (h | ⟨h2, h3, -⟩ | h)
          · exact Or.inl h
          · exact absurd ⟨h2, h3⟩ h1
          · exact Or.inr h
    · rw [zerosLoop] at h
      simp only [hk, if_false] at h
      cases h
      simp [not_remaining hs hk]

/-- The loop ends and the root finder is asked only where it answers. -/
theorem zerosLoop_total (hs : 0 < step) (hf : Bracketing find f) {N : ℕ}
    (hN : xmax < scanPoint xmin step N) (n : ℕ) : ∀ (k : ℕ) (zeros : List K), k ≤ N → N < n + k →
    ∃ result, zerosLoop find f xmax step n (scanPoint xmin step k)
      (signOf (f (scanPoint xmin step (k - 1)))) zeros = .ok result := by
  induction n with
  | zero => intro k zeros h1 h2; omega
  | succ n ih =>
    intro k zeros hkN hn
    by_cases hk : scanPoint xmin step k ≤ xmax
    · have hlt : k + 1 ≤ N := by
        rcases Nat.eq_or_lt_of_le hkN with rfl | h
        · exact absurd hk (not_le.mpr hN)
        · exact h
      rw [zerosLoop_step n k zeros hk]
      split_ifs with h0 h1
      · simpa using ih (k + 1) (zeros ++ [scanPoint xmin step k]) hlt (by omega)
      · obtain ⟨r, hr, -⟩ := hf (scanPoint xmin step (k - 1)) (scanPoint xmin step k) (by
          obtain ⟨j, rfl⟩ : ∃ j, k = j + 1 := ⟨k - 1, by omega⟩
          rw [scanPoint_succ]; simpa using hs) h1.2
        rw [hr]
        simpa using ih (k + 1) (zeros ++ [r]) hlt (by omega)
      · simpa using ih (k + 1) zeros hlt (by omega)
    · exact ⟨zeros, by rw [zerosLoop]; simp [hk]⟩

/-- The result is sorted. -/
theorem zerosLoop_sorted (hs : 0 < step) (hf : Bracketing find f) (n : ℕ) :
    ∀ (k : ℕ) (zeros result : List K),
    zerosLoop find f xmax step n (scanPoint xmin step k)
      (signOf (f (scanPoint xmin step (k - 1)))) zeros = .ok result →
    zeros.Pairwise (· ≤ ·) → (k = 0 → zeros = []) →
    (∀ z ∈ zeros, z ≤ scanPoint xmin step (k - 1)) → result.Pairwise (· ≤ ·) := by
  induction n with
  | zero => intro k zeros result h; simp [zerosLoop] at h
  | succ n ih =>
    intro k zeros result h hz h0 hle
    by_cases hk : scanPoint xmin step k ≤ xmax
    · rw [zerosLoop_step n k zeros hk] at h
      have hmono : scanPoint xmin step (k - 1) ≤ scanPoint xmin step k :=
        scanPoint_mono hs (by omega)
      have key : ∀ r, (∀ z ∈ zeros, z ≤ r) → r ≤ scanPoint xmin step k →
          (zeros ++ [r]).Pairwise (· ≤ ·) ∧
            ∀ z ∈ zeros ++ [r], z ≤ scanPoint xmin step (k + 1 - 1) := by
        intro r h1 h2
        refine ⟨List.pairwise_append.mpr ⟨hz, by simp, by simpa using h1⟩, ?_⟩
        intro z hz
        simp only [List.mem_append, List.mem_singleton] at hz
        rcases hz with hz | rfl
        · exact (hle z hz).trans hmono
        · exact h2
      split_ifs at h with h1 h2
      · obtain ⟨a, b⟩ := key (scanPoint xmin step k) (fun z hz => (hle z hz).trans hmono) le_rfl
        exact ih (k + 1) _ _ (by simpa using h) a (by simp) b
      · obtain ⟨r, hr, hr1, hr2⟩ := hf (scanPoint xmin step (k - 1)) (scanPoint xmin step k) (by
          obtain ⟨j, rfl⟩ : ∃ j, k = j + 1 := ⟨k - 1, by omega⟩
          rw [scanPoint_succ]; simpa using hs) h2.2
        rw [hr] at h
        obtain ⟨a, b⟩ := key r (fun z hz => (hle z hz).trans hr1) hr2
        exact ih (k + 1) _ _ (by simpa using h) a (by simp) b
      · exact ih (k + 1) _ _ (by simpa using h) hz (by simp)
          (fun z hz => (hle z hz).trans (by simpa using hmono))
    · rw [zerosLoop] at h
      simp only [hk, if_false] at h
      cases h
      exact hz

/-- With exact roots no value is reported twice. -/
theorem zerosLoop_strict (hs : 0 < step) (hf : Bracketing find f) (he : Exact find f) (n : ℕ) :
    ∀ (k : ℕ) (zeros result : List K),
    zerosLoop find f xmax step n (scanPoint xmin step k)
      (signOf (f (scanPoint xmin step (k - 1)))) zeros = .ok result →
    zeros.Pairwise (· < ·) → (k = 0 → zeros = []) →
    (∀ z ∈ zeros, z ≤ scanPoint xmin step (k - 1)) → result.Pairwise (· < ·) := by
  induction n with
  | zero => intro k zeros result h; simp [zerosLoop] at h
  | succ n ih =>
    intro k zeros result h hz h0 hle
    by_cases hk : scanPoint xmin step k ≤ xmax
    · rw [zerosLoop_step n k zeros hk] at h
      have hmono : scanPoint xmin step (k - 1) ≤ scanPoint xmin step k :=
        scanPoint_mono hs (by omega)
      have key : ∀ r, (∀ z ∈ zeros, z < r) → r ≤ scanPoint xmin step k →
          (zeros ++ [r]).Pairwise (· < ·) ∧
            ∀ z ∈ zeros ++ [r], z ≤ scanPoint xmin step (k + 1 - 1) := by
        intro r h1 h2
        refine ⟨List.pairwise_append.mpr ⟨hz, by simp, by simpa using h1⟩, ?_⟩
        intro z hz
        simp only [List.mem_append, List.mem_singleton] at hz
        rcases hz with hz | rfl
        · exact (hle z hz).trans hmono
        · exact h2
      split_ifs at h with h1 h2
      · obtain ⟨a, b⟩ := key (scanPoint xmin step k) (fun z hz => by
          have hk0 : k ≠ 0 := fun h => by simp [h0 h] at hz
          obtain ⟨j, rfl⟩ : ∃ j, k = j + 1 := ⟨k - 1, by omega⟩
          have := hle z hz
          rw [scanPoint_succ]
          simp only [Nat.add_sub_cancel] at this
          linarith) le_rfl
        exact ih (k + 1) _ _ (by simpa using h) a (by simp) b
      · have hstep : scanPoint xmin step (k - 1) < scanPoint xmin step k := by
          obtain ⟨j, rfl⟩ : ∃ j, k = j + 1 := ⟨k - 1, by omega⟩
          rw [scanPoint_succ]; simpa using hs
        obtain ⟨r, hr, hr1, hr2⟩ := hf _ _ hstep h2.2
        have hroot := he _ _ r hstep h2.2 hr
        have hne : scanPoint xmin step (k - 1) ≠ r := by
          intro heq
          have := h2.2
          rw [heq, hroot] at this
          simp at this
        rw [hr] at h
        obtain ⟨a, b⟩ := key r (fun z hz => (hle z hz).trans_lt (lt_of_le_of_ne hr1 hne)) hr2
        exact ih (k + 1) _ _ (by simpa using h) a (by simp) b
      · exact ih (k + 1) _ _ (by simpa using h) hz (by simp)
          (fun z hz => (hle z hz).trans (by simpa using hmono))
    · rw [zerosLoop] at h
      simp only [hk, if_false] at h
      cases h
      exact hz

end Conmech
