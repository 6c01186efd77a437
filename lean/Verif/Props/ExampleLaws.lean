import Verif.Model.ExampleLaws
import Verif.Spec.ExampleLaws
import Verif.Props.ContactLaws
import Mathlib.Analysis.Calculus.Deriv.Pow
import Mathlib.Analysis.Calculus.Deriv.Inv
import Mathlib.Analysis.SpecialFunctions.Log.Deriv
import Mathlib.Analysis.SpecialFunctions.ExpDeriv
import Mathlib.Analysis.SpecialFunctions.Sqrt
import Mathlib.Tactic.LinearCombination
import Mathlib.Tactic.IntervalCases
/-!
C96: the contact laws of the examples.
-/
namespace Conmech
open Spec

/-! ### Composite materials -/

namespace Layers
section
variable {K : Type _} [Field K] [LinearOrder K]

/-- The levels increase. -/
def Increasing (c : Layers K) : Prop := ∀ n, n + 1 < c.count → c.layer n < c.layer (n + 1)

theorem Increasing.le {c : Layers K} (h : c.Increasing) {i j : ℕ} (hij : i ≤ j) (hj : j < c.count) :
    c.layer i ≤ c.layer j := by
  induction j with
  | zero => obtain rfl : i = 0 := by omega
            exact le_refl _
  | succ j ih =>
    rcases Nat.eq_or_lt_of_le hij with rfl | hlt
    · exact le_refl _
    · exact (ih (by omega) (by omega)).trans (h j hj).le

/-- Where a number lies. -/
theorem Increasing.locate {c : Layers K} (hc : 0 < c.count) (v : K) :
    v ≤ c.layer 0 ∨ (∃ m, m + 1 < c.count ∧ c.layer m < v ∧ v ≤ c.layer (m + 1)) ∨
      c.layer (c.count - 1) < v := by
  by_cases h0 : v ≤ c.layer 0
  · exact .inl h0
  by_cases h1 : c.layer (c.count - 1) < v
  · exact .inr (.inr h1)
  refine .inr (.inl ?_)
  have hex : ∃ n, v ≤ c.layer n := ⟨_, not_lt.1 h1⟩
  classical
  have hn := Nat.find_spec hex
  have hmin := fun m => Nat.find_min hex (m := m)
  have hle : Nat.find hex ≤ c.count - 1 := Nat.find_min' hex (not_lt.1 h1)
  have hpos : Nat.find hex ≠ 0 := fun h => h0 (by rw [h] at hn; exact hn)
  refine ⟨Nat.find hex - 1, by omega, not_le.1 (hmin _ (by omega)), ?_⟩
  rwa [Nat.sub_add_cancel (by omega)]

/-- The work up to level `m`. -/
theorem cumm_eq (c : Layers K) (m : ℕ) : c.cumm m = ∑ i ∈ Finset.range (m + 1), c.integ i := by
  induction m with
  | zero => simp [cumm]
  | succ m ih => rw [cumm, ih, Finset.sum_range_succ (n := m + 1)]

theorem potential_before (c : Layers K) (hc : 2 ≤ c.count) {v : K} (hv : v ≤ c.layer 0) :
    c.potential v = some 0 := by
  rw [potential, if_neg (by omega), if_pos hv]

theorem potential_between (c : Layers K) (h : c.Increasing) {m : ℕ} (hm : m + 1 < c.count) {v : K}
    (h1 : c.layer m < v) (h2 : v ≤ c.layer (m + 1)) :
    c.potential v = some ((∑ i ∈ Finset.range m, c.integ i) +
      1 / 2 * (v - c.layer m) * (v * c.slope m + c.const m + c.alpha m)) := by
  have h0 : ¬ v ≤ c.layer 0 := not_le.2 ((h.le (Nat.zero_le m) (by omega)).trans_lt h1)
  have hf : (List.range c.count).find? (fun n => ¬ v > c.layer n) = some (m + 1) := by
    rw [List.find?_range_eq_some]
    refine ⟨by simpa using h2, by simpa using hm, fun j hj => ?_⟩
    simpa using (h.le (Nat.le_of_lt_succ hj) (by omega)).trans_lt h1
  rw [potential, if_neg (by omega), if_neg h0, hf]
  simp only [Nat.add_sub_cancel, zero_add]
  congr 2
  rcases m with _ | m
  · simp
  · simp only [show m + 1 + 1 > 1 by omega, if_true, cumm_eq]
    rfl

theorem potential_after (c : Layers K) (h : c.Increasing) (hc : 2 ≤ c.count) {v : K}
    (h1 : c.layer (c.count - 1) < v) :
    c.potential v = some ((∑ i ∈ Finset.range (c.count - 1), c.integ i) +
      c.alpha (c.count - 1) * (v - c.layer (c.count - 1))) := by
  have h0 : ¬ v ≤ c.layer 0 := not_le.2 ((h.le (Nat.zero_le _) (by omega)).trans_lt h1)
  have hf : (List.range c.count).find? (fun n => ¬ v > c.layer n) = none := by
    rw [List.find?_eq_none]
    intro n hn
    have hn := List.mem_range.1 hn
    simpa using (h.le (show n ≤ c.count - 1 by omega) (by omega)).trans_lt h1
  rw [potential, if_neg (by omega), if_neg h0, hf]
  simp only [show c.count ≠ 1 by omega, if_false, cumm_eq, show c.count - 2 + 1 = c.count - 1 by omega]

theorem line_eq (c : Layers K) (m : ℕ) (v : K) :
    v * c.slope m + c.const m = c.alpha m + c.slope m * (v - c.layer m) := by
  simp only [const]; ring

theorem slope_mul (c : Layers K) (h : c.Increasing) {m : ℕ} (hm : m + 1 < c.count) :
    c.slope m * (c.layer (m + 1) - c.layer m) = c.beta (m + 1) - c.alpha m := by
  rw [slope, div_mul_cancel₀ _ (sub_ne_zero.2 (h m hm).ne')]

theorem subderivative_between (c : Layers K) (h : c.Increasing) {m : ℕ} (hm : m + 1 < c.count) {v : K}
    (h1 : c.layer m < v) (h2 : v ≤ c.layer (m + 1)) :
    c.subderivative v = some (v * c.slope m + c.const m) := by
  have h0 : ¬ v ≤ c.layer 0 := not_le.2 ((h.le (Nat.zero_le m) (by omega)).trans_lt h1)
  have h3 : ¬ c.layer (c.count - 1) < v := not_lt.2 (h2.trans (h.le (by omega) (by omega)))
  have hf : (List.range (c.count - 1)).find? (fun n => v ≤ c.layer (n + 1)) = some m := by
    rw [List.find?_range_eq_some]
    refine ⟨by simpa using h2, by simp; omega, fun j hj => ?_⟩
    simpa using (h.le (show j + 1 ≤ m by omega) (by omega)).trans_lt h1
  rw [subderivative, if_neg (by omega), if_neg h0, if_neg h3, hf]

end
end Layers

/-- C96: for at least two increasing levels neither function fails, and the declared response is the
layered one: linear between the levels from `alpha` to `beta`, constant after the last level. -/
theorem C96_composite_response {K : Type _} [Field K] [LinearOrder K] [IsStrictOrderedRing K]
    (c : Layers K) (h : c.Increasing) (hc : 2 ≤ c.count) :
    (∀ v, (c.potential v).isSome ∧ (c.subderivative v).isSome) ∧
    LayeredResponse c.count c.layer c.alpha c.betaGiven fun v => (c.subderivative v).getD 0 := by
  have hb : ∀ v, v ≤ c.layer 0 → c.subderivative v = some 0 := fun v hv => by
    rw [Layers.subderivative, if_neg (by omega), if_pos hv]
  have ha : ∀ v, c.layer (c.count - 1) < v → c.subderivative v = some (c.alpha (c.count - 1)) :=
    fun v hv => by
      rw [Layers.subderivative, if_neg (by omega),
        if_neg (not_le.2 ((h.le (Nat.zero_le _) (by omega)).trans_lt hv)), if_pos hv]
  refine ⟨fun v => ?_, fun v hv => by rw [hb v hv]; rfl, fun m hm v h1 h2 => ?_,
    fun v hv => by rw [ha v hv]; rfl⟩
  · rcases Layers.Increasing.locate (show 0 < c.count by omega) v with h1 | ⟨m, hm, h1, h2⟩ | h1
    · rw [c.potential_before hc h1, hb v h1]; exact ⟨rfl, rfl⟩
    · rw [c.potential_between h hm h1 h2, c.subderivative_between h hm h1 h2]; exact ⟨rfl, rfl⟩
    · rw [c.potential_after h hc h1, ha v h1]; exact ⟨rfl, rfl⟩
  · rw [c.subderivative_between h hm h1 h2]
    show v * c.slope m + c.const m = _
    rw [c.line_eq, Layers.slope, Layers.beta, if_neg (by omega)]
    ring

section
variable (c : Layers ℝ)

/-- The potential as one formula. -/
theorem Layers.potential_clamp (h : c.Increasing) (hc : 2 ≤ c.count) (v : ℝ) :
    c.potential v = some ((∑ i ∈ Finset.range (c.count - 1),
        1 / 2 * (min (max v (c.layer i)) (c.layer (i + 1)) - c.layer i) *
          (min (max v (c.layer i)) (c.layer (i + 1)) * c.slope i + c.const i + c.alpha i)) +
      c.alpha (c.count - 1) * max (v - c.layer (c.count - 1)) 0) := by
  have hlow : ∀ i, i + 1 < c.count → v ≤ c.layer i →
      1 / 2 * (min (max v (c.layer i)) (c.layer (i + 1)) - c.layer i) *
        (min (max v (c.layer i)) (c.layer (i + 1)) * c.slope i + c.const i + c.alpha i) = 0 := by
    intro i hi hv
    rw [max_eq_right hv, min_eq_left (h i hi).le]; ring
  have hhigh : ∀ i, i + 1 < c.count → c.layer (i + 1) ≤ v →
      1 / 2 * (min (max v (c.layer i)) (c.layer (i + 1)) - c.layer i) *
        (min (max v (c.layer i)) (c.layer (i + 1)) * c.slope i + c.const i + c.alpha i) =
          c.integ i := by
    intro i hi hv
    rw [max_eq_left ((h i hi).le.trans hv), min_eq_right hv, c.line_eq, c.slope_mul h hi,
      Layers.integ]
    ring
  rcases Layers.Increasing.locate (show 0 < c.count by omega) v with h1 | ⟨m, hm, h1, h2⟩ | h1
  · rw [c.potential_before hc h1, Finset.sum_eq_zero fun i hi => ?_]
    · have := h1.trans (h.le (Nat.zero_le (c.count - 1)) (by omega))
      rw [max_eq_right (by linarith)]; simp
    · have hi := Finset.mem_range.1 hi
      exact hlow i (by omega) (h1.trans (h.le (Nat.zero_le _) (by omega)))
  · rw [c.potential_between h hm h1 h2]
    have e1 : max (v - c.layer (c.count - 1)) 0 = 0 :=
      max_eq_right (by linarith [h2.trans (h.le (show m + 1 ≤ c.count - 1 by omega) (by omega))])
    rw [e1, mul_zero, add_zero]
    congr 1
    obtain ⟨d, hd⟩ : ∃ d, c.count - 1 = m + 1 + d := ⟨c.count - 1 - (m + 1), by omega⟩
    rw [hd, Finset.sum_range_add, Finset.sum_range_succ, Finset.sum_eq_zero (s := Finset.range d)
      fun i hi => ?_, add_zero, max_eq_left h1.le, min_eq_left h2]
    · congr 1
      refine Finset.sum_congr rfl fun i hi => (hhigh i ?_ ?_).symm
      · have := Finset.mem_range.1 hi; omega
      · have hi := Finset.mem_range.1 hi
        exact (h.le (show i + 1 ≤ m by omega) (by omega)).trans h1.le
    · have hi := Finset.mem_range.1 hi
      exact hlow _ (by omega) (h2.trans (h.le (by omega) (by omega)))
  · rw [c.potential_after h hc h1, max_eq_left (by linarith)]
    congr 2
    refine Finset.sum_congr rfl fun i hi => (hhigh i ?_ ?_).symm
    · have := Finset.mem_range.1 hi; omega
    · have hi := Finset.mem_range.1 hi
      exact (h.le (show i + 1 ≤ c.count - 1 by omega) (by omega)).trans h1.le

/-- C96: the potential of a composite material is continuous, zero before the first level, and off the
levels the declared response is its derivative. -/
theorem C96_composite_potential (h : c.Increasing) (hc : 2 ≤ c.count) :
    (Continuous fun v => (c.potential v).getD 0) ∧
    (∀ v, v ≤ c.layer 0 → c.potential v = some 0) ∧
    ∀ v, (∀ n < c.count, v ≠ c.layer n) →
      HasDerivAt (fun x => (c.potential x).getD 0) ((c.subderivative v).getD 0) v := by
  refine ⟨?_, fun v hv => c.potential_before hc hv, fun v hv => ?_⟩
  · simp only [c.potential_clamp h hc, Option.getD_some]
    fun_prop
  · rcases Layers.Increasing.locate (show 0 < c.count by omega) v with h1 | ⟨m, hm, h1, h2⟩ | h1
    · have hlt : v < c.layer 0 := lt_of_le_of_ne h1 (hv 0 (by omega))
      rw [show c.subderivative v = some 0 by rw [Layers.subderivative, if_neg (by omega), if_pos h1]]
      refine (hasDerivAt_const v (0 : ℝ)).congr_of_eventuallyEq ?_
      filter_upwards [gt_mem_nhds hlt] with x hx
      rw [c.potential_before hc (le_of_lt hx)]; rfl
    · have hlt : v < c.layer (m + 1) := lt_of_le_of_ne h2 (hv _ hm)
      rw [c.subderivative_between h hm h1 h2, Option.getD_some]
      have key : HasDerivAt (fun x : ℝ => (∑ i ∈ Finset.range m, c.integ i) +
          1 / 2 * (x - c.layer m) * (x * c.slope m + c.const m + c.alpha m))
          (v * c.slope m + c.const m) v := by
        have e1 : HasDerivAt (fun x : ℝ => 1 / 2 * (x - c.layer m)) (1 / 2 * 1) v :=
          ((hasDerivAt_id v).sub_const _).const_mul _
        have e2 : HasDerivAt (fun x : ℝ => x * c.slope m + c.const m + c.alpha m) (1 * c.slope m) v :=
          (((hasDerivAt_id v).mul_const _).add_const _).add_const _
        refine ((e1.mul e2).const_add _).congr_deriv ?_
        simp only [Layers.const]; ring
      refine key.congr_of_eventuallyEq ?_
      filter_upwards [gt_mem_nhds hlt, lt_mem_nhds h1] with x hx1 hx2
      rw [c.potential_between h hm hx2 (le_of_lt hx1)]; rfl
    · rw [show c.subderivative v = some (c.alpha (c.count - 1)) by
        rw [Layers.subderivative, if_neg (by omega),
          if_neg (not_le.2 ((h.le (Nat.zero_le _) (by omega)).trans_lt h1)), if_pos h1],
        Option.getD_some]
      have key : HasDerivAt (fun x : ℝ => (∑ i ∈ Finset.range (c.count - 1), c.integ i) +
          c.alpha (c.count - 1) * (x - c.layer (c.count - 1))) (c.alpha (c.count - 1)) v :=
        ((((hasDerivAt_id v).sub_const _).const_mul _).const_add _).congr_deriv (by ring)
      refine key.congr_of_eventuallyEq ?_
      filter_upwards [lt_mem_nhds h1] with x hx
      rw [c.potential_after h hc hx]; rfl

end

/-- C96, negation: a material given by a single level (a half space) has no potential beyond it, the
evaluation fails, although the subderivative is defined. -/
theorem C96_single_level_wrong {K : Type _} [Field K] [LinearOrder K] (c : Layers K) (hc : c.count = 1)
    (v : K) (hv : c.layer 0 < v) : c.potential v = none ∧ c.subderivative v = some (c.alpha 0) := by
  constructor
  · simp [Layers.potential, hc, not_le.2 hv, hv, List.range_succ]
  · simp [Layers.subderivative, hc, not_le.2 hv, hv]

example : ({ count := 1, layer := fun _ => 0, alpha := fun _ => 2, betaGiven := fun _ => 0 } :
    Layers ℚ).layer 0 < 1 := by decide +kernel

/-- C96: the levels made by `partition` run from `start` to `stop` and increase, so that they can be
used as levels of a composite material. -/
theorem C96_partition {K : Type _} [Field K] [LinearOrder K] [IsStrictOrderedRing K] (start stop p : K)
    (num : ℕ) (hn : 0 < num) (hp : 0 < p) (hs : start < stop) :
    let points := layerPartition start stop num p
    points.length = num + 1 ∧ points.head? = some start ∧ points.getLast? = some stop ∧
    points.Pairwise (· < ·) ∧
    ∀ k, k + 2 ≤ num → points.getD (k + 2) 0 - points.getD (k + 1) 0 =
      p * (points.getD (k + 1) 0 - points.getD k 0) := by
  have key : ∀ (f : K) (n : ℕ), (List.range n).foldl (fun (acc : List K × K) i =>
      let curr := acc.2 + f * p ^ i
      (acc.1 ++ [curr], curr)) ([start], start) =
      ((List.range (n + 1)).map (fun k => start + f * ∑ i ∈ Finset.range k, p ^ i),
        start + f * ∑ i ∈ Finset.range n, p ^ i) := by
    intro f n
    induction n with
    | zero => simp
    | succ n ih =>
      rw [List.range_succ, List.foldl_append, ih]
      simp only [List.foldl_cons, List.foldl_nil]
      rw [List.range_succ (n := n + 1), List.map_append]
      simp only [List.map_cons, List.map_nil, Finset.sum_range_succ]
      ring_nf
  have hsum : ∀ n, 0 < n → 0 < ∑ i ∈ Finset.range n, p ^ i := fun n hn =>
    Finset.sum_pos (fun i _ => by positivity) ⟨0, Finset.mem_range.2 hn⟩
  have hgrad : (if p = 1 then (num : K) else (1 - p ^ num) / (1 - p)) =
      ∑ i ∈ Finset.range num, p ^ i := by
    split_ifs with h1
    · simp [h1]
    · rw [geom_sum_eq h1, ← neg_sub, ← neg_sub p 1, neg_div_neg_eq]
  intro points
  set f : K := (stop - start) / ∑ i ∈ Finset.range num, p ^ i with hf
  have hf0 : 0 < f := div_pos (sub_pos.2 hs) (hsum num hn)
  have hpoints : points =
      (List.range (num + 1)).map fun k => start + f * ∑ i ∈ Finset.range k, p ^ i := by
    simp only [points, layerPartition]
    rw [hgrad]
    exact congrArg Prod.fst (key f num)
  have hget : ∀ k, k ≤ num → points.getD k 0 = start + f * ∑ i ∈ Finset.range k, p ^ i := by
    intro k hk
    rw [hpoints, List.getD_eq_getElem?_getD, List.getElem?_map, List.getElem?_range (by omega)]
    rfl
  refine ⟨by simp [hpoints], ?_, ?_, ?_, fun k hk => ?_⟩
  · rw [hpoints, List.range_succ_eq_map]; simp
  · rw [hpoints, List.range_succ, List.map_append]
    simp only [List.map_cons, List.map_nil, List.getLast?_append, List.getLast?_singleton,
      Option.some_or, Option.some.injEq]
    rw [hf, div_mul_cancel₀ _ (hsum num hn).ne']; ring
  · rw [hpoints, List.pairwise_map]
    refine List.pairwise_lt_range.imp fun {a b} hab => ?_
    have : ∑ i ∈ Finset.range a, p ^ i < ∑ i ∈ Finset.range b, p ^ i := by
      obtain ⟨d, rfl⟩ : ∃ d, b = a + (d + 1) := ⟨b - a - 1, by omega⟩
      rw [Finset.sum_range_add]
      have : 0 < ∑ i ∈ Finset.range (d + 1), p ^ (a + i) :=
        Finset.sum_pos (fun i _ => by positivity) ⟨0, by simp⟩
      linarith
    have := mul_lt_mul_of_pos_left this hf0
    linarith
  · rw [hget _ (by omega), hget _ (by omega), hget _ (by omega), Finset.sum_range_succ (n := k + 1),
      Finset.sum_range_succ (n := k), pow_succ]
    ring

-- three layers of growing thickness
example : layerPartition (0 : ℚ) 7 3 2 = [0, 1, 3, 7] := by decide +kernel

/-- A composite of three layers with a saw-tooth response. -/
def exampleLayers : Layers ℚ :=
  { count := 4, layer := fun n => (layerPartition 0 7 3 2).getD n 0, alpha := fun _ => 0
    betaGiven := fun n => n }

example : exampleLayers.Increasing := by
  intro n hn
  change n + 1 < 4 at hn
  have : n < 3 := by omega
  interval_cases n <;> decide +kernel

example : ([-1, 0, 1 / 2, 1, 2, 3, 8].map fun v => (exampleLayers.potential v, exampleLayers.subderivative v)) =
    [(some 0, some 0), (some 0, some 0), (some (1 / 8), some (1 / 2)), (some (1 / 2), some 1),
      (some 1, some 1), (some (5 / 2), some 2), (some (17 / 2), some 0)] := by decide +kernel

/-! ### Piecewise functions -/

theorem continuous_piece {f g : ℝ → ℝ} (hf : Continuous f) (hg : Continuous g) (c : ℝ)
    (h : f c = g c) : Continuous fun x => if x < c then f x else g x := by
  have : (fun x => if x < c then f x else g x) = fun x => if c ≤ x then g x else f x := by
    funext x; by_cases hx : x < c
    · rw [if_pos hx, if_neg (not_le.2 hx)]
    · rw [if_neg hx, if_pos (not_lt.1 hx)]
  rw [this]
  exact hg.if_le hf continuous_const continuous_id fun x hx => by
    rw [show x = c from hx.symm, h]

theorem continuous_piece_le {f g : ℝ → ℝ} (hf : Continuous f) (hg : Continuous g) (c : ℝ)
    (h : f c = g c) : Continuous fun x => if x ≤ c then f x else g x :=
  hf.if_le hg continuous_id continuous_const fun x hx => by rw [show x = c from hx, h]

/-- The derivative of a function in two pieces that fit. -/
theorem hasDerivAt_piece {f g f' g' : ℝ → ℝ} {c : ℝ} (hf : ∀ x, x ≤ c → HasDerivAt f (f' x) x)
    (hg : ∀ x, c ≤ x → HasDerivAt g (g' x) x) (h : f c = g c) (h' : f' c = g' c) (x : ℝ) :
    HasDerivAt (fun x => if x < c then f x else g x) (if x < c then f' x else g' x) x := by
  rcases lt_trichotomy x c with hx | hx | hx
  · rw [if_pos hx]
    refine (hf x hx.le).congr_of_eventuallyEq ?_
    filter_upwards [gt_mem_nhds hx] with y hy
    exact if_pos hy
  · subst hx
    rw [if_neg (lt_irrefl _)]
    have h1 : HasDerivWithinAt (fun y => if y < x then f y else g y) (g' x) (Set.Iic x) x := by
      have := (hf x (le_refl _)).hasDerivWithinAt (s := Set.Iic x)
      rw [h'] at this
      refine this.congr (fun y hy => ?_) (by simp [h])
      rcases lt_or_eq_of_le (show y ≤ x from hy) with hy | hy
      · exact if_pos hy
      · subst hy; simp [h]
    have h2 : HasDerivWithinAt (fun y => if y < x then f y else g y) (g' x) (Set.Ici x) x :=
      ((hg x (le_refl _)).hasDerivWithinAt (s := Set.Ici x)).congr
        (fun y hy => if_neg (not_lt.2 hy)) (by simp)
    have := h1.union h2
    rwa [Set.Iic_union_Ici, hasDerivWithinAt_univ] at this
  · rw [if_neg (not_lt.2 hx.le)]
    refine (hg x hx.le).congr_of_eventuallyEq ?_
    filter_upwards [lt_mem_nhds hx] with y hy
    exact if_neg (not_lt.2 (le_of_lt hy))

theorem eventually_pieces {p : ℝ → Prop} {a b v : ℝ} (h1 : a < v) (h2 : v < b)
    (h : ∀ x, a < x → x < b → p x) : ∀ᶠ x in nhds v, p x := by
  filter_upwards [lt_mem_nhds h1, gt_mem_nhds h2] with x hx1 hx2
  exact h x hx1 hx2

/-! ### Delamination -/

/-- The kinks of the delamination law. -/
def makelaKinks : Set ℝ := {0, -(1 / 2 * mm), -mm, -(2 * mm)}

/-- C96: the potential of the delamination law is continuous. -/
theorem C96_delamination_continuous : Continuous makelaPotential := by
  have : Continuous fun u : ℝ => if u ≤ 0 then (0 : ℝ) else if u < 1 / 2 * mm then makelaK0 * u ^ 2
      else if u < 1 * mm then makelaK10 * u ^ 2 + makelaK11 * u
      else if u < 2 * mm then makelaK20 * u ^ 2 + makelaK21 * u + 4 else 16 := by
    refine continuous_piece_le continuous_const (continuous_piece (by fun_prop) (continuous_piece
      (by fun_prop) (continuous_piece (by fun_prop) continuous_const _ ?_) _ ?_) _ ?_) _ ?_ <;>
    norm_num [mm, makelaK0, makelaK10, makelaK11, makelaK20, makelaK21, makelaSurface]
  exact this.comp continuous_neg

/-- C96, negation: off its kinks the potential of the delamination law has the derivative
`-subderivative`: the declared subderivative is that with respect to the opening `-var_nu`, so it is the
wrong one wherever there is any response. -/
theorem C96_delamination_wrong (v : ℝ) (hv : v ∉ makelaKinks) :
    HasDerivAt makelaPotential (-makelaSubderivative v) v ∧
    (-(2 * mm) < v → v < 0 → ¬ HasDerivAt makelaPotential (makelaSubderivative v) v) := by
  have hmm : 0 < mm := by norm_num [mm]
  have hq : ∀ a b x : ℝ, HasDerivAt (fun x : ℝ => a * (-x) ^ 2 + b * (-x)) (-(a * (-x * 2) + b)) x := by
    intro a b x
    have e : HasDerivAt (fun x : ℝ => -x) (-1) x := hasDerivAt_neg x
    refine (((e.pow 2).const_mul a).add (e.const_mul b)).congr_deriv ?_
    simp; ring
  simp only [makelaKinks, Set.mem_insert_iff, Set.mem_singleton_iff, not_or] at hv
  obtain ⟨v0, v1, v2, v3⟩ := hv
  have hd : HasDerivAt makelaPotential (-makelaSubderivative v) v := by
    rcases lt_or_gt_of_ne v0 with h0 | h0
    · rcases lt_or_gt_of_ne v1 with h1 | h1
      · rcases lt_or_gt_of_ne v2 with h2 | h2
        · rcases lt_or_gt_of_ne v3 with h3 | h3
          · rw [show makelaSubderivative v = 0 by
              simp only [makelaSubderivative]
              rw [if_neg (by linarith), if_neg (by linarith), if_neg (by linarith),
                if_neg (by linarith)], neg_zero]
            refine (hasDerivAt_const v (16 : ℝ)).congr_of_eventuallyEq ?_
            filter_upwards [gt_mem_nhds h3] with x hx
            simp only [makelaPotential]
            rw [if_neg (by linarith), if_neg (by linarith), if_neg (by linarith),
              if_neg (by linarith)]
          · rw [show makelaSubderivative v = makelaK20 * (-v * 2) + makelaK21 by
              simp only [makelaSubderivative]
              rw [if_neg (by linarith), if_neg (by linarith), if_neg (by linarith),
                if_pos (by linarith)]]
            refine ((hq makelaK20 makelaK21 v).add_const 4).congr_of_eventuallyEq ?_
            filter_upwards [gt_mem_nhds h2, lt_mem_nhds h3] with x hx hx'
            simp only [makelaPotential]
            rw [if_neg (by linarith), if_neg (by linarith), if_neg (by linarith),
              if_pos (by linarith)]
        · rw [show makelaSubderivative v = makelaK10 * (-v * 2) + makelaK11 by
            simp only [makelaSubderivative]
            rw [if_neg (by linarith), if_neg (by linarith), if_pos (by linarith)]]
          refine (hq makelaK10 makelaK11 v).congr_of_eventuallyEq ?_
          filter_upwards [gt_mem_nhds h1, lt_mem_nhds h2] with x hx hx'
          simp only [makelaPotential]
          rw [if_neg (by linarith), if_neg (by linarith), if_pos (by linarith)]
      · rw [show makelaSubderivative v = makelaK0 * (-v * 2) + 0 by
          simp only [makelaSubderivative]
          rw [if_neg (by linarith), if_pos (by linarith)]; ring]
        refine (hq makelaK0 0 v).congr_of_eventuallyEq ?_
        filter_upwards [gt_mem_nhds h0, lt_mem_nhds h1] with x hx hx'
        simp only [makelaPotential]
        rw [if_neg (by linarith), if_pos (by linarith)]; ring
    · rw [show makelaSubderivative v = 0 by
        simp only [makelaSubderivative]; rw [if_pos (by linarith)], neg_zero]
      refine (hasDerivAt_const v (0 : ℝ)).congr_of_eventuallyEq ?_
      filter_upwards [lt_mem_nhds h0] with x hx
      simp only [makelaPotential]; rw [if_pos (by linarith)]
  refine ⟨hd, fun h1 h2 h3 => ?_⟩
  have := hd.unique h3
  have hpos : 0 < makelaSubderivative v := by
    have k0 : 0 < makelaK0 := by norm_num [makelaK0, makelaSurface, mm]
    have k10 : 0 < makelaK10 := by norm_num [makelaK10, makelaSurface, mm]
    have k11 : 0 < makelaK11 := by norm_num [makelaK11, makelaSurface, mm]
    have k20 : 0 < makelaK20 := by norm_num [makelaK20, makelaSurface, mm]
    have k21 : 0 < makelaK21 := by norm_num [makelaK21, makelaSurface, mm]
    have hu : 0 < -v := by linarith
    simp only [makelaSubderivative]
    rw [if_neg (by linarith)]
    split_ifs
    · positivity
    · positivity
    · positivity
    · linarith
  linarith

example : -(mm / 4) ∉ makelaKinks ∧ -(2 * mm) < -(mm / 4) ∧ -(mm / 4) < 0 := by
  norm_num [makelaKinks, mm]

/-- C96, full statement: every declared subderivative is the derivative of its potential off the kinks.
It is false for the heat exchange and the delamination law, see `C96_heat_exchange_wrong` and
`C96_delamination_wrong`, and proved for composites (`C96_composite_response`), the linear law
(`C96_linear`) and here: the tangential part of the delamination law is zero at rest, and away from rest
the declared derivatives are its partial derivatives. -/
theorem C96_declared_partial (x y : ℝ) :
    logTangential 0 0 = 0 ∧ logTangentialSubderivative 0 0 = (0, 0) ∧
    ((x, y) ≠ (0, 0) →
      HasDerivAt (fun x => logTangential x y) (logTangentialSubderivative x y).1 x ∧
      HasDerivAt (fun y => logTangential x y) (logTangentialSubderivative x y).2 y) := by
  refine ⟨by simp [logTangential], by simp [logTangentialSubderivative], fun hxy => ?_⟩
  have hq : 0 < x ^ 2 + y ^ 2 := by
    rcases eq_or_ne x 0 with hx | hx
    · have hy : y ≠ 0 := fun hy => hxy (by rw [hx, hy])
      positivity
    · positivity
  have hs : 0 < √(x ^ 2 + y ^ 2) := Real.sqrt_pos.2 hq
  have hsq : √(x ^ 2 + y ^ 2) * √(x ^ 2 + y ^ 2) = x ^ 2 + y ^ 2 := Real.mul_self_sqrt hq.le
  have hne : √(x ^ 2 + y ^ 2) + (x ^ 2 + y ^ 2) ≠ 0 := by positivity
  have gen : ∀ (q : ℝ → ℝ) (z : ℝ), q z = x ^ 2 + y ^ 2 → HasDerivAt q (2 * z) z →
      HasDerivAt (fun t => Real.log (√(q t) + 1)) (z * (1 / (√(x ^ 2 + y ^ 2) + (x ^ 2 + y ^ 2)))) z := by
    intro q z hqz hd
    have h1 := (hd.sqrt (by rw [hqz]; exact hq.ne')).add_const (1 : ℝ)
    refine (h1.log (by rw [hqz]; positivity)).congr_deriv ?_
    rw [hqz]
    set s := √(x ^ 2 + y ^ 2)
    rw [← hsq]
    field_simp
    ring
  constructor
  · simp only [logTangentialSubderivative, if_pos hne]
    exact gen (fun t => t ^ 2 + y ^ 2) x rfl
      ((((hasDerivAt_id x).pow 2).add_const _).congr_deriv (by simp))
  · simp only [logTangentialSubderivative, if_pos hne]
    exact gen (fun t => x ^ 2 + t ^ 2) y rfl
      ((((hasDerivAt_id y).pow 2).const_add _).congr_deriv (by simp))

/-! ### Heat exchange -/

/-- C96, negation: the potential of the heat exchange law is continuous, but off `b` its derivative is
twice the declared subderivative, which is therefore wrong for every slope but zero. -/
theorem C96_heat_exchange_wrong (slope b r : ℝ) (hr : r ≠ b) :
    Continuous (tarziaPotential slope b) ∧
    HasDerivAt (tarziaPotential slope b) (2 * tarziaSubderivative slope b r) r ∧
    (slope ≠ 0 → ¬ HasDerivAt (tarziaPotential slope b) (tarziaSubderivative slope b r) r) := by
  have hd : HasDerivAt (tarziaPotential slope b) (2 * tarziaSubderivative slope b r) r := by
    rcases lt_or_gt_of_ne hr with h | h
    · have : HasDerivAt (fun x : ℝ => (x - b) ^ 2 * slope) (2 * ((r - b) * slope)) r :=
        ((((hasDerivAt_id r).sub_const b).pow 2).mul_const slope).congr_deriv (by simp; ring)
      simp only [tarziaSubderivative, if_pos h]
      refine this.congr_of_eventuallyEq ?_
      filter_upwards [gt_mem_nhds h] with x hx
      simp only [tarziaPotential, if_pos hx]
    · have : HasDerivAt (fun x : ℝ => 2 * Real.log ((x - b) + 1) * slope)
          (2 * (1 / (r - b + 1) * slope)) r :=
        ((((((hasDerivAt_id r).sub_const b).add_const 1).log (by simp; linarith)).const_mul
          2).mul_const slope).congr_deriv (by simp; ring)
      simp only [tarziaSubderivative, if_neg (not_lt.2 h.le)]
      refine this.congr_of_eventuallyEq ?_
      filter_upwards [lt_mem_nhds h] with x hx
      simp only [tarziaPotential, if_neg (not_lt.2 (le_of_lt hx))]
  refine ⟨?_, hd, fun hs hd' => ?_⟩
  · have h1 : Continuous fun x : ℝ => 2 * Real.log (max (x - b) 0 + 1) := by
      refine continuous_const.mul (Continuous.log (by fun_prop) fun x => ?_)
      have := le_max_right (x - b) 0
      linarith
    have h2 : Continuous fun x : ℝ => if x < b then (x - b) ^ 2 else 2 * Real.log (max (x - b) 0 + 1) :=
      continuous_piece (by fun_prop) h1 b (by simp)
    have : tarziaPotential slope b = fun x => (if x < b then (x - b) ^ 2 else
        2 * Real.log (max (x - b) 0 + 1)) * slope := by
      funext x
      simp only [tarziaPotential]
      split_ifs with hx
      · rfl
      · rw [max_eq_left (by linarith)]
    rw [this]
    exact h2.mul_const slope
  · have he := hd.unique hd'
    have h0 : tarziaSubderivative slope b r = 0 := by linarith
    simp only [tarziaSubderivative, mul_eq_zero, hs, or_false] at h0
    split_ifs at h0 with hlt
    · exact hr (by linarith)
    · have : 0 < r - b + 1 := by linarith
      rw [one_div, inv_eq_zero] at h0
      linarith

example : (4 : ℝ) ≠ 5 ∧ (1000 : ℝ) ≠ 0 := by norm_num

/-! ### Laws without declared derivative -/

/-- C96: the normal potentials and friction bounds of the other laws are continuous and bounded. -/
theorem C96_bounded (limitValue limit friction : ℝ) (hl : 0 ≤ limit) (hv : 0 ≤ limitValue)
    (hf : 0 ≤ friction) :
    (Continuous jureczkaPotential ∧ ∀ v, 0 ≤ jureczkaPotential v ∧ jureczkaPotential v ≤ 1 / 10) ∧
    (Continuous jureczkaBound ∧ ∀ v, 0 ≤ jureczkaBound v ∧ jureczkaBound v ≤ 8 / 10) ∧
    (Continuous (limitPotential limitValue limit) ∧
      ∀ v, 0 ≤ limitPotential limitValue limit v ∧ limitPotential limitValue limit v ≤ limitValue * limit) ∧
    (Continuous (limitBound friction) ∧
      ∀ v, 0 ≤ limitBound friction v ∧ limitBound friction v ≤ friction * (1 / 10)) := by
  refine ⟨⟨?_, fun v => ?_⟩, ⟨?_, fun v => ?_⟩, ⟨?_, fun v => ?_⟩, ⟨?_, fun v => ?_⟩⟩
  · exact continuous_piece_le continuous_const (continuous_piece (by fun_prop) continuous_const _
      (by norm_num)) _ (by norm_num)
  · simp only [jureczkaPotential]
    split_ifs with h1 h2
    · norm_num
    · have h3 : 0 < v := not_le.1 h1
      exact ⟨by positivity, by nlinarith⟩
    · norm_num
  · exact continuous_piece continuous_const (continuous_piece (by fun_prop) continuous_const _
      (by norm_num)) _ (by norm_num)
  · simp only [jureczkaBound]
    split_ifs with h1 h2
    · norm_num
    · exact ⟨by linarith [not_lt.1 h1], by linarith⟩
    · norm_num
  · rcases hl.eq_or_lt with rfl | hl
    · have : limitPotential limitValue 0 = fun _ => 0 := by
        funext v; simp only [limitPotential]; split_ifs <;> first | rfl | (exfalso; linarith) | simp
      rw [this]; exact continuous_const
    · exact continuous_piece_le continuous_const (continuous_piece (by fun_prop) continuous_const _
        rfl) _ (by rw [if_pos hl, mul_zero])
  · simp only [limitPotential]
    split_ifs with h1 h2
    · exact ⟨le_refl _, by positivity⟩
    · have h3 : 0 < v := not_le.1 h1
      exact ⟨by positivity, mul_le_mul_of_nonneg_left h2.le hv⟩
    · exact ⟨by positivity, le_refl _⟩
  · exact continuous_piece_le continuous_const (continuous_piece (by fun_prop) continuous_const _
      rfl) _ (by norm_num)
  · simp only [limitBound]
    split_ifs with h1 h2
    · exact ⟨le_refl _, by positivity⟩
    · have h3 : 0 < v := not_le.1 h1
      exact ⟨by positivity, mul_le_mul_of_nonneg_left h2.le hf⟩
    · exact ⟨by positivity, le_refl _⟩

/-- The response of the law of `BartmanSzwarc_Ochal_Sofonea_Tarzia_2025.py` to the penetration `u`. -/
noncomputable def bostResponse (ig u : ℝ) : ℝ :=
  ig * (if u < 0 then 0 else if u < 1 / 10 then (1 / 10 + Real.exp (-(1 / 10))) / (1 / 10) * u
    else 1 / 10 + Real.exp (-u))

/-- C96: the potential with an exponential is continuously differentiable; it has a response only
beyond the gap. -/
theorem C96_exponential (ig gap v : ℝ) :
    HasDerivAt (bostPotential ig gap) (bostResponse ig (v - gap)) v ∧
    Continuous (bostResponse ig) ∧ (v ≤ gap → bostPotential ig gap v = 0) := by
  refine ⟨?_, ?_, fun h => by simp only [bostPotential]; rw [if_pos (by linarith), mul_zero]⟩
  · set E := Real.exp (-(1 / 10)) with hE
    have h1 : ∀ x : ℝ, HasDerivAt (fun x : ℝ => (1 / 10 + E) / (2 * (1 / 10)) * x ^ 2)
        ((1 / 10 + E) / (1 / 10) * x) x := fun x =>
      ((hasDerivAt_pow 2 x).const_mul _).congr_deriv (by simp; ring)
    have h2 : ∀ x : ℝ, HasDerivAt (fun x : ℝ => 1 / 10 * x - Real.exp (-x) +
        ((1 / 10 + 2) * E - 1 / 10 * (1 / 10)) / 2) (1 / 10 + Real.exp (-x)) x := fun x =>
      ((((hasDerivAt_id x).const_mul (1 / 10)).sub (hasDerivAt_neg x).exp).add_const _).congr_deriv
        (by simp)
    have h3 := hasDerivAt_piece (c := 1 / 10) (fun x _ => h1 x) (fun x _ => h2 x)
      (by rw [← hE]; ring) (by rw [← hE]; ring)
    have h4 := hasDerivAt_piece (c := 0) (f := fun _ => (0 : ℝ)) (f' := fun _ => 0)
      (fun x _ => hasDerivAt_const x 0) (fun x _ => h3 x) (by norm_num) (by norm_num)
    have h5 := ((h4 (v - gap)).comp v ((hasDerivAt_id v).sub_const gap)).const_mul ig
    rw [mul_one] at h5
    refine (h5.congr_of_eventuallyEq (Filter.Eventually.of_forall fun x => ?_))
    simp only [bostPotential, Function.comp, id]
    congr 1
    by_cases hx : x - gap ≤ 0
    · rw [if_pos hx]
      rcases hx.eq_or_lt with hx | hx
      · rw [hx]; norm_num
      · rw [if_pos hx]
    · rw [if_neg hx, if_neg (show ¬ x - gap < 0 from fun h => hx h.le)]
  · refine continuous_const.mul (continuous_piece continuous_const (continuous_piece (by fun_prop)
      (by fun_prop) _ ?_) _ ?_)
    · ring
    · norm_num

/-- C96, negation: the friction law of `Jureczka_Ochal_Bartman_2023.py` does not vanish at rest: with
the penetration, which increases the bound, the cost of a body at rest decreases. -/
theorem C96_friction_at_rest_wrong (friction v w : ℝ) (hf : 0 < friction) (h0 : 0 ≤ v) (hvw : v < w)
    (hw : w ≤ 1 / 10) :
    limitTangential 0 = -(3 / 10) ∧
    limitBound friction w * limitTangential 0 < limitBound friction v * limitTangential 0 := by
  have hb : ∀ x, 0 ≤ x → x ≤ 1 / 10 → limitBound friction x = friction * x := by
    intro x h1 h2
    simp only [limitBound]
    split_ifs with h3 h4
    · rw [le_antisymm h3 h1, mul_zero]
    · rfl
    · rw [le_antisymm h2 (not_lt.1 h4)]
  have h : limitTangential 0 = -(3 / 10) := by simp [limitTangential]
  refine ⟨h, ?_⟩
  rw [h, hb v h0 (by linarith), hb w (by linarith) hw]
  nlinarith

example : (0 : ℝ) < 2 ∧ (0 : ℝ) ≤ 1 / 20 ∧ (1 / 20 : ℝ) < 1 / 10 ∧ (1 / 10 : ℝ) ≤ 1 / 10 := by norm_num

/-- C96: the friction of `Jureczka_Ochal_Bartman_2023.py` weakens with the slip: its derivative falls from 1
at rest to 7/10, without reaching it. -/
theorem C96_slip_weakening :
    (∀ x, HasDerivAt limitTangential (3 / 10 * Real.exp (-x) + 7 / 10) x) ∧
    (∀ x, 0 ≤ x → 7 / 10 < 3 / 10 * Real.exp (-x) + 7 / 10 ∧ 3 / 10 * Real.exp (-x) + 7 / 10 ≤ 1) ∧
    StrictAnti fun x : ℝ => 3 / 10 * Real.exp (-x) + 7 / 10 := by
  refine ⟨fun x => ?_, fun x hx => ⟨?_, ?_⟩, fun x y hxy => ?_⟩
  · have h1 : HasDerivAt (fun x : ℝ => Real.exp (-x)) (Real.exp (-x) * -1) x := (hasDerivAt_neg x).exp
    have h2 := (h1.const_mul (-(3 / 10))).add ((hasDerivAt_id x).const_mul (7 / 10))
    refine (h2.congr_deriv (by ring)).congr_of_eventuallyEq (Filter.Eventually.of_forall fun y => rfl)
  · have := Real.exp_pos (-x)
    linarith
  · have : Real.exp (-x) ≤ 1 := Real.exp_le_one_iff.2 (by linarith)
    linarith
  · have : Real.exp (-y) < Real.exp (-x) := Real.exp_lt_exp.2 (by linarith)
    beta_reduce
    linarith

/-- C96, negation: so the law is not convex in the slip, and the results on convex laws (C89) do not apply
to it. -/
theorem C96_slip_convex_wrong {x y : ℝ} (hxy : x < y) :
    (limitTangential x + limitTangential y) / 2 < limitTangential ((x + y) / 2) := by
  have h : 2 * Real.exp (-((x + y) / 2)) < Real.exp (-x) + Real.exp (-y) := by
    have e1 : Real.exp (-x) = Real.exp (-x / 2) ^ 2 := by rw [← Real.exp_nat_mul]; congr 1; push_cast; ring
    have e2 : Real.exp (-y) = Real.exp (-y / 2) ^ 2 := by rw [← Real.exp_nat_mul]; congr 1; push_cast; ring
    have e3 : Real.exp (-((x + y) / 2)) = Real.exp (-x / 2) * Real.exp (-y / 2) := by
      rw [← Real.exp_add]; congr 1; ring
    have hlt : Real.exp (-y / 2) < Real.exp (-x / 2) := Real.exp_lt_exp.2 (by linarith)
    rw [e1, e2, e3]
    nlinarith [sq_pos_of_pos (sub_pos.2 hlt)]
  simp only [limitTangential]
  linarith

/-- C96: the linear law of the manufactured solution is the slope law, see C47. -/
theorem C96_linear {K : Type _} [Field K] [LinearOrder K] (stiffness v static dt : K) :
    linearPotential stiffness v = slopePotential stiffness v static dt ∧
    linearSubderivative stiffness v = slopeSubderivative stiffness v static dt := ⟨rfl, rfl⟩

end Conmech
