import Verif.Props.ExampleLaws
/-!
C103: the second responses that the examples declare beside their laws.
-/
namespace Conmech
open Spec

section
variable {K : Type _} [Field K] [LinearOrder K] [IsStrictOrderedRing K]

/-- The part of the way from level `n` to the next one that `v` has behind it. -/
def Layers.way (c : Layers K) (n : ℕ) (v : K) : K :=
  (min (max v (c.layer n)) (c.layer (n + 1)) - c.layer n) / (c.layer (n + 1) - c.layer n)

/-- Sum of jumps `f` at the levels below `v` and of changes `g` along the way between levels. -/
def Layers.along (c : Layers K) (f g : ℕ → K) (v : K) : K :=
  (∑ n ∈ Finset.range c.count, if c.layer n < v then f n else 0) +
    ∑ n ∈ Finset.range (c.count - 1), g n * c.way n v

variable {c : Layers K}

theorem Layers.way_zero (h : c.Increasing) {n : ℕ} (hn : n + 1 < c.count) {v : K} (hv : v ≤ c.layer n) :
    c.way n v = 0 := by
  rw [way, max_eq_right hv, min_eq_left (h n hn).le, sub_self, zero_div]

theorem Layers.way_one (h : c.Increasing) {n : ℕ} (hn : n + 1 < c.count) {v : K}
    (hv : c.layer (n + 1) ≤ v) : c.way n v = 1 := by
  rw [way, max_eq_left ((h n hn).le.trans hv), min_eq_right hv,
    div_self (sub_ne_zero.2 (h n hn).ne')]

theorem Layers.along_before (h : c.Increasing) (hc : 0 < c.count) (f g : ℕ → K) {v : K}
    (hv : v ≤ c.layer 0) : c.along f g v = 0 := by
  unfold along
  rw [Finset.sum_eq_zero fun n hn => if_neg (not_lt.2 (hv.trans (h.le (Nat.zero_le n)
    (Finset.mem_range.1 hn)))), Finset.sum_eq_zero fun n hn => ?_, add_zero]
  have hn := Finset.mem_range.1 hn
  rw [way_zero h (by omega) (hv.trans (h.le (Nat.zero_le n) (by omega))), mul_zero]

theorem Layers.along_between (h : c.Increasing) (f g : ℕ → K) {m : ℕ} (hm : m + 1 < c.count) {v : K}
    (h1 : c.layer m < v) (h2 : v ≤ c.layer (m + 1)) :
    c.along f g v = (∑ n ∈ Finset.range (m + 1), f n) + ((∑ n ∈ Finset.range m, g n) +
      g m * ((v - c.layer m) / (c.layer (m + 1) - c.layer m))) := by
  unfold along
  congr 1
  · obtain ⟨d, hd⟩ : ∃ d, c.count = m + 1 + d := ⟨c.count - (m + 1), by omega⟩
    rw [hd, Finset.sum_range_add, Finset.sum_eq_zero (s := Finset.range d) fun n hn => ?_, add_zero]
    · refine Finset.sum_congr rfl fun n hn => if_pos ?_
      have hn := Finset.mem_range.1 hn
      exact (h.le (show n ≤ m by omega) (by omega)).trans_lt h1
    · have hn := Finset.mem_range.1 hn
      exact if_neg (not_lt.2 (h2.trans (h.le (by omega) (by omega))))
  · obtain ⟨d, hd⟩ : ∃ d, c.count - 1 = m + 1 + d := ⟨c.count - 1 - (m + 1), by omega⟩
    rw [hd, Finset.sum_range_add, Finset.sum_range_succ,
      Finset.sum_eq_zero (s := Finset.range d) fun n hn => ?_, add_zero]
    · congr 1
      · refine Finset.sum_congr rfl fun n hn => ?_
        have hn := Finset.mem_range.1 hn
        rw [way_one h (by omega) ((h.le (show n + 1 ≤ m by omega) (by omega)).trans h1.le), mul_one]
      · rw [way, max_eq_left h1.le, min_eq_left h2]
    · have hn := Finset.mem_range.1 hn
      rw [way_zero h (by omega) (h2.trans (h.le (by omega) (by omega))), mul_zero]

theorem Layers.along_after (h : c.Increasing) (f g : ℕ → K) {v : K} (hv : c.layer (c.count - 1) < v) :
    c.along f g v = (∑ n ∈ Finset.range c.count, f n) + ∑ n ∈ Finset.range (c.count - 1), g n := by
  unfold along
  congr 1
  · refine Finset.sum_congr rfl fun n hn => if_pos ?_
    have hn := Finset.mem_range.1 hn
    exact (h.le (show n ≤ c.count - 1 by omega) (by omega)).trans_lt hv
  · refine Finset.sum_congr rfl fun n hn => ?_
    have hn := Finset.mem_range.1 hn
    rw [way_one h (by omega) ((h.le (show n + 1 ≤ c.count - 1 by omega) (by omega)).trans hv.le), mul_one]

/-- Sums with non-negative jumps and changes do not decrease. -/
theorem Layers.along_mono (h : c.Increasing) {f g : ℕ → K} (hf : ∀ n, 0 ≤ f n) (hg : ∀ n, 0 ≤ g n) :
    Monotone (c.along f g) := by
  intro v w hvw
  unfold along
  refine add_le_add (Finset.sum_le_sum fun n _ => ?_) (Finset.sum_le_sum fun n hn => ?_)
  · by_cases h1 : c.layer n < v
    · rw [if_pos h1, if_pos (h1.trans_le hvw)]
    · rw [if_neg h1]
      split_ifs
      · exact hf n
      · exact le_refl _
  · have hn := Finset.mem_range.1 hn
    refine mul_le_mul_of_nonneg_left ?_ (hg n)
    unfold way
    refine div_le_div_of_nonneg_right ?_ (sub_nonneg.2 (h n (by omega)).le)
    exact sub_le_sub_right (min_le_min_right _ (max_le_max_right _ hvw)) _

theorem Layers.along_add (f g f' g' : ℕ → K) (v : K) :
    c.along f g v + c.along f' g' v = c.along (fun n => f n + f' n) (fun n => g n + g' n) v := by
  unfold along
  rw [add_add_add_comm, ← Finset.sum_add_distrib, ← Finset.sum_add_distrib]
  congr 1
  · refine Finset.sum_congr rfl fun n _ => ?_
    split_ifs
    · rfl
    · exact add_zero 0
  · exact Finset.sum_congr rfl fun n _ => (add_mul _ _ _).symm

/-- The response up to level `m`, from its jumps and changes. -/
theorem Layers.telescope (c : Layers K) (m : ℕ) :
    (∑ n ∈ Finset.range (m + 1), (c.alpha n - c.beta n)) +
      ∑ n ∈ Finset.range m, (c.beta (n + 1) - c.alpha n) = c.alpha m := by
  induction m with
  | zero => simp [beta]
  | succ m ih =>
    rw [Finset.sum_range_succ, Finset.sum_range_succ (fun n => c.beta (n + 1) - c.alpha n) m]
    linear_combination ih

/-- The response is the sum of its jumps and changes. -/
theorem Layers.subderivative_along (h : c.Increasing) (hc : 2 ≤ c.count) (v : K) :
    (c.subderivative v).getD 0 =
      c.along (fun n => c.alpha n - c.beta n) (fun n => c.beta (n + 1) - c.alpha n) v := by
  have hr := (C96_composite_response c h hc).2
  rcases Layers.Increasing.locate (show 0 < c.count by omega) v with h1 | ⟨m, hm, h1, h2⟩ | h1
  · rw [along_before h (by omega) _ _ h1, hr.before v h1]
  · rw [along_between h _ _ hm h1 h2, hr.between m hm v h1 h2, ← add_assoc, c.telescope m, beta,
      if_neg (by omega)]
  · rw [along_after h _ _ h1, hr.after v h1]
    obtain ⟨d, hd⟩ : ∃ d, c.count = d + 1 := ⟨c.count - 1, by omega⟩
    rw [hd, Nat.add_sub_cancel, c.telescope d]

/-- The jumps downwards. -/
def Layers.drop (c : Layers K) (n : ℕ) : K := max 0 (c.beta n - c.alpha n)
/-- The changes downwards. -/
def Layers.descent (c : Layers K) (n : ℕ) : K := max 0 (c.alpha n - c.beta (n + 1))

theorem fallUntil_along (c : Layers K) (v : K) :
    fallUntil c.count c.layer c.alpha c.betaGiven v = c.along c.drop c.descent v := by
  unfold fallUntil Layers.along Layers.drop Layers.descent Layers.beta Layers.way
  simp only [Nat.add_eq_zero_iff, one_ne_zero, and_false, if_false]

omit [IsStrictOrderedRing K] in
theorem Layers.sub2Loop_append (c : Layers K) (v : K) : ∀ (l r : List ℕ) (acc : K),
    (∀ n ∈ l, v ≥ c.layer n) → c.sub2Loop v (l ++ r) acc =
      c.sub2Loop v r (acc + (l.map fun n => c.drop n + if n > 0 then
        max 0 (c.alpha (n - 1) - c.beta n) else 0).sum)
  | [], r, acc, _ => by simp
  | n :: l, r, acc, hl => by
    rw [List.cons_append, sub2Loop, if_pos (hl n List.mem_cons_self),
      c.sub2Loop_append v l r _ fun k hk => hl k (List.mem_cons_of_mem _ hk), List.map_cons, List.sum_cons]
    congr 1
    unfold drop
    split_ifs <;> ring

omit [IsStrictOrderedRing K] in
theorem Layers.passed_sum (c : Layers K) (m : ℕ) :
    ((List.range (m + 1)).map fun n => c.drop n + if n > 0 then
        max 0 (c.alpha (n - 1) - c.beta n) else 0).sum =
      (∑ n ∈ Finset.range (m + 1), c.drop n) + ∑ n ∈ Finset.range m, c.descent n := by
  induction m with
  | zero => simp
  | succ m ih =>
    rw [List.range_succ, List.map_append, List.sum_append, ih, Finset.sum_range_succ _ (m + 1),
      Finset.sum_range_succ c.descent m]
    simp only [List.map_cons, List.map_nil, List.sum_cons, List.sum_nil, Nat.succ_pos, if_true,
      gt_iff_lt, Nat.add_sub_cancel]
    unfold descent
    ring_nf

/-- The second response from a level on. -/
theorem Layers.sub2_between (h : c.Increasing) {m : ℕ} (hm : m + 1 < c.count) {v : K}
    (h0 : c.layer 0 < v) (h1 : c.layer m ≤ v) (h2 : v < c.layer (m + 1)) :
    c.sub2derivative v = some ((∑ n ∈ Finset.range (m + 1), c.drop n) +
      ((∑ n ∈ Finset.range m, c.descent n) + max 0 (-c.slope m) * (v - c.layer m))) := by
  rw [sub2derivative, if_neg (by omega), if_neg (not_le.2 h0)]
  obtain ⟨d, hd⟩ : ∃ d, c.count = m + 1 + (d + 1) := ⟨c.count - (m + 2), by omega⟩
  rw [hd, List.range_add, c.sub2Loop_append v _ _ _ fun n hn => ?_, c.passed_sum, List.range_succ_eq_map,
    List.map_cons, Nat.add_zero, sub2Loop, if_neg (not_le.2 h2), Nat.add_sub_cancel]
  · congr 1; ring
  · have hn := List.mem_range.1 hn
    exact (h.le (show n ≤ m by omega) (by omega)).trans h1

theorem Layers.sub2_after (h : c.Increasing) (hc : 2 ≤ c.count) {v : K} (h1 : c.layer (c.count - 1) ≤ v) :
    c.sub2derivative v = some ((∑ n ∈ Finset.range c.count, c.drop n) +
      ∑ n ∈ Finset.range (c.count - 1), c.descent n) := by
  have h0 : c.layer 0 < v :=
    ((h 0 (by omega)).trans_le (h.le (show 1 ≤ c.count - 1 by omega) (by omega))).trans_le h1
  rw [sub2derivative, if_neg (by omega), if_neg (not_le.2 h0), ← List.append_nil (List.range c.count),
    c.sub2Loop_append v _ _ _ fun n hn => ?_, sub2Loop, zero_add]
  · obtain ⟨d, hd⟩ : ∃ d, c.count = d + 1 := ⟨c.count - 1, by omega⟩
    rw [hd, c.passed_sum, Nat.add_sub_cancel]
  · have hn := List.mem_range.1 hn
    exact (h.le (show n ≤ c.count - 1 by omega) (by omega)).trans h1

theorem Layers.descent_eq (h : c.Increasing) {m : ℕ} (hm : m + 1 < c.count) (x : K) :
    max 0 (-c.slope m) * x = c.descent m * (x / (c.layer (m + 1) - c.layer m)) := by
  have hpos : 0 < c.layer (m + 1) - c.layer m := sub_pos.2 (h m hm)
  have : max 0 (-c.slope m) = c.descent m / (c.layer (m + 1) - c.layer m) := by
    rw [slope, descent, ← max_div_div_right hpos.le, zero_div, ← neg_div, neg_sub]
  rw [this, div_mul_eq_mul_div, mul_div_assoc]

/-- C103: off the levels the second response of a composite material is the total fall of its response, and
the response is the difference of two that never decrease. Missing for the full property: the levels
themselves, where it is false. -/
theorem C103_composite_partial (c : Layers K) (h : c.Increasing) (hc : 2 ≤ c.count) :
    (∀ v, (c.sub2derivative v).isSome) ∧
    (∀ v, (∀ n < c.count, v ≠ c.layer n) →
      (c.sub2derivative v).getD 0 = fallUntil c.count c.layer c.alpha c.betaGiven v) ∧
    SplitsOn (fun v => (c.subderivative v).getD 0) (fun v => (c.sub2derivative v).getD 0)
      {v | ∀ n < c.count, v ≠ c.layer n} := by
  have hs : ∀ v, (∀ n < c.count, v ≠ c.layer n) →
      (c.sub2derivative v).getD 0 = c.along c.drop c.descent v := by
    intro v hv
    rcases Layers.Increasing.locate (show 0 < c.count by omega) v with h1 | ⟨m, hm, h1, h2⟩ | h1
    · rw [Layers.along_before h (by omega) _ _ h1, Layers.sub2derivative, if_neg (by omega), if_pos h1]
      rfl
    · rw [Layers.along_between h _ _ hm h1 h2, Layers.sub2_between h hm
        ((h.le (Nat.zero_le m) (by omega)).trans_lt h1) h1.le (lt_of_le_of_ne h2 (hv _ hm)),
        Option.getD_some, Layers.descent_eq h hm]
    · rw [Layers.along_after h _ _ h1, Layers.sub2_after h hc h1.le, Option.getD_some]
  refine ⟨fun v => ?_, fun v hv => by rw [hs v hv, fallUntil_along], fun v hv w hw hvw => ?_,
    fun v hv w hw hvw => ?_⟩
  · unfold Layers.sub2derivative
    rw [if_neg (by omega)]
    split_ifs <;> rfl
  · show (c.sub2derivative v).getD 0 ≤ (c.sub2derivative w).getD 0
    rw [hs v hv, hs w hw]
    exact Layers.along_mono h (fun n => le_max_left _ _) (fun n => le_max_left _ _) hvw
  · show (c.subderivative v).getD 0 + (c.sub2derivative v).getD 0 ≤
      (c.subderivative w).getD 0 + (c.sub2derivative w).getD 0
    rw [hs v hv, hs w hw, Layers.subderivative_along h hc, Layers.subderivative_along h hc,
      Layers.along_add, Layers.along_add]
    refine Layers.along_mono h (fun n => ?_) (fun n => ?_) hvw
    · unfold Layers.drop
      linarith [le_max_right 0 (c.beta n - c.alpha n)]
    · unfold Layers.descent
      linarith [le_max_right 0 (c.alpha n - c.beta (n + 1))]

/-- C103 is wrong at the levels: where the response jumps down, the sum of the response and the second
response decreases, because at the level itself the jump is counted already, but has not happened yet. -/
theorem C103_composite_wrong (c : Layers K) (h : c.Increasing) (n : ℕ) (h0 : 0 < n) (hn : n < c.count)
    (hj : c.alpha n < c.betaGiven n) :
    ∃ w, c.layer n < w ∧
      (c.subderivative w).getD 0 + (c.sub2derivative w).getD 0 <
        (c.subderivative (c.layer n)).getD 0 + (c.sub2derivative (c.layer n)).getD 0 := by
  have hc : 2 ≤ c.count := by omega
  have hr := (C96_composite_response c h hc).2
  have hb : c.beta n = c.betaGiven n := if_neg (by omega)
  obtain ⟨k, rfl⟩ : ∃ k, n = k + 1 := ⟨n - 1, by omega⟩
  have hl : (c.subderivative (c.layer (k + 1))).getD 0 = c.betaGiven (k + 1) := by
    have := hr.between k hn (c.layer (k + 1)) (h k hn) le_rfl
    rw [div_self (sub_ne_zero.2 (h k hn).ne')] at this
    rw [this]; ring
  have hlev : c.layer 0 < c.layer (k + 1) :=
    (h 0 (by omega)).trans_le (h.le (show 1 ≤ k + 1 by omega) hn)
  rcases Nat.lt_or_ge (k + 1 + 1) c.count with hm | hm
  · -- a level between others: go right by less than the jump
    have hlt := h (k + 1) hm
    obtain ⟨e, he, hle, hse⟩ : ∃ e, 0 < e ∧ e < c.layer (k + 1 + 1) - c.layer (k + 1) ∧
        max 0 (c.slope (k + 1)) * e < c.betaGiven (k + 1) - c.alpha (k + 1) := by
      have hd := sub_pos.2 hlt
      have hq : 0 < (c.betaGiven (k + 1) - c.alpha (k + 1)) / (max 0 (c.slope (k + 1)) + 1) :=
        div_pos (sub_pos.2 hj) (by linarith [le_max_left 0 (c.slope (k + 1))])
      obtain ⟨e, he0, he⟩ := exists_between (lt_min hd hq)
      refine ⟨e, he0, he.trans_le (min_le_left _ _), ?_⟩
      have h2 := he.trans_le (min_le_right _ _)
      rw [lt_div_iff₀ (by linarith [le_max_left 0 (c.slope (k + 1))])] at h2
      linarith
    refine ⟨c.layer (k + 1) + e, by linarith, ?_⟩
    have h2 : c.layer (k + 1) + e < c.layer (k + 1 + 1) := by linarith
    rw [hl, Layers.sub2_between h hm (by linarith) (by linarith) h2,
      Layers.sub2_between h hm hlev le_rfl hlt, Layers.subderivative_between c h hm (by linarith) h2.le,
      Option.getD_some, Option.getD_some, Option.getD_some, c.line_eq]
    have hx : max 0 (c.slope (k + 1)) = c.slope (k + 1) + max 0 (-c.slope (k + 1)) := by
      rcases le_total 0 (c.slope (k + 1)) with hs | hs
      · rw [max_eq_right hs, max_eq_left (by linarith), add_zero]
      · rw [max_eq_left hs, max_eq_right (by linarith)]; ring
    rw [hx] at hse
    linarith
  · -- the last level
    have hk : c.count - 1 = k + 1 := by omega
    refine ⟨c.layer (k + 1) + 1, by linarith, ?_⟩
    rw [hl, Layers.sub2_after h hc (by rw [hk]; linarith), Layers.sub2_after h hc (by rw [hk]),
      hr.after _ (by rw [hk]; linarith), hk]
    linarith

end

/-- A composite material of two layers whose response falls inside of the second and jumps down. -/
example : ∃ c : Layers ℚ, c.Increasing ∧ c.count = 3 ∧ c.alpha 1 < c.betaGiven 1 ∧
    c.sub2derivative (1 / 2) = some 0 ∧ c.sub2derivative (3 / 2) = some (7 / 2) :=
  ⟨⟨3, fun n => n, fun n => if n = 1 then 2 else 0, fun n => if n = 1 then 5 else 1⟩,
    by intro n _; push_cast; linarith, rfl, by decide +kernel, by decide +kernel, by decide +kernel⟩

/-! ### `Makela_et_al_1998.py` -/

/-- C103: for every displacement but one the second response of the delamination law is the total fall of the
response with the penetration `-v`: 4000 after half a millimetre, 6000 more after one and 10000 more after two;
the response is the difference of two that never decrease with the penetration. Missing for the full
property: the penetration of half a millimetre, where it is false. -/
theorem C103_delamination_partial :
    (∀ u : ℝ, u ≠ 1 / 2 * mm → makelaSub2derivative (-u) =
      (if 1 / 2 * mm ≤ u then 4000 else 0) + (if mm ≤ u then 6000 else 0) +
        (if 2 * mm ≤ u then 10000 else 0)) ∧
    SplitsOn (fun u => makelaSubderivative (-u)) (fun u => makelaSub2derivative (-u))
      {u | u ≠ 1 / 2 * mm} := by
  have hval : ∀ u : ℝ, u ≠ 1 / 2 * mm → makelaSub2derivative (-u) =
      (if 1 / 2 * mm ≤ u then 4000 else 0) + (if mm ≤ u then 6000 else 0) +
        (if 2 * mm ≤ u then 10000 else 0) := by
    intro u hu
    have hm : (0 : ℝ) < mm := by norm_num [mm]
    simp only [makelaSub2derivative, neg_neg, one_mul]
    rcases lt_or_gt_of_ne hu with h | h
    · rw [if_pos h.le, if_neg (not_le.2 h), if_neg (by linarith), if_neg (by linarith)]; norm_num
    · rw [if_neg (not_le.2 h), if_pos h.le]
      by_cases h1 : u < mm
      · rw [if_pos h1, if_neg (not_le.2 h1), if_neg (by linarith)]
        norm_num [mm, makelaK0, makelaK10, makelaK11, makelaSurface]
      · rw [if_neg h1, if_pos (not_lt.1 h1)]
        by_cases h2 : u < 2 * mm
        · rw [if_pos h2, if_neg (not_le.2 h2)]
          norm_num [mm, makelaK0, makelaK10, makelaK11, makelaK20, makelaK21, makelaSurface]
        · rw [if_neg h2, if_pos (not_lt.1 h2)]
          norm_num [mm, makelaK0, makelaK10, makelaK11, makelaK20, makelaK21, makelaSurface]
  have htot : ∀ u : ℝ, u ≠ 1 / 2 * mm → makelaSubderivative (-u) + makelaSub2derivative (-u) =
      24000000 * max 0 (min u (mm / 2)) + 8000000 * max 0 (min u mm - mm / 2) +
        4000000 * max 0 (min u (2 * mm) - mm) := by
    intro u hu
    have hm : (0 : ℝ) < mm := by norm_num [mm]
    rw [hval u hu]
    simp only [makelaSubderivative, neg_neg, one_mul]
    have e0 : makelaK0 = 12000000 := by norm_num [mm, makelaK0, makelaSurface]
    have e1 : makelaK10 = 4000000 := by norm_num [mm, makelaK10, makelaSurface]
    have e2 : makelaK11 = 4000000 * mm := by norm_num [mm, makelaK11, makelaSurface]
    have e3 : makelaK20 = 2000000 := by norm_num [mm, makelaK20, makelaSurface]
    have e4 : makelaK21 = 2000000 * mm := by norm_num [mm, makelaK21, makelaSurface]
    have em : (4000 : ℝ) = 4000000 * mm := by norm_num [mm]
    have en : (6000 : ℝ) = 6000000 * mm := by norm_num [mm]
    have eo : (10000 : ℝ) = 10000000 * mm := by norm_num [mm]
    rw [e0, e1, e2, e3, e4, em, en, eo]
    generalize mm = m at *
    by_cases h0 : u ≤ 0
    · rw [if_pos h0, if_neg (by linarith), if_neg (by linarith), if_neg (by linarith),
        max_eq_left (by rw [min_eq_left (by linarith)]; exact h0),
        max_eq_left (by rw [min_eq_left (by linarith)]; linarith),
        max_eq_left (by rw [min_eq_left (by linarith)]; linarith)]
      ring
    rw [if_neg h0]
    push Not at h0
    rcases lt_or_gt_of_ne hu with h | h
    · rw [if_pos h, if_neg (by linarith), if_neg (by linarith), if_neg (by linarith),
        min_eq_left (by linarith), max_eq_right h0.le,
        max_eq_left (by rw [min_eq_left (by linarith)]; linarith),
        max_eq_left (by rw [min_eq_left (by linarith)]; linarith)]
      ring
    rw [if_neg (not_lt.2 h.le), if_pos h.le, min_eq_right (by linarith : m / 2 ≤ u),
      max_eq_right (by linarith : 0 ≤ m / 2)]
    by_cases h1 : u < m
    · rw [if_pos h1, if_neg (not_le.2 h1), if_neg (by linarith), min_eq_left h1.le,
        max_eq_right (by linarith : 0 ≤ u - m / 2),
        max_eq_left (by rw [min_eq_left (by linarith)]; linarith)]
      ring
    rw [if_neg h1, if_pos (not_lt.1 h1), min_eq_right (not_lt.1 h1),
      max_eq_right (by linarith : 0 ≤ m - m / 2)]
    by_cases h2 : u < 2 * m
    · rw [if_pos h2, if_neg (not_le.2 h2), min_eq_left h2.le, max_eq_right (by linarith : 0 ≤ u - m)]
      ring
    · rw [if_neg h2, if_pos (not_lt.1 h2), min_eq_right (not_lt.1 h2),
        max_eq_right (by linarith : 0 ≤ 2 * m - m)]
      ring
  refine ⟨hval, fun u hu w hw huw => ?_, fun u hu w hw huw => ?_⟩
  · show makelaSub2derivative (-u) ≤ makelaSub2derivative (-w)
    rw [hval u hu, hval w hw]
    have step : ∀ (l x : ℝ), 0 ≤ x → (if l ≤ u then x else 0) ≤ if l ≤ w then x else 0 := by
      intro l x hx
      by_cases hl : l ≤ u
      · rw [if_pos hl, if_pos (hl.trans huw)]
      · rw [if_neg hl]; split_ifs <;> linarith
    exact add_le_add (add_le_add (step _ _ (by norm_num)) (step _ _ (by norm_num))) (step _ _ (by norm_num))
  · show makelaSubderivative (-u) + makelaSub2derivative (-u) ≤
      makelaSubderivative (-w) + makelaSub2derivative (-w)
    rw [htot u hu, htot w hw]
    gcongr

/-- C103 is wrong at half a millimetre: the sum of the responses is smaller there than at all penetrations
between a third and a half of a millimetre. -/
theorem C103_delamination_wrong (u : ℝ) (h1 : 1 / 3 * mm < u) (h2 : u < 1 / 2 * mm) :
    makelaSubderivative (-(1 / 2 * mm)) + makelaSub2derivative (-(1 / 2 * mm)) <
      makelaSubderivative (-u) + makelaSub2derivative (-u) := by
  have hm : (0 : ℝ) < mm := by norm_num [mm]
  simp only [makelaSubderivative, makelaSub2derivative, neg_neg, one_mul]
  rw [if_neg (by linarith : ¬ (1 / 2 * mm ≤ 0)), if_neg (lt_irrefl _), if_pos (by linarith : 1 / 2 * mm < mm),
    if_pos le_rfl, if_neg (by linarith : ¬ u ≤ 0), if_pos h2, if_pos h2.le]
  have e0 : makelaK0 = 12000000 := by norm_num [mm, makelaK0, makelaSurface]
  have e1 : makelaK10 = 4000000 := by norm_num [mm, makelaK10, makelaSurface]
  have e2 : makelaK11 = 4000000 * mm := by norm_num [mm, makelaK11, makelaSurface]
  rw [e0, e1, e2]
  linarith

example : 1 / 3 * mm < 2 / 5 * mm ∧ 2 / 5 * mm < 1 / 2 * mm := by norm_num [mm]

end Conmech
