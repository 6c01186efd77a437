import Verif.Model.MeshGeometry
import Verif.Spec.MeshGeometry
import Verif.Spec.Normals
import Verif.Props.MeshZoo
import Mathlib.Algebra.Order.Field.Basic
import Mathlib.Algebra.Order.BigOperators.Ring.Finset
import Mathlib.Algebra.BigOperators.Ring.Finset
import Mathlib.Data.Real.Sqrt
import Mathlib.Tactic.Linarith
import Mathlib.Tactic.LinearCombination
import Mathlib.Tactic.Positivity
import Mathlib.Tactic.FieldSimp
import Mathlib.Tactic.Ring
import Mathlib.Tactic.IntervalCases
/-
C92 seeds, extent and centring of a mesh, C93 imported meshes.
-/
namespace Conmech

variable {K : Type} [Field K] [LinearOrder K] [IsStrictOrderedRing K]

open Spec

section C92

theorem sqrt_mono' {sqrt : K → K} (hs : IsSqrt sqrt) {x y : K} (hx : 0 ≤ x) (hy : 0 ≤ y) :
    sqrt x ≤ sqrt y ↔ x ≤ y := by
  obtain ⟨h1, h2⟩ := hs x hx
  obtain ⟨h3, h4⟩ := hs y hy
  constructor
  · intro h
    rw [← h2, ← h4]
    exact mul_self_le_mul_self h1 h
  · intro h
    by_contra hc
    push Not at hc
    have := mul_self_lt_mul_self h3 hc
    linarith

theorem offAxisSq_nonneg (dim axis : ℕ) (a b : ℕ → K) : 0 ≤ offAxisSq dim axis a b :=
  Finset.sum_nonneg fun c _ => sq_nonneg _

theorem offAxisSq_comm (dim axis : ℕ) (a b : ℕ → K) :
    offAxisSq dim axis a b = offAxisSq dim axis b a :=
  Finset.sum_congr rfl fun c _ => by ring

omit [LinearOrder K] [IsStrictOrderedRing K] in
theorem axisError_eq (sqrt : K → K) (dim axis : ℕ) (a b : ℕ → K) :
    axisError sqrt dim axis a b = sqrt (offAxisSq dim axis a b) := by
  unfold axisError offAxisSq
  congr 1
  rw [← List.sum_toFinset _ ((List.nodup_range).filter _)]
  apply Finset.sum_congr _ fun _ _ => rfl
  ext c
  simp [and_comm]

omit [LinearOrder K] [IsStrictOrderedRing K] in
theorem mem_seedPairs {n i j : ℕ} : (i, j) ∈ seedPairs n ↔ i < j ∧ j < n := by
  unfold seedPairs
  simp only [List.mem_flatMap, List.mem_range, List.mem_map, List.mem_range', Prod.mk.injEq]
  constructor
  · rintro ⟨a, ha, b, ⟨k, hk, rfl⟩, rfl, rfl⟩
    omega
  · rintro ⟨h1, h2⟩
    exact ⟨i, by omega, j, ⟨j - (i + 1), by omega, by omega⟩, rfl, rfl⟩

/-- The loop keeps the least error seen, and the first pair which attains it. -/
theorem seed_fold (sqrt : K → K) (dim axis : ℕ) (nodes : List (ℕ → K)) (l : List (ℕ × ℕ))
    (s : K × ℕ × ℕ) :
    let r := l.foldl (seedStep sqrt dim axis nodes) s
    (r = s ∨ ((r.2.1, r.2.2) ∈ l ∧
      r.1 = axisError sqrt dim axis (nodeAt nodes r.2.1) (nodeAt nodes r.2.2) ∧ r.1 < s.1)) ∧
      r.1 ≤ s.1 ∧
      ∀ ij ∈ l, r.1 ≤ axisError sqrt dim axis (nodeAt nodes ij.1) (nodeAt nodes ij.2) := by
  induction l generalizing s with
  | nil => simp
  | cons p l ih =>
    obtain ⟨h1, h2, h3⟩ := ih (seedStep sqrt dim axis nodes s p)
    simp only [List.foldl_cons]
    by_cases h : axisError sqrt dim axis (nodeAt nodes p.1) (nodeAt nodes p.2) < s.1
    · have hst : seedStep sqrt dim axis nodes s p =
          (axisError sqrt dim axis (nodeAt nodes p.1) (nodeAt nodes p.2), p.1, p.2) := if_pos h
      rw [hst] at h1 h2 h3 ⊢
      refine ⟨Or.inr ?_, h2.trans h.le, ?_⟩
      · rcases h1 with h1 | ⟨h4, h5, h6⟩
        · rw [h1]
          exact ⟨by simp, rfl, h⟩
        · exact ⟨List.mem_cons_of_mem _ h4, h5, h6.trans h⟩
      · intro ij hij
        rcases List.mem_cons.mp hij with rfl | hij
        · exact h2
        · exact h3 ij hij
    · have hst : seedStep sqrt dim axis nodes s p = s := if_neg h
      rw [hst] at h1 h2 h3 ⊢
      refine ⟨?_, h2, ?_⟩
      · rcases h1 with h1 | ⟨h4, h5, h6⟩
        · exact Or.inl h1
        · exact Or.inr ⟨List.mem_cons_of_mem _ h4, h5, h6⟩
      · intro ij hij
        rcases List.mem_cons.mp hij with rfl | hij
        · exact h2.trans (not_lt.mp h)
        · exact h3 ij hij

omit [LinearOrder K] [IsStrictOrderedRing K] in
theorem nodeAt_eq {nodes : List (ℕ → K)} {i : ℕ} (hi : i < nodes.length) : nodeAt nodes i = nodes[i] := by
  simp [nodeAt, hi]

/-- C92: if some two nodes are less than one apart after projection along an axis, the returned nodes
are two different nodes directed along the axis and closest to be parallel to it, and the returned error is
their distance after projection. Missing for the full property: meshes on which all pairs are farther apart,
for which it is false. -/
theorem C92_seed_partial {sqrt : K → K} (hs : IsSqrt sqrt) (dim axis : ℕ) (nodes : List (ℕ → K))
    (hclose : ∃ (p q : ℕ) (hp : p < nodes.length) (hq : q < nodes.length), p ≠ q ∧
      offAxisSq dim axis nodes[p] nodes[q] < 1) :
    ∃ i j error, closestToAxis sqrt dim nodes axis = (error, i, j) ∧ IsSeed dim axis nodes i j ∧
      0 ≤ error ∧ error * error = offAxisSq dim axis (nodeAt nodes i) (nodeAt nodes j) := by
  obtain ⟨h1, h2, h3⟩ := seed_fold sqrt dim axis nodes (seedPairs nodes.length) (1, 0, 0)
  have hone : sqrt 1 = 1 := by
    obtain ⟨h4, h5⟩ := hs 1 zero_le_one
    nlinarith [mul_self_eq_one_iff.mp h5 |>.elim id (fun h => absurd h4 (by rw [h]; norm_num))]
  have hall : ∀ (p q : ℕ) (hp : p < nodes.length) (hq : q < nodes.length), p ≠ q →
      ((seedPairs nodes.length).foldl (seedStep sqrt dim axis nodes) (1, 0, 0)).1 ≤
        sqrt (offAxisSq dim axis nodes[p] nodes[q]) := by
    intro p q hp hq hpq
    rcases lt_or_gt_of_ne hpq with h | h
    · have := h3 (p, q) (mem_seedPairs.mpr ⟨h, hq⟩)
      rwa [axisError_eq, nodeAt_eq hp, nodeAt_eq hq] at this
    · have := h3 (q, p) (mem_seedPairs.mpr ⟨h, hp⟩)
      rwa [axisError_eq, nodeAt_eq hp, nodeAt_eq hq, offAxisSq_comm] at this
  rcases h1 with h1 | ⟨hm, he, -⟩
  · exfalso
    obtain ⟨p, q, hp, hq, hpq, hlt⟩ := hclose
    have h4 := hall p q hp hq hpq
    rw [h1] at h4
    have h5 : sqrt 1 ≤ sqrt (offAxisSq dim axis nodes[p] nodes[q]) := by rwa [hone]
    rw [sqrt_mono' hs zero_le_one (offAxisSq_nonneg ..)] at h5
    exact absurd h5 (not_le.mpr hlt)
  generalize hr : (seedPairs nodes.length).foldl (seedStep sqrt dim axis nodes) (1, 0, 0) = r at *
  obtain ⟨e, i, j⟩ := r
  obtain ⟨hij, hj⟩ := mem_seedPairs.mp hm
  have hi : i < nodes.length := hij.trans hj
  simp only at he hall
  rw [axisError_eq, nodeAt_eq hi, nodeAt_eq hj] at he
  have hleast : ∀ (p q : ℕ) (hp : p < nodes.length) (hq : q < nodes.length), p ≠ q →
      offAxisSq dim axis nodes[i] nodes[j] ≤ offAxisSq dim axis nodes[p] nodes[q] := by
    intro p q hp hq hpq
    rw [← sqrt_mono' hs (offAxisSq_nonneg ..) (offAxisSq_nonneg ..), ← he]
    exact hall p q hp hq hpq
  obtain ⟨h5, h6⟩ := hs _ (offAxisSq_nonneg dim axis nodes[i] nodes[j])
  unfold closestToAxis
  rw [hr]
  simp only
  rw [nodeAt_eq hi, nodeAt_eq hj]
  by_cases ho : nodes[i] axis < nodes[j] axis
  · rw [if_pos ho]
    refine ⟨i, j, e, rfl, ⟨hi, hj, hij.ne, ho.le, hleast⟩, he ▸ h5, ?_⟩
    rw [nodeAt_eq hi, nodeAt_eq hj, he, h6]
  · rw [if_neg ho]
    refine ⟨j, i, e, rfl, ⟨hj, hi, hij.ne', not_lt.mp ho, ?_⟩, he ▸ h5, ?_⟩
    · intro p q hp hq hpq
      rw [offAxisSq_comm]
      exact hleast p q hp hq hpq
    · rw [nodeAt_eq hi, nodeAt_eq hj, he, h6, offAxisSq_comm]

/-- C92 is false without that condition: if all pairs of nodes are at least one apart after projection, the
pair consists of the first node twice. -/
theorem C92_far_wrong {sqrt : K → K} (hs : IsSqrt sqrt) (dim axis : ℕ) (nodes : List (ℕ → K))
    (hfar : ∀ (p q : ℕ) (hp : p < nodes.length) (hq : q < nodes.length), p ≠ q →
      1 ≤ offAxisSq dim axis nodes[p] nodes[q]) :
    closestToAxis sqrt dim nodes axis = (1, 0, 0) ∧ ¬ IsSeed dim axis nodes 0 0 := by
  obtain ⟨h1, h2, h3⟩ := seed_fold sqrt dim axis nodes (seedPairs nodes.length) (1, 0, 0)
  have hone : sqrt 1 = 1 := by
    obtain ⟨h4, h5⟩ := hs 1 zero_le_one
    exact (mul_self_eq_one_iff.mp h5).elim id (fun h => absurd h4 (by rw [h]; norm_num))
  refine ⟨?_, fun ⟨_, _, h, _⟩ => h rfl⟩
  rcases h1 with h1 | ⟨hm, he, hlt⟩
  · unfold closestToAxis
    rw [h1]
    simp
  · exfalso
    generalize hr : (seedPairs nodes.length).foldl (seedStep sqrt dim axis nodes) (1, 0, 0) = r at *
    obtain ⟨e, i, j⟩ := r
    obtain ⟨hij, hj⟩ := mem_seedPairs.mp hm
    have hi : i < nodes.length := hij.trans hj
    simp only at he hlt
    rw [axisError_eq, nodeAt_eq hi, nodeAt_eq hj] at he
    have h5 := hfar i j hi hj hij.ne
    rw [← sqrt_mono' hs zero_le_one (offAxisSq_nonneg ..), hone, ← he] at h5
    exact absurd hlt (not_lt.mpr h5)

/-- C92 depends on the unit of length: if no two nodes lie on a common parallel to the axis, then the pair
found on the mesh scaled by any large enough factor consists of the first node twice, although scaling does
not change which pairs are closest to be parallel to the axis. -/
theorem C92_scaled_wrong {sqrt : K → K} (hs : IsSqrt sqrt) (dim axis : ℕ) (nodes : List (ℕ → K))
    (hpos : ∀ (p q : ℕ) (hp : p < nodes.length) (hq : q < nodes.length), p ≠ q →
      0 < offAxisSq dim axis nodes[p] nodes[q]) :
    ∃ s : K, ∀ t, s ≤ t →
      closestToAxis sqrt dim (nodes.map fun row c => t * row c) axis = (1, 0, 0) ∧
      ∀ i j, IsSeed dim axis (nodes.map fun row c => t * row c) i j → IsSeed dim axis nodes i j := by
  have hm : ∃ m : K, 0 < m ∧ ∀ (p q : ℕ) (hp : p < nodes.length) (hq : q < nodes.length), p ≠ q →
      m ≤ offAxisSq dim axis nodes[p] nodes[q] := by
    by_cases hne : (Finset.range nodes.length).offDiag.Nonempty
    · obtain ⟨pq, hpq, hmin⟩ := Finset.exists_min_image _
        (fun pq : ℕ × ℕ => offAxisSq dim axis (nodeAt nodes pq.1) (nodeAt nodes pq.2)) hne
      simp only [Finset.mem_offDiag, Finset.mem_range] at hpq hmin
      obtain ⟨h1, h2, h3⟩ := hpq
      refine ⟨_, hpos pq.1 pq.2 h1 h2 h3, ?_⟩
      intro p q hp hq hpq
      have := hmin (p, q) ⟨hp, hq, hpq⟩
      rwa [nodeAt_eq hp, nodeAt_eq hq, nodeAt_eq h1, nodeAt_eq h2] at this
    · refine ⟨1, one_pos, ?_⟩
      intro p q hp hq hpq
      exact absurd ⟨(p, q), by simp [Finset.mem_offDiag, hp, hq, hpq]⟩ hne
  obtain ⟨m, hm0, hm⟩ := hm
  have hscale : ∀ (t : K) (a b : ℕ → K),
      offAxisSq dim axis (fun c => t * a c) (fun c => t * b c) = t ^ 2 * offAxisSq dim axis a b := by
    intro t a b
    unfold offAxisSq
    rw [Finset.mul_sum]
    exact Finset.sum_congr rfl fun c _ => by ring
  refine ⟨max 1 (1 / m), ?_⟩
  intro t ht
  have ht1 : 1 ≤ t := (le_max_left _ _).trans ht
  have ht2 : 1 ≤ t * m := by
    have := (le_max_right _ _).trans ht
    rwa [div_le_iff₀ hm0] at this
  have ht0 : 0 < t := by linarith
  constructor
  · refine (C92_far_wrong hs dim axis _ ?_).1
    intro p q hp hq hpq
    rw [List.length_map] at hp hq
    rw [List.getElem_map, List.getElem_map, hscale]
    have h1 := hm p q hp hq hpq
    calc (1 : K) ≤ t * m := ht2
      _ ≤ t ^ 2 * m := by nlinarith
      _ ≤ _ := mul_le_mul_of_nonneg_left h1 (sq_nonneg t)
  · rintro i j ⟨hi, hj, hij, ho, hmin⟩
    rw [List.length_map] at hi hj
    refine ⟨hi, hj, hij, ?_, ?_⟩
    · rw [List.getElem_map, List.getElem_map] at ho
      exact le_of_mul_le_mul_left ho ht0
    · intro p q hp hq hpq
      have := hmin p q (by rwa [List.length_map]) (by rwa [List.length_map]) hpq
      simp only [List.getElem_map] at this
      rw [hscale, hscale] at this
      exact le_of_mul_le_mul_left this (by positivity)

omit [IsStrictOrderedRing K] in
theorem argmin_fold (l : List K) (n : ℕ) (hn : n ≤ l.length) (h0 : 0 < l.length) :
    let b := (List.range n).foldl
      (fun (best : ℕ) i => if l.getD i 0 < l.getD best 0 then i else best) 0
    b < l.length ∧ (∀ i < n, l.getD b 0 ≤ l.getD i 0) ∧ ∀ i < b, l.getD b 0 < l.getD i 0 := by
  induction n with
  | zero => simpa using h0
  | succ n ih =>
    obtain ⟨h1, h2, h3⟩ := ih (by omega)
    simp only [List.range_succ, List.foldl_append, List.foldl_cons, List.foldl_nil]
    generalize hb : (List.range n).foldl
      (fun (best : ℕ) i => if l.getD i 0 < l.getD best 0 then i else best) 0 = b at *
    split_ifs with h
    · refine ⟨by omega, ?_, ?_⟩
      · intro i hi
        rcases Nat.lt_succ_iff_lt_or_eq.mp hi with hi | rfl
        · exact h.le.trans (h2 i hi)
        · exact le_rfl
      · intro i hi
        exact h.trans_le (h2 i hi)
    · refine ⟨h1, ?_, h3⟩
      intro i hi
      rcases Nat.lt_succ_iff_lt_or_eq.mp hi with hi | rfl
      · exact h2 i hi
      · exact not_lt.mp h

omit [IsStrictOrderedRing K] in
/-- C92: the seeds of all axes are returned, and the chosen axis is the first of those with the least
error. -/
theorem C92_axis (sqrt : K → K) (dim : ℕ) (hdim : 0 < dim) (nodes : List (ℕ → K)) :
    (baseSeedIndices sqrt dim nodes).1.length = dim ∧
      (∀ c < dim, (baseSeedIndices sqrt dim nodes).1[c]? = some (closestToAxis sqrt dim nodes c).2) ∧
      (baseSeedIndices sqrt dim nodes).2 < dim ∧
      (∀ c < dim, (closestToAxis sqrt dim nodes (baseSeedIndices sqrt dim nodes).2).1 ≤
        (closestToAxis sqrt dim nodes c).1) ∧
      ∀ c < (baseSeedIndices sqrt dim nodes).2,
        (closestToAxis sqrt dim nodes (baseSeedIndices sqrt dim nodes).2).1 <
          (closestToAxis sqrt dim nodes c).1 := by
  have hlen : (((List.range dim).map fun c => closestToAxis sqrt dim nodes c).map fun r => r.1).length
      = dim := by simp
  have hget : ∀ c < dim, (((List.range dim).map fun c => closestToAxis sqrt dim nodes c).map
      fun r => r.1).getD c 0 = (closestToAxis sqrt dim nodes c).1 := by
    intro c hc
    simp [hc]
  obtain ⟨h1, h2, h3⟩ := argmin_fold _ dim hlen.ge (by omega :
    0 < (((List.range dim).map fun c => closestToAxis sqrt dim nodes c).map fun r => r.1).length)
  have hb : (baseSeedIndices sqrt dim nodes).2 = (List.range dim).foldl (fun (best : ℕ) i =>
      if (((List.range dim).map fun c => closestToAxis sqrt dim nodes c).map fun r => r.1).getD i 0 <
        (((List.range dim).map fun c => closestToAxis sqrt dim nodes c).map fun r => r.1).getD best 0
      then i else best) 0 := by
    unfold baseSeedIndices npArgmin
    simp only [hlen]
  rw [← hb, hlen] at h1
  rw [← hb] at h2 h3
  refine ⟨by simp [baseSeedIndices], ?_, h1, ?_, ?_⟩
  · intro c hc
    simp [baseSeedIndices, hc]
  · intro c hc
    have := h2 c hc
    rwa [hget _ h1, hget c hc] at this
  · intro c hc
    have := h3 c hc
    rwa [hget _ h1, hget c (hc.trans h1)] at this

/-- C92: the extent is the greatest difference of coordinates of two nodes. -/
theorem C92_scale (nodes : List (ℕ → K)) (hne : nodes ≠ []) :
    ∃ scale, meshScale nodes = some scale ∧ ∀ c,
      (∃ p ∈ nodes, ∃ q ∈ nodes, p c - q c = scale c) ∧
      ∀ p ∈ nodes, ∀ q ∈ nodes, p c - q c ≤ scale c := by
  obtain ⟨first, rest, rfl⟩ := List.exists_cons_of_ne_nil hne
  refine ⟨_, rfl, ?_⟩
  intro c
  obtain ⟨⟨q, hq, hq1⟩, hq2⟩ := columnMin_spec first rest c
  obtain ⟨⟨p, hp, hp1⟩, hp2⟩ := columnMax_spec first rest c
  refine ⟨⟨p, hp, q, hq, by rw [hp1, hq1]⟩, ?_⟩
  intro p' hp' q' hq'
  have := hp2 p' hp'
  have := hq2 q' hq'
  linarith

/-- C92: the extent does not depend on the position, and a mesh without nodes has none. -/
theorem C92_scale_position (nodes : List (ℕ → K)) (d : ℕ → K) (s s' : ℕ → K)
    (h : meshScale nodes = some s) (h' : meshScale (nodes.map fun row c => row c + d c) = some s') :
    s = s' := by
  have hne : nodes ≠ [] := by rintro rfl; simp [meshScale] at h
  obtain ⟨t, ht, h1⟩ := C92_scale nodes hne
  obtain ⟨t', ht', h2⟩ := C92_scale (nodes.map fun row c => row c + d c) (by simpa using hne)
  rw [h] at ht
  rw [h'] at ht'
  obtain rfl := Option.some.inj ht
  obtain rfl := Option.some.inj ht'
  funext c
  apply le_antisymm
  · obtain ⟨⟨p, hp, q, hq, he⟩, -⟩ := h1 c
    have := (h2 c).2 _ (List.mem_map_of_mem (f := fun row c => row c + d c) hp) _
      (List.mem_map_of_mem (f := fun row c => row c + d c) hq)
    linarith
  · obtain ⟨⟨p, hp, q, hq, he⟩, -⟩ := h2 c
    obtain ⟨p', hp', rfl⟩ := List.mem_map.mp hp
    obtain ⟨q', hq', rfl⟩ := List.mem_map.mp hq
    have := (h1 c).2 _ hp' _ hq'
    simp only at he
    linarith

/-- C92: centring keeps the number and the differences of the nodes and puts their mean at the origin. -/
theorem C92_centre (nodes : List (ℕ → K)) (hne : nodes ≠ []) :
    (normalizeShift nodes).length = nodes.length ∧
      (∀ c, ((normalizeShift nodes).map fun row => row c).sum = 0) ∧
      ∀ (i j : ℕ) (hi : i < nodes.length) (hj : j < nodes.length), ∃ p q,
        (normalizeShift nodes)[i]? = some p ∧ (normalizeShift nodes)[j]? = some q ∧
          ∀ c, p c - q c = nodes[i] c - nodes[j] c := by
  have hn : (nodes.length : K) ≠ 0 := by
    rw [Nat.cast_ne_zero]
    simpa using hne
  refine ⟨by simp [normalizeShift], ?_, ?_⟩
  · intro c
    have hsub : ∀ (l : List (ℕ → K)) (m : K),
        (l.map fun row => row c - m).sum = (l.map fun row => row c).sum - l.length * m := by
      intro l m
      induction l with
      | nil => simp
      | cons a l ih =>
        simp only [List.map_cons, List.sum_cons, ih, List.length_cons]
        push_cast
        ring
    unfold normalizeShift
    rw [List.map_map]
    change (nodes.map fun row => row c - _).sum = 0
    rw [hsub, mul_div_cancel₀ _ hn, sub_self]
  · intro i j hi hj
    refine ⟨_, _, by rw [normalizeShift, List.getElem?_map, List.getElem?_eq_getElem hi]; rfl,
      by rw [normalizeShift, List.getElem?_map, List.getElem?_eq_getElem hj]; rfl, ?_⟩
    intro c
    ring

/-- C92: centring forgets the position of the mesh. -/
theorem C92_centre_position (nodes : List (ℕ → K)) (d : ℕ → K) :
    normalizeShift (nodes.map fun row c => row c + d c) = normalizeShift nodes := by
  by_cases hne : nodes = []
  · subst hne
    rfl
  have hn : (nodes.length : K) ≠ 0 := by
    rw [Nat.cast_ne_zero]
    simpa using hne
  have hadd : ∀ (l : List (ℕ → K)) (c : ℕ),
      (l.map fun row => row c + d c).sum = (l.map fun row => row c).sum + l.length * d c := by
    intro l c
    induction l with
    | nil => simp
    | cons a l ih =>
      simp only [List.map_cons, List.sum_cons, ih, List.length_cons]
      push_cast
      ring
  unfold normalizeShift
  rw [List.map_map]
  apply List.map_congr_left
  intro row _
  funext c
  simp only [Function.comp, List.map_map, List.length_map]
  change row c + d c - (nodes.map fun r => r c + d c).sum / _ = _
  rw [hadd, add_div, mul_div_cancel_left₀ _ hn]
  ring

noncomputable example : IsSqrt Real.sqrt := fun _ hx => ⟨Real.sqrt_nonneg _, Real.mul_self_sqrt hx⟩

/-- The corners of the square of side one half, first coordinate last. -/
example : ∃ i j error, closestToAxis Real.sqrt 2
    [fun _ => 0, fun c => if c = 0 then 1 / 2 else 0, fun c => if c = 1 then 1 / 2 else 0] 0 = (error, i, j) ∧
    IsSeed 2 0 ([fun _ => 0, fun c => if c = 0 then 1 / 2 else 0,
      fun c => if c = 1 then 1 / 2 else 0] : List (ℕ → ℝ)) i j := by
  obtain ⟨i, j, error, h1, h2, -⟩ := C92_seed_partial (sqrt := Real.sqrt)
    (fun _ hx => ⟨Real.sqrt_nonneg _, Real.mul_self_sqrt hx⟩) 2 0
    ([fun _ => 0, fun c => if c = 0 then 1 / 2 else 0, fun c => if c = 1 then 1 / 2 else 0] : List (ℕ → ℝ))
    ⟨0, 1, by simp, by simp, by simp, by
      have : (Finset.range 2).erase 0 = {1} := by decide
      simp [offAxisSq, this]⟩
  exact ⟨i, j, error, h1, h2⟩

/-- Two nodes one apart in both coordinates. -/
example : closestToAxis Real.sqrt 2 ([fun _ => 0, fun _ => 1] : List (ℕ → ℝ)) 0 = (1, 0, 0) := by
  refine (C92_far_wrong (fun _ hx => ⟨Real.sqrt_nonneg _, Real.mul_self_sqrt hx⟩) 2 0 _ ?_).1
  intro p q hp hq hpq
  have h : (Finset.range 2).erase 0 = {1} := by decide
  simp only [List.length_cons, List.length_nil] at hp hq
  interval_cases p <;> interval_cases q <;> simp [offAxisSq, h] at hpq ⊢

end C92

section C93

omit [Field K] [LinearOrder K] [IsStrictOrderedRing K] in
theorem cellsDict_spec (file : MeshFile K) (kind : String) :
    (file.cellsDict kind = none ↔ ∀ b ∈ file.blocks, b.1 ≠ kind) ∧
      ∀ cells, file.cellsDict kind = some cells → ∀ cell, cells.count cell = countCells file.blocks kind cell := by
  unfold MeshFile.cellsDict
  constructor
  · split_ifs with h
    · simp only [List.any_eq_true, beq_iff_eq] at h
      obtain ⟨b, hb, he⟩ := h
      simp only [false_iff, not_forall]
      exact ⟨b, hb, fun h => h he⟩
    · simp only [List.any_eq_true, beq_iff_eq, not_exists, not_and] at h
      simpa using h
  · intro cells h cell
    split_ifs at h with h'
    obtain rfl := Option.some.inj h
    unfold countCells
    clear h h'
    induction file.blocks with
    | nil => simp
    | cons b l ih =>
      by_cases hb : b.1 = kind
      · simp [hb, List.count_append, ih]
      · simp [hb, ih]

omit [Field K] [LinearOrder K] [IsStrictOrderedRing K] in
/-- C93: a file with tetrahedra is imported with all its points and coordinates, and the elements are exactly
the tetrahedra of the file, each as often as in the file. -/
theorem C93_space (file : MeshFile K) (h : ∃ b ∈ file.blocks, b.1 = "tetra") :
    ∃ mesh, importMesh file = some mesh ∧ mesh.nodes = file.points ∧ mesh.columns = file.columns ∧
      ∀ cell, mesh.elements.count cell = countCells file.blocks "tetra" cell := by
  obtain ⟨h1, h2⟩ := cellsDict_spec file "tetra"
  obtain ⟨b, hb, he⟩ := h
  cases hd : file.cellsDict "tetra" with
  | none => exact absurd he (h1.mp hd b hb)
  | some cells => exact ⟨⟨_, _, cells⟩, by simp [importMesh, hd], rfl, rfl, h2 cells hd⟩

omit [Field K] [LinearOrder K] [IsStrictOrderedRing K] in
/-- C93: a file with triangles and without tetrahedra is imported as a mesh of the plane with all its points,
and the elements are exactly the triangles of the file, each as often as in the file. -/
theorem C93_plane (file : MeshFile K) (h3 : ∀ b ∈ file.blocks, b.1 ≠ "tetra")
    (h2 : ∃ b ∈ file.blocks, b.1 = "triangle") (hc : file.columns = 2 ∨ file.columns = 3) :
    ∃ mesh, importMesh file = some mesh ∧ mesh.nodes = file.points ∧ mesh.columns = 2 ∧
      ∀ cell, mesh.elements.count cell = countCells file.blocks "triangle" cell := by
  obtain ⟨h4, -⟩ := cellsDict_spec file "tetra"
  obtain ⟨h5, h6⟩ := cellsDict_spec file "triangle"
  obtain ⟨b, hb, he⟩ := h2
  cases hd : file.cellsDict "triangle" with
  | none => exact absurd he (h5.mp hd b hb)
  | some cells =>
    refine ⟨⟨file.points, 2, cells⟩, ?_, rfl, rfl, h6 cells hd⟩
    rcases hc with hc | hc <;> simp [importMesh, h4.mpr h3, hd, hc]

omit [Field K] [LinearOrder K] [IsStrictOrderedRing K] in
/-- C93: the import fails exactly for files without tetrahedra and triangles. -/
theorem C93_error (file : MeshFile K) :
    importMesh file = none ↔ ∀ b ∈ file.blocks, b.1 ≠ "tetra" ∧ b.1 ≠ "triangle" := by
  obtain ⟨h4, -⟩ := cellsDict_spec file "tetra"
  obtain ⟨h5, -⟩ := cellsDict_spec file "triangle"
  rw [forall₂_and, ← h4, ← h5]
  unfold importMesh
  cases file.cellsDict "tetra" <;> cases file.cellsDict "triangle" <;> simp

omit [Field K] [LinearOrder K] [IsStrictOrderedRing K] in
/-- C93: the elements are simplices of the dimension of the mesh, if the cells of the file have as many
corners as their types say and tetrahedra have points in space. -/
theorem C93_dimension (file : MeshFile K)
    (h3 : ∀ b ∈ file.blocks, b.1 = "tetra" → file.columns = 3 ∧ ∀ cell ∈ b.2, cell.length = 4)
    (h2 : ∀ b ∈ file.blocks, b.1 = "triangle" → ∀ cell ∈ b.2, cell.length = 3)
    (hc : file.columns = 2 ∨ file.columns = 3) (mesh : BuiltMesh K) (hm : importMesh file = some mesh) :
    ∀ cell ∈ mesh.elements, cell.length = mesh.columns + 1 := by
  have hmem : ∀ kind cell, 0 < countCells file.blocks kind cell →
      ∃ b ∈ file.blocks, b.1 = kind ∧ cell ∈ b.2 := by
    intro kind cell hpos
    unfold countCells at hpos
    by_contra hno
    push Not at hno
    have : (file.blocks.map fun b => if b.1 = kind then b.2.count cell else 0).sum = 0 := by
      rw [List.sum_eq_zero_iff]
      intro x hx
      obtain ⟨b, hb, rfl⟩ := List.mem_map.mp hx
      split_ifs with h
      · exact List.count_eq_zero_of_not_mem (hno b hb h)
      · rfl
    omega
  intro cell hcell
  have hpos : 0 < mesh.elements.count cell := List.count_pos_iff.mpr hcell
  by_cases ht : ∃ b ∈ file.blocks, b.1 = "tetra"
  · obtain ⟨m, h4, -, h5, h6⟩ := C93_space file ht
    rw [hm] at h4
    obtain rfl := Option.some.inj h4
    rw [h6] at hpos
    obtain ⟨b, hb, hk, hin⟩ := hmem _ _ hpos
    rw [h5, (h3 b hb hk).1, (h3 b hb hk).2 cell hin]
  · have ht' : ∀ b ∈ file.blocks, b.1 ≠ "tetra" := fun b hb h => ht ⟨b, hb, h⟩
    by_cases hd : ∃ b ∈ file.blocks, b.1 = "triangle"
    · obtain ⟨m, h4, -, h5, h6⟩ := C93_plane file ht' hd hc
      rw [hm] at h4
      obtain rfl := Option.some.inj h4
      rw [h6] at hpos
      obtain ⟨b, hb, hk, hin⟩ := hmem _ _ hpos
      rw [h5, h2 b hb hk cell hin]
    · have := (C93_error file).mpr fun b hb => ⟨ht' b hb, fun h => hd ⟨b, hb, h⟩⟩
      rw [this] at hm
      cases hm

/-- C93: dropping the third coordinate keeps the area of triangles parallel to the plane. Missing for the
full property: other triangles, for which it is false. -/
theorem C93_area_partial (a b c : ℕ → K) (h1 : b 2 = a 2) (h2 : c 2 = a 2) :
    areaSq2 a b c = areaSq3 a b c := by
  unfold areaSq2 areaSq3
  rw [h1, h2]
  ring

/-- C93 is false for surfaces in space: every proper triangle which is not parallel to the plane becomes
smaller, without any error. -/
theorem C93_area_wrong (file : MeshFile K) (h3 : ∀ b ∈ file.blocks, b.1 ≠ "tetra")
    (hc : file.columns = 3) (mesh : BuiltMesh K) (hm : importMesh file = some mesh)
    (i j k : ℕ) (hi : i < file.points.length) (hj : j < file.points.length) (hk : k < file.points.length)
    (hcell : [i, j, k] ∈ mesh.elements)
    (harea : areaSq3 file.points[i] file.points[j] file.points[k] ≠ 0)
    (htilt : file.points[j] 2 ≠ file.points[i] 2 ∨ file.points[k] 2 ≠ file.points[i] 2) :
    mesh.columns = 2 ∧ ∃ a b c, mesh.nodes[i]? = some a ∧ mesh.nodes[j]? = some b ∧
      mesh.nodes[k]? = some c ∧
      areaSq2 a b c < areaSq3 file.points[i] file.points[j] file.points[k] := by
  have hd : ∃ b ∈ file.blocks, b.1 = "triangle" := by
    by_contra hno
    push Not at hno
    rw [(C93_error file).mpr fun b hb => ⟨h3 b hb, hno b hb⟩] at hm
    cases hm
  obtain ⟨m, h4, h5, h6, -⟩ := C93_plane file h3 hd (Or.inr hc)
  rw [hm] at h4
  obtain rfl := Option.some.inj h4
  refine ⟨h6, file.points[i], file.points[j], file.points[k], by rw [h5]; simp, by rw [h5]; simp,
    by rw [h5]; simp, ?_⟩
  generalize file.points[i] = a at *
  generalize file.points[j] = b at *
  generalize file.points[k] = c at *
  unfold areaSq2 areaSq3 at *
  by_contra hle
  push Not at hle
  have e1 : (b 1 - a 1) * (c 2 - a 2) - (b 2 - a 2) * (c 1 - a 1) = 0 := by
    rw [← pow_eq_zero_iff (n := 2) (by norm_num)]
    nlinarith [sq_nonneg ((b 1 - a 1) * (c 2 - a 2) - (b 2 - a 2) * (c 1 - a 1)),
      sq_nonneg ((b 2 - a 2) * (c 0 - a 0) - (b 0 - a 0) * (c 2 - a 2))]
  have e2 : (b 2 - a 2) * (c 0 - a 0) - (b 0 - a 0) * (c 2 - a 2) = 0 := by
    rw [← pow_eq_zero_iff (n := 2) (by norm_num)]
    nlinarith [sq_nonneg ((b 1 - a 1) * (c 2 - a 2) - (b 2 - a 2) * (c 1 - a 1)),
      sq_nonneg ((b 2 - a 2) * (c 0 - a 0) - (b 0 - a 0) * (c 2 - a 2))]
  have e3 : (b 0 - a 0) * (c 1 - a 1) - (b 1 - a 1) * (c 0 - a 0) ≠ 0 := by
    intro h
    rw [e1, e2, h] at harea
    simp at harea
  have f1 : (b 2 - a 2) * ((b 0 - a 0) * (c 1 - a 1) - (b 1 - a 1) * (c 0 - a 0)) = 0 := by
    linear_combination (-(b 0 - a 0)) * e1 - (b 1 - a 1) * e2
  have f2 : (c 2 - a 2) * ((b 0 - a 0) * (c 1 - a 1) - (b 1 - a 1) * (c 0 - a 0)) = 0 := by
    linear_combination (-(c 0 - a 0)) * e1 - (c 1 - a 1) * e2
  rcases htilt with h | h
  · exact (mul_ne_zero (sub_ne_zero.mpr h) e3) f1
  · exact (mul_ne_zero (sub_ne_zero.mpr h) e3) f2

omit [Field K] [LinearOrder K] [IsStrictOrderedRing K] in
/-- C93 is false for files with several types of cells: all cells but the triangles of a plane mesh are left
out without any error, so that quadrilaterals become holes. -/
theorem C93_mixed_wrong (file : MeshFile K) (h3 : ∀ b ∈ file.blocks, b.1 ≠ "tetra")
    (h2 : ∃ b ∈ file.blocks, b.1 = "triangle") (quads : List (List ℕ)) :
    importMesh file ≠ none ∧
      importMesh { file with blocks := file.blocks ++ [("quad", quads)] } = importMesh file := by
  constructor
  · intro h
    obtain ⟨b, hb, he⟩ := h2
    exact ((C93_error file).mp h b hb).2 he
  · have hkind : ∀ kind, kind ≠ "quad" →
        MeshFile.cellsDict { file with blocks := file.blocks ++ [("quad", quads)] } kind =
          file.cellsDict kind := by
      intro kind hk
      have hf : (("quad" : String) == kind) = false := by simpa using hk.symm
      have ha : ((file.blocks ++ [("quad", quads)]).any fun b => b.1 == kind) =
          file.blocks.any fun b => b.1 == kind := by
        rw [List.any_append]
        simp only [List.any_cons, List.any_nil, hf, Bool.or_false]
      unfold MeshFile.cellsDict
      simp only [ha, List.filter_append]
      simp [hf]
    unfold importMesh
    rw [hkind _ (by decide), hkind _ (by decide)]

/-- A file as gmsh writes it for a plane mesh: lines of the boundary, triangles, points at height zero. -/
example : ∃ mesh, importMesh (⟨[fun _ => 0, fun c => if c = 0 then 1 else 0,
    fun c => if c = 1 then 1 else 0], 3, [("line", [[0, 1]]), ("triangle", [[0, 1, 2]])]⟩ : MeshFile ℚ)
      = some mesh ∧ mesh.columns = 2 ∧ mesh.elements = [[0, 1, 2]] := ⟨_, rfl, rfl, rfl⟩

/-- A triangle of slope one. -/
example : areaSq3 (fun _ => 0) (fun c => if c = 1 then 0 else 1) (fun c => if c = 1 then (1 : ℚ) else 0) = 2 ∧
    areaSq2 (fun _ => 0) (fun c => if c = 1 then 0 else 1) (fun c => if c = 1 then (1 : ℚ) else 0) = 1 := by
  constructor <;> norm_num [areaSq3, areaSq2]

end C93

end Conmech
