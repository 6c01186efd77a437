import Mathlib.Tactic.Linarith
import Mathlib.Algebra.Order.Ring.Rat
import Verif.Model.Sources
/-!
C79: the sources of a problem. `nodes` are the rows of the array of nodes, all with `dim` coordinates.
-/
namespace Conmech

variable {K : Type} [Field K]

/-- A source that can be called with a node and a time and returns `k` values. -/
def Spec.HasComponents (s : Source K) (k : ℕ) : Prop :=
  s.signature.accepts 2 = true ∧ ∀ x t, (s.value x t).length = k

open Spec

omit [Field K] in
theorem rows_ok (s : Source K) (k : ℕ) (hs : HasComponents s k) (nodes : List (List K)) (time : K) :
    s.rows nodes time = .ok (nodes.map fun x => s.value x time) := by
  have h1 : ¬ (nodes ≠ [] ∧ s.signature.accepts 2 = false) := fun h => by rw [hs.1] at h; exact nomatch h.2
  unfold Source.rows
  rw [if_neg h1]
  refine if_pos ?_
  rw [List.all_eq_true]
  intro r hr
  obtain ⟨x, hx, rfl⟩ := List.mem_map.1 hr
  cases nodes with
  | nil => cases hx
  | cons y ys => simp only [List.map_cons, List.headD_cons, hs.2, beq_self_eq_true]

/-- C79: sources that can be called with a node and a time and return `k` values give `k` loads per
node, the values weighted by the volume and by the loaded surface. -/
theorem C79_loads_partial (volume : ℕ → ℕ → K) (surface : ℕ → K) (inner outer : Source K) (k : ℕ)
    (hi : HasComponents inner k) (ho : HasComponents outer k) (nodes : List (List K))
    (hne : nodes ≠ []) (time : K) :
    ∃ loads, integrateSources volume surface inner outer nodes time = .ok loads ∧
      loads.length = k * nodes.length ∧
      ∀ p < nodes.length, ∀ a < k,
        loads.getD (a * nodes.length + p) 0 =
          (∑ q ∈ Finset.range nodes.length, volume p q * (inner.value (nodes.getD q []) time).getD a 0) +
            surface p * (outer.value (nodes.getD p []) time).getD a 0 := by
  have hlen : ∀ (s : Source K), HasComponents s k →
      ((nodes.map fun x => s.value x time).headD []).length = k := by
    intro s hs
    cases nodes with
    | nil => exact absurd rfl hne
    | cons y ys => simp only [List.map_cons, List.headD_cons, hs.2]
  have hb : broadcast k k = .ok k := if_pos rfl
  have hent : ∀ (s : Source K), HasComponents s k → ∀ p < nodes.length, ∀ a < k,
      broadcastEntry ((nodes.map fun x => s.value x time).getD p []) a =
        (s.value (nodes.getD p []) time).getD a 0 := by
    intro s hs p hp a ha
    have e : (nodes.map fun x => s.value x time).getD p [] = s.value (nodes.getD p []) time := by
      simp only [List.getD_eq_getElem?_getD, List.getElem?_map, List.getElem?_eq_getElem hp,
        Option.map_some, Option.getD_some]
    unfold broadcastEntry
    rw [e, hs.2]
    by_cases h1 : k = 1
    · rw [if_pos h1]; congr 1; omega
    · rw [if_neg h1]
  have hint : integrateSources volume surface inner outer nodes time =
      .ok ((List.range (k * nodes.length)).map fun r =>
        (∑ q ∈ Finset.range nodes.length, volume (r % nodes.length) q *
          broadcastEntry ((nodes.map fun x => inner.value x time).getD q []) (r / nodes.length)) +
        surface (r % nodes.length) * broadcastEntry
          ((nodes.map fun x => outer.value x time).getD (r % nodes.length) []) (r / nodes.length)) := by
    unfold integrateSources
    rw [rows_ok inner k hi, rows_ok outer k ho]
    simp only [bind, Except.bind, hlen inner hi, hlen outer ho, hb, pure, Except.pure]
  refine ⟨_, hint, by rw [List.length_map, List.length_range], ?_⟩
  intro p hp a ha
  have hr : a * nodes.length + p < k * nodes.length := by
    have := Nat.mul_le_mul_right nodes.length (Nat.succ_le_of_lt ha)
    rw [Nat.succ_mul] at this
    omega
  have hN : 0 < nodes.length := by omega
  have hm : (a * nodes.length + p) % nodes.length = p := by
    rw [Nat.add_comm, Nat.add_mul_mod_self_right, Nat.mod_eq_of_lt hp]
  have hd : (a * nodes.length + p) / nodes.length = a := by
    rw [Nat.add_comm, Nat.add_mul_div_right _ _ hN, Nat.div_eq_of_lt hp, Nat.zero_add]
  rw [List.getD_eq_getElem?_getD, List.getElem?_map, List.getElem?_range hr, Option.map_some,
    Option.getD_some, hm, hd, hent outer ho p hp a ha]
  congr 1
  exact Finset.sum_congr rfl fun q hq => by rw [hent inner hi q (Finset.mem_range.1 hq) a ha]

/-- C79: sources with different numbers of values. A source with a single value counts for all components;
otherwise numbers that differ are an error. -/
theorem C79_mixed (volume : ℕ → ℕ → K) (surface : ℕ → K) (inner outer : Source K) (k l : ℕ)
    (hi : HasComponents inner k) (ho : HasComponents outer l) (nodes : List (List K))
    (hne : nodes ≠ []) (time : K) :
    (k = l ∨ k = 1 ∨ l = 1 →
      ∃ loads, integrateSources volume surface inner outer nodes time = .ok loads ∧
        loads.length = (if k = 1 then l else k) * nodes.length ∧
        ∀ p < nodes.length, ∀ a < (if k = 1 then l else k),
          loads.getD (a * nodes.length + p) 0 =
            (∑ q ∈ Finset.range nodes.length, volume p q *
              (inner.value (nodes.getD q []) time).getD (if k = 1 then 0 else a) 0) +
              surface p * (outer.value (nodes.getD p []) time).getD (if l = 1 then 0 else a) 0) ∧
    (k ≠ l → k ≠ 1 → l ≠ 1 → integrateSources volume surface inner outer nodes time = .error .shape) := by
  have hlen : ∀ (s : Source K) (k : ℕ), HasComponents s k →
      ((nodes.map fun x => s.value x time).headD []).length = k := by
    intro s k hs
    cases nodes with
    | nil => exact absurd rfl hne
    | cons y ys => simp only [List.map_cons, List.headD_cons, hs.2]
  have hent : ∀ (s : Source K) (k : ℕ), HasComponents s k → ∀ p < nodes.length, ∀ a,
      broadcastEntry ((nodes.map fun x => s.value x time).getD p []) a =
        (s.value (nodes.getD p []) time).getD (if k = 1 then 0 else a) 0 := by
    intro s k hs p hp a
    have e : (nodes.map fun x => s.value x time).getD p [] = s.value (nodes.getD p []) time := by
      simp only [List.getD_eq_getElem?_getD, List.getElem?_map, List.getElem?_eq_getElem hp,
        Option.map_some, Option.getD_some]
    unfold broadcastEntry
    rw [e, hs.2]
  constructor
  · intro h
    have hb : broadcast k l = .ok (if k = 1 then l else k) := by
      unfold broadcast
      rcases h with h | h | h <;> subst h
      · rw [if_pos rfl]; split_ifs with h1 <;> rfl
      · split_ifs with h1 <;> simp_all
      · by_cases h1 : k = 1 <;> simp [h1]
    generalize (if k = 1 then l else k) = m at hb ⊢
    have hint : integrateSources volume surface inner outer nodes time =
        .ok ((List.range (m * nodes.length)).map fun r =>
          (∑ q ∈ Finset.range nodes.length, volume (r % nodes.length) q *
            broadcastEntry ((nodes.map fun x => inner.value x time).getD q []) (r / nodes.length)) +
          surface (r % nodes.length) * broadcastEntry
            ((nodes.map fun x => outer.value x time).getD (r % nodes.length) []) (r / nodes.length)) := by
      unfold integrateSources
      rw [rows_ok inner k hi, rows_ok outer l ho]
      simp only [bind, Except.bind, hlen inner k hi, hlen outer l ho, hb, pure, Except.pure]
    refine ⟨_, hint, by rw [List.length_map, List.length_range], ?_⟩
    intro p hp a ha
    have hr : a * nodes.length + p < m * nodes.length := by
      have := Nat.mul_le_mul_right nodes.length (Nat.succ_le_of_lt ha)
      rw [Nat.succ_mul] at this
      omega
    have hN : 0 < nodes.length := by omega
    have hm : (a * nodes.length + p) % nodes.length = p := by
      rw [Nat.add_comm, Nat.add_mul_mod_self_right, Nat.mod_eq_of_lt hp]
    have hd : (a * nodes.length + p) / nodes.length = a := by
      rw [Nat.add_comm, Nat.add_mul_div_right _ _ hN, Nat.div_eq_of_lt hp, Nat.zero_add]
    rw [List.getD_eq_getElem?_getD, List.getElem?_map, List.getElem?_range hr, Option.map_some,
      Option.getD_some, hm, hd, hent outer l ho p hp a]
    congr 1
    exact Finset.sum_congr rfl fun q hq => by rw [hent inner k hi q (Finset.mem_range.1 hq) a]
  · intro h1 h2 h3
    unfold integrateSources
    rw [rows_ok inner k hi, rows_ok outer l ho]
    simp only [bind, Except.bind, hlen inner k hi, hlen outer l ho, broadcast, if_neg h1, if_neg h2, if_neg h3]

/-- C79: sources that return `k` zeros are no loads. -/
theorem C79_zero_partial (volume : ℕ → ℕ → K) (surface : ℕ → K) (inner outer : Source K) (k : ℕ)
    (hi : HasComponents inner k) (ho : HasComponents outer k)
    (hi0 : ∀ x t, ∀ v ∈ inner.value x t, v = 0) (ho0 : ∀ x t, ∀ v ∈ outer.value x t, v = 0)
    (nodes : List (List K)) (hne : nodes ≠ []) (time : K) :
    integrateSources volume surface inner outer nodes time =
      .ok (List.replicate (k * nodes.length) 0) := by
  obtain ⟨loads, h, hl, hv⟩ := C79_loads_partial volume surface inner outer k hi ho nodes hne time
  rw [h]
  congr 1
  rw [List.eq_replicate_iff]
  refine ⟨hl, fun x hx => ?_⟩
  obtain ⟨r, hr, rfl⟩ := List.getElem_of_mem hx
  rw [hl] at hr
  have hN : 0 < nodes.length := List.length_pos_iff.2 hne
  have hz : ∀ (s : Source K), (∀ x t, ∀ v ∈ s.value x t, v = 0) → ∀ x a, (s.value x time).getD a 0 = 0 := by
    intro s hs x a
    rw [List.getD_eq_getElem?_getD]
    cases e : (s.value x time)[a]? with
    | none => rfl
    | some v => exact hs x time v (List.mem_of_getElem? e)
  have := hv (r % nodes.length) (Nat.mod_lt _ hN) (r / nodes.length)
    (by rw [Nat.div_lt_iff_lt_mul hN]; exact hr)
  rw [Nat.div_add_mod'] at this
  simp only [hz inner hi0, hz outer ho0, mul_zero, Finset.sum_const_zero, add_zero] at this
  rw [← this, List.getD_eq_getElem?_getD, List.getElem?_eq_getElem (by rw [hl]; exact hr),
    Option.getD_some]

omit [Field K] in
theorem rows_call_error (s : Source K) (hs : s.signature.accepts 2 = false) (nodes : List (List K))
    (hne : nodes ≠ []) (time : K) : s.rows nodes time = .error .call := if_pos ⟨hne, hs⟩

/-- C79 is wrong for forces: a problem that keeps one of the default forces of `Problem` cannot be
solved, whatever the other force is, because the default takes the time by name only: a call has exactly
one positional argument, and then gives zero forces. (The other force may fail first in the same way or by
its shape.) -/
theorem C79_forces_wrong (volume : ℕ → ℕ → K) (surface : ℕ → K) (nodes : List (List K))
    (hne : nodes ≠ []) (time : K) :
    (∀ n, (Source.defaultForces : Source K).signature.accepts n = true ↔ n = 1) ∧
    (∀ x t, (Source.defaultForces : Source K).value x t = List.replicate x.length 0) ∧
    (∀ outer, integrateSources volume surface .defaultForces outer nodes time = .error .call) ∧
    (∀ inner, ∃ e, integrateSources volume surface inner .defaultForces nodes time = .error e) := by
  have hd : (Source.defaultForces : Source K).rows nodes time = .error .call :=
    rows_call_error _ rfl nodes hne time
  refine ⟨fun n => ?_, fun _ _ => List.map_const', ?_, ?_⟩
  · show decide (1 ≤ n ∧ n ≤ 1) = true ↔ n = 1
    rw [decide_eq_true_eq]
    omega
  · intro outer
    unfold integrateSources
    rw [hd]
    rfl
  · intro inner
    unfold integrateSources
    rw [hd]
    cases inner.rows nodes time with
    | error e => exact ⟨e, rfl⟩
    | ok f => exact ⟨.call, rfl⟩

/-- The shape of the loads of the default temperatures. -/
theorem defaultTemperature_loads (volume : ℕ → ℕ → K) (surface : ℕ → K) (dim : ℕ)
    (nodes : List (List K)) (hn : ∀ x ∈ nodes, x.length = dim) (hne : nodes ≠ []) (time : K) :
    integrateSources volume surface .defaultTemperature .defaultTemperature nodes time =
      .ok (List.replicate (dim * nodes.length) 0) := by
  let s : Source K := { signature := ⟨1, 2⟩, value := fun _ _ => List.replicate dim 0 }
  have hrow : nodes.map (fun x => (Source.defaultTemperature : Source K).value x time) =
      nodes.map (fun x => s.value x time) :=
    List.map_congr_left fun x hx => by
      show List.replicate x.length (0 : K) = List.replicate dim 0
      rw [hn x hx]
  have hsame : (Source.defaultTemperature : Source K).rows nodes time = s.rows nodes time := by
    unfold Source.rows
    simp only [hrow]
    rfl
  have hint : integrateSources volume surface .defaultTemperature .defaultTemperature nodes time =
      integrateSources volume surface s s nodes time := by
    unfold integrateSources
    rw [hsame]
  have hs : HasComponents s dim := ⟨rfl, fun _ _ => List.length_replicate⟩
  rw [hint, C79_zero_partial volume surface s s dim hs hs (fun _ _ v hv => List.eq_of_mem_replicate hv)
    (fun _ _ v hv => List.eq_of_mem_replicate hv) nodes hne time]

/-- C79 is wrong for Poisson problems: the default temperatures give a load per coordinate and node
instead of one per node, and the linear system, which has one row per node, cannot be solved. -/
theorem C79_temperature_wrong (volume : ℕ → ℕ → K) (surface : ℕ → K) (dim : ℕ) (hd : 2 ≤ dim)
    (nodes : List (List K)) (hn : ∀ x ∈ nodes, x.length = dim) (hne : nodes ≠ []) (time : K)
    (solve : List K → List K) :
    (∀ n, (Source.defaultTemperature : Source K).signature.accepts n = true ↔ n = 1 ∨ n = 2) ∧
    (integrateSources volume surface .defaultTemperature .defaultTemperature nodes time).bind
      (linalgSolve solve nodes.length) = .error .shape := by
  refine ⟨fun n => ?_, ?_⟩
  · show decide (1 ≤ n ∧ n ≤ 2) = true ↔ n = 1 ∨ n = 2
    rw [decide_eq_true_eq]
    omega
  rw [defaultTemperature_loads volume surface dim nodes hn hne time]
  have hN : 0 < nodes.length := List.length_pos_iff.2 hne
  refine if_neg ?_
  rw [List.length_replicate]
  have := Nat.mul_le_mul_right nodes.length hd
  omega

/-- C79 is wrong for waves: with forces that have as many values as the nodes have coordinates, like
the declared defaults, the right hand side of the scalar wave equation cannot be formed. `a` is what is
added to the loads, one entry per node. -/
theorem C79_wave_wrong (volume : ℕ → ℕ → K) (surface : ℕ → K) (inner outer : Source K) (dim : ℕ)
    (hd : 2 ≤ dim) (hi : HasComponents inner dim) (ho : HasComponents outer dim)
    (nodes : List (List K)) (hne : 2 ≤ nodes.length) (time : K) (a : List K)
    (ha : a.length = nodes.length) :
    (integrateSources volume surface inner outer nodes time).bind (addArrays · a) =
      .error .shape := by
  obtain ⟨loads, h, hl, -⟩ := C79_loads_partial volume surface inner outer dim hi ho nodes
    (by rintro rfl; simp at hne) time
  rw [h]
  have := Nat.mul_le_mul_right nodes.length hd
  have hb : broadcast loads.length a.length = .error .shape := by
    unfold broadcast
    rw [if_neg (by omega), if_neg (by omega), if_neg (by omega)]
  simp only [Except.bind, addArrays, hb, bind]

/-- C79 for waves: with forces of one value the right hand side is the sum. -/
theorem C79_wave_partial (volume : ℕ → ℕ → K) (surface : ℕ → K) (inner outer : Source K)
    (hi : HasComponents inner 1) (ho : HasComponents outer 1) (nodes : List (List K))
    (hne : nodes ≠ []) (time : K) (a : List K) (ha : a.length = nodes.length) :
    ∃ rhs, (integrateSources volume surface inner outer nodes time).bind (addArrays · a) = .ok rhs ∧
      rhs.length = nodes.length ∧
      ∀ p < nodes.length, rhs.getD p 0 =
        ((∑ q ∈ Finset.range nodes.length, volume p q * (inner.value (nodes.getD q []) time).getD 0 0) +
            surface p * (outer.value (nodes.getD p []) time).getD 0 0) + a.getD p 0 := by
  obtain ⟨loads, h, hl, hv⟩ := C79_loads_partial volume surface inner outer 1 hi ho nodes hne time
  rw [one_mul] at hl
  rw [h]
  have hb : broadcast loads.length a.length = .ok nodes.length := by
    unfold broadcast
    rw [if_pos (by omega), hl]
  have hent : ∀ (l : List K), l.length = nodes.length → ∀ p < nodes.length,
      broadcastEntry l p = l.getD p 0 := by
    intro l hl p hp
    unfold broadcastEntry
    split_ifs with h1
    · congr 1; omega
    · rfl
  have hadd : addArrays loads a = .ok ((List.range nodes.length).map fun r =>
      broadcastEntry loads r + broadcastEntry a r) := by
    unfold addArrays
    rw [hb]
    rfl
  refine ⟨_, hadd, by rw [List.length_map, List.length_range], fun p hp => ?_⟩
  rw [List.getD_eq_getElem?_getD, List.getElem?_map, List.getElem?_range hp, Option.map_some,
    Option.getD_some, hent loads hl p hp, hent a ha p hp]
  have := hv p hp 0 Nat.one_pos
  rw [Nat.zero_mul, Nat.zero_add] at this
  rw [this]

/-- Hypotheses of C79 are met by a constant load on two nodes of the plane. -/
example : HasComponents ({ signature := ⟨1, 2⟩, value := fun _ _ => [0, -9] } : Source ℚ) 2 :=
  ⟨rfl, fun _ _ => rfl⟩
example : integrateSources (K := ℚ) (fun _ _ => 1 / 2) (fun p => (p : ℚ))
    ({ signature := ⟨1, 2⟩, value := fun x _ => [0, x.headD 0] } : Source ℚ)
    { signature := ⟨1, 3⟩, value := fun _ t => [t, 0] } [[2, 0], [4, 0]] 5 = .ok [0, 5, 3, 3] := by
  decide +kernel
example : integrateSources (K := ℚ) (fun _ _ => 1 / 2) (fun p => (p : ℚ))
    ({ signature := ⟨1, 2⟩, value := fun x _ => [0, x.headD 0] } : Source ℚ)
    .defaultForces [[2, 0], [4, 0]] 5 = .error .call := by decide +kernel

/-- A pressure with a single value acts in both directions. -/
example : integrateSources (K := ℚ) (fun _ _ => 1 / 2) (fun p => (p : ℚ))
    ({ signature := ⟨1, 2⟩, value := fun x _ => [0, x.headD 0] } : Source ℚ)
    { signature := ⟨1, 3⟩, value := fun _ t => [t] } [[2, 0], [4, 0]] 5 = .ok [0, 5, 3, 8] := by
  decide +kernel

end Conmech
